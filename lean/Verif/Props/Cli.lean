import Verif.Model.Cli
import Verif.Props.HttpForms
import Verif.Props.CacheKeys
import Mathlib.Data.List.TakeWhile
/-! C62, C69: the command-line tool. -/

open Cli

namespace Cli.Spec

/-- `item` is one of the pieces of `text` between commas. -/
def Piece (item text : Str) : Prop :=
  ',' ∉ item ∧ ∃ before after, text = before ++ item ++ after ∧ (before = [] ∨ before.getLast? = some ',') ∧ (after = [] ∨ after.head? = some ',')

/-- The texts on which reading a value crashes: a lone quote, and a list with such an item. -/
inductive Crashes : Str → Prop
  | double : Crashes c!"\""
  | single : Crashes c!"'"
  | item (inner item : Str) : Piece item inner → Crashes (Str.strip item) → Crashes ('[' :: (inner ++ [']']))

/-- Lower-casing keeps an opening bracket at the start. -/
def KeepsBracket (X : Ext) : Prop := ∀ t, ∃ t', X.lowerUni ('[' :: t) = '[' :: t'

/-- An argument after the expression. -/
inductive Word where
  | outputJson
  | json (text : Str)
  | set (name text : Str) (v : Value)

/-- How it is written; an option with a parameter takes two words. -/
def Word.words : Word → List Str
  | .outputJson => [c!"--output-json"]
  | .json t => [c!"--json", t]
  | .set n t _ => [n ++ '=' :: t]

/-- A name without `=`, and a text that is read as the value. -/
def Word.ok (X : Ext) : Word → Prop
  | .set n t v => '=' ∉ n ∧ parseValue X t = .ok v
  | _ => True

/-- The value given to a name: the last one. -/
def given (as : List Word) (n : Str) : Option Value :=
  as.reverse.findSome? fun
    | .set m _ v => if m = n then some v else none
    | _ => none

/-- The JSON given: the last one. -/
def document (as : List Word) : Option Str :=
  as.reverse.findSome? fun
    | .json t => some t
    | _ => none

/-- Whether JSON output is asked for. -/
def wantsJson (as : List Word) : Bool := as.any fun
  | .outputJson => true
  | _ => false

end Cli.Spec

namespace Cli
open Cli.Spec

/-! ### Pieces -/

theorem splitGo_mem (item : Str) : ∀ (text acc : Str), ',' ∉ acc → (item ∈ Str.splitGo c!"," 0 acc text ↔
    ',' ∉ item ∧ ((∃ after, acc.reverse ++ text = item ++ after ∧ (after = [] ∨ after.head? = some ',')) ∨
      ∃ before after, text = before ++ item ++ after ∧ before.getLast? = some ',' ∧ (after = [] ∨ after.head? = some ',')))
  | [], acc, ha => by
    simp only [Str.splitGo, List.mem_singleton]
    constructor
    · rintro rfl
      exact ⟨by simpa using ha, .inl ⟨[], by simp⟩⟩
    · rintro ⟨hi, ⟨after, h, h'⟩ | ⟨before, after, h, h', -⟩⟩
      · rcases h' with rfl | h'
        · simpa using h.symm
        · exfalso
          have : ',' ∈ item ++ after := List.mem_append.2 (.inr (List.mem_of_mem_head? h'))
          rw [← h] at this
          simp at this
          exact ha this
      · have : before = [] := by
          have := congrArg List.length h
          simp at this
          exact List.eq_nil_of_length_eq_zero (by omega)
        subst this
        simp at h'
  | c :: cs, acc, ha => by
    by_cases hc : c = ','
    · subst hc
      have e : Str.splitGo c!"," 0 acc (',' :: cs) = acc.reverse :: Str.splitGo c!"," 0 [] cs := by simp [Str.splitGo, Str.startsWith]
      rw [e, List.mem_cons, splitGo_mem item cs [] (by simp)]
      constructor
      · rintro (rfl | ⟨hi, ⟨after, h, h'⟩ | ⟨before, after, h, h1, h2⟩⟩)
        · exact ⟨by simpa using ha, .inl ⟨',' :: cs, rfl, by simp⟩⟩
        · simp only [List.reverse_nil, List.nil_append] at h
          exact ⟨hi, .inr ⟨[','], after, by simp [h], by simp, h'⟩⟩
        · exact ⟨hi, .inr ⟨',' :: before, after, by simp [h], by rw [List.getLast?_cons, h1]; rfl, h2⟩⟩
      · rintro ⟨hi, ⟨after, h, h'⟩ | ⟨before, after, h, h1, h2⟩⟩
        · left
          have ha' : ',' ∉ acc.reverse := by simpa using ha
          rcases h' with rfl | h'
          · exfalso
            apply hi
            have : ',' ∈ acc.reverse ++ ',' :: cs := by simp
            rw [h] at this
            simpa using this
          · cases after with
            | nil => simp at h'
            | cons a after =>
              obtain rfl : a = ',' := by simpa using h'
              exact ((split_at ha' hi h).1).symm
        · right
          refine ⟨hi, ?_⟩
          cases before with
          | nil => simp at h1
          | cons b before =>
            simp only [List.cons_append, List.cons.injEq] at h
            by_cases hb : before = []
            · subst hb
              exact .inl ⟨after, by simpa using h.2, h2⟩
            · refine .inr ⟨before, after, h.2, ?_, h2⟩
              rw [List.getLast?_cons] at h1
              cases hl : before.getLast? with
              | none => exact absurd (List.getLast?_eq_none_iff.1 hl) hb
              | some x => rw [hl] at h1; simpa using h1
    · have e : Str.splitGo c!"," 0 acc (c :: cs) = Str.splitGo c!"," 0 (c :: acc) cs := by simp [Str.splitGo, Str.startsWith, hc]
      rw [e, splitGo_mem item cs (c :: acc) (by simp [ha, Ne.symm hc])]
      refine and_congr_right fun hi => or_congr ?_ ?_
      · simp
      · constructor
        · rintro ⟨before, after, h, h1, h2⟩
          exact ⟨c :: before, after, by simp [h], by rw [List.getLast?_cons, h1]; rfl, h2⟩
        · rintro ⟨before, after, h, h1, h2⟩
          cases before with
          | nil => simp at h1
          | cons b before =>
            simp only [List.cons_append, List.cons.injEq] at h
            refine ⟨before, after, h.2, ?_, h2⟩
            rw [List.getLast?_cons] at h1
            cases hl : before.getLast? with
            | none =>
              rw [hl] at h1
              simp only [Option.getD_none, Option.some.injEq] at h1
              exact absurd (h.1.trans h1) hc
            | some x => rw [hl] at h1; simpa using h1

theorem split_mem (item text : Str) : item ∈ Str.split text c!"," ↔ Piece item text := by
  unfold Str.split Piece
  rw [if_neg (by simp), splitGo_mem item text [] (by simp)]
  refine and_congr_right fun _ => ?_
  constructor
  · rintro (⟨after, h, h'⟩ | ⟨before, after, h, h1, h2⟩)
    · exact ⟨[], after, by simpa using h, .inl rfl, h'⟩
    · exact ⟨before, after, h, .inr h1, h2⟩
  · rintro ⟨before, after, h, rfl | h1, h2⟩
    · exact .inl ⟨after, by simpa using h, h2⟩
    · exact .inr ⟨before, after, h, h1, h2⟩

theorem piece_length {item text : Str} (h : Piece item text) : item.length ≤ text.length := by
  obtain ⟨_, before, after, rfl, _⟩ := h
  simp
  omega

theorem strip_length (s : Str) : (Str.strip s).length ≤ s.length := by
  unfold Str.strip Str.trim
  rw [List.length_reverse]
  have h1 := (List.dropWhile_sublist Str.isWs (l := (s.dropWhile Str.isWs).reverse)).length_le
  have h2 := (List.dropWhile_sublist Str.isWs (l := s)).length_le
  rw [List.length_reverse] at h1
  omega

theorem strip_blank (s : Str) : Str.strip s = [] ↔ ∀ c ∈ s, Str.isWs c = true := by
  unfold Str.strip Str.trim
  rw [List.reverse_eq_nil_iff, List.dropWhile_eq_nil_iff]
  constructor
  · intro h c hc
    by_contra hn
    have h2 : ∀ x ∈ s.dropWhile Str.isWs, Str.isWs x = true := fun x hx => h x (List.mem_reverse.2 hx)
    have h3 : s.dropWhile Str.isWs ≠ [] := by
      intro e
      rw [List.dropWhile_eq_nil_iff] at e
      exact hn (e c hc)
    have := List.head_dropWhile_not Str.isWs h3
    have h4 := h2 _ (List.head_mem h3)
    rw [this] at h4
    exact absurd h4 (by simp)
  · intro h c hc
    exact h c ((List.dropWhile_sublist Str.isWs).subset (List.mem_reverse.1 hc))

/-! ### Quotes and brackets -/

theorem wrapped {a b : Char} {s : Str} : (Str.startsWith s [a] && Str.endsWith s [b]) = true ↔ (s = [a] ∧ a = b) ∨ ∃ t, s = a :: (t ++ [b]) := by
  unfold Str.endsWith
  cases s with
  | nil => simp [Str.startsWith]
  | cons c t =>
    rcases List.eq_nil_or_concat t with rfl | ⟨t, d, rfl⟩
    · simp only [List.reverse_cons, List.reverse_nil, List.nil_append, Str.startsWith, Bool.and_true, Bool.and_eq_true, beq_iff_eq]
      constructor
      · rintro ⟨rfl, rfl⟩
        simp
      · rintro (⟨h, rfl⟩ | ⟨t, h⟩)
        · simp at h
          simp [h]
        · simp at h
    · simp only [List.concat_eq_append, List.reverse_cons, List.reverse_append, List.reverse_nil, List.nil_append, List.cons_append, Str.startsWith, Bool.and_true, Bool.and_eq_true, beq_iff_eq]
      constructor
      · rintro ⟨rfl, rfl⟩
        exact .inr ⟨t, rfl⟩
      · rintro (⟨h, rfl⟩ | ⟨t', h⟩)
        · simp at h
        · simp only [List.cons.injEq] at h
          have := List.append_inj_right' h.2 rfl
          simp at this
          exact ⟨h.1, this⟩

theorem width_pos (c : Char) : 0 < Str.width c := by
  unfold Str.width
  split
  · omega
  split
  · omega
  split <;> omega

theorem takeBytes_append : ∀ (p r : Str), Str.takeBytes (p ++ r) (Str.byteLen p) = some p
  | [], r => by
    cases r <;> rfl
  | c :: p, r => by
    have hw := width_pos c
    obtain ⟨k, hk⟩ : ∃ k, Str.byteLen (c :: p) = k + 1 := ⟨Str.byteLen (c :: p) - 1, by simp only [Str.byteLen]; omega⟩
    rw [hk, List.cons_append, Str.takeBytes]
    simp only [Str.byteLen] at hk
    rw [if_pos (by omega)]
    have : k + 1 - Str.width c = Str.byteLen p := by omega
    rw [this, takeBytes_append p r]
    rfl

theorem byteLen_append : ∀ (a b : Str), Str.byteLen (a ++ b) = Str.byteLen a + Str.byteLen b
  | [], b => by simp [Str.byteLen]
  | c :: a, b => by
    simp only [List.cons_append, Str.byteLen, byteLen_append a b]
    omega

theorem between_wrapped {a b : Char} (ha : Str.width a = 1) (hb : Str.width b = 1) (t : Str) : between (a :: (t ++ [b])) = .ok t := by
  unfold between Str.sliceBytes
  have hl : Str.byteLen (a :: (t ++ [b])) - 1 = Str.byteLen (a :: t) := by
    simp only [Str.byteLen, byteLen_append, ha, hb]
    omega
  rw [hl, if_pos (by simp only [Str.byteLen, ha]; omega)]
  rw [show a :: (t ++ [b]) = (a :: t) ++ [b] from rfl, takeBytes_append]
  simp only [Str.dropBytes, ha, Nat.zero_add, Nat.le_refl, if_true, Nat.sub_self]

theorem between_single {a : Char} (ha : Str.width a = 1) : between [a] = panics "begin <= end when slicing" := by
  unfold between Str.sliceBytes
  simp only [Str.byteLen, ha]
  rfl

/-! ### Lists of results -/

theorem ok_then {α β : Type} (a : α) (f : α → Res β) : ((Except.ok a : Res α) >>= f) = f a := rfl

theorem mapM_congr {α β : Type} {f g : α → Res β} : ∀ {l : List α}, (∀ x ∈ l, f x = g x) → l.mapM f = l.mapM g
  | [], _ => rfl
  | x :: l, h => by
    rw [List.mapM_cons, List.mapM_cons, h x (by simp), mapM_congr fun y hy => h y (by simp [hy])]

theorem mapM_error {α β : Type} {f : α → Res β} : ∀ {l : List α}, (∃ e, l.mapM f = .error e) ↔ ∃ x ∈ l, ∃ e, f x = .error e
  | [] => by
    simp only [List.mapM_nil, List.not_mem_nil, false_and, exists_false, iff_false]
    rintro ⟨e, h⟩
    cases h
  | x :: l => by
    rw [List.mapM_cons]
    constructor
    · rintro ⟨e, h⟩
      cases hx : f x with
      | error e' => exact ⟨x, by simp, e', hx⟩
      | ok v =>
        rw [hx] at h
        cases hl : l.mapM f with
        | error e' =>
          obtain ⟨y, hy, h'⟩ := mapM_error.1 ⟨e', hl⟩
          exact ⟨y, by simp [hy], h'⟩
        | ok vs =>
          rw [hl] at h
          cases h
    · rintro ⟨y, hy, e, h⟩
      cases hx : f x with
      | error e' => exact ⟨e', rfl⟩
      | ok v =>
        rcases List.mem_cons.1 hy with rfl | hy
        · rw [h] at hx
          cases hx
        · obtain ⟨e', hl⟩ := mapM_error.2 ⟨y, hy, e, h⟩
          rw [hl]
          exact ⟨e', rfl⟩

/-! ### Fuel -/

theorem bracket_pieces {s inner : Str} (h : s = '[' :: (inner ++ [']'])) {item : Str} (hi : item ∈ Str.split inner c!",") : (Str.strip item).length < s.length := by
  have h1 := piece_length ((split_mem _ _).1 hi)
  have h2 := strip_length item
  subst h
  simp
  omega

theorem fuel_irrelevant (X : Ext) : ∀ (f g : Nat) (s : Str), s.length < f → s.length < g → parseValueGo X f s = parseValueGo X g s
  | 0, _, _, h, _ => absurd h (by omega)
  | _, 0, _, _, h => absurd h (by omega)
  | f + 1, g + 1, s, hf, hg => by
    unfold parseValueGo
    split
    · rfl
    split
    · rfl
    split
    · rfl
    split
    · rfl
    split
    · rename_i hw
      rcases wrapped.1 hw with ⟨_, h⟩ | ⟨inner, h⟩
      · exact absurd h (by decide)
      · rw [h, between_wrapped (by decide) (by decide)]
        simp only [ok_then]
        split
        · rfl
        · congr 1
          refine mapM_congr fun item hi => ?_
          have := bracket_pieces h hi
          exact fuel_irrelevant X f g _ (by omega) (by omega)
    · rfl

/-- The equation of `parseValue`. -/
theorem parseValue_eq (X : Ext) (s : Str) : parseValue X s =
    if (Str.startsWith s c!"\"" && Str.endsWith s c!"\"") || (Str.startsWith s c!"'" && Str.endsWith s c!"'") then do
      return .str (← between s)
    else if X.lower s = c!"true" then .ok (.bool true)
    else if X.lower s = c!"false" then .ok (.bool false)
    else if X.lower s = c!"null" then .ok .null
    else if Str.startsWith s c!"[" && Str.endsWith s c!"]" then do
      let inner ← between s
      if (Str.strip inner).isEmpty then return .arr []
      else return .arr (← (Str.split inner c!",").mapM fun item => parseValue X (Str.strip item))
    else match F64.parse s with
      | some n => .ok (.num n)
      | none => .ok (.str s) := by
  conv => lhs; unfold parseValue parseValueGo
  split
  · rfl
  split
  · rfl
  split
  · rfl
  split
  · rfl
  split
  · rename_i hw
    rcases wrapped.1 hw with ⟨_, h⟩ | ⟨inner, h⟩
    · exact absurd h (by decide)
    · conv => lhs; rw [h, between_wrapped (by decide) (by decide)]
      conv => rhs; rw [h, between_wrapped (by decide) (by decide)]
      simp only [ok_then]
      split
      · rfl
      · congr 1
        refine mapM_congr fun item hi => ?_
        have := bracket_pieces h hi
        subst h
        exact fuel_irrelevant X _ _ _ this (by omega)
  · rfl


/-! ### C62 -/

/-- C62: reading a value fails, which it does by a panic, exactly on the texts that crash. -/
theorem C62_panics_iff (X : Ext) (hX : KeepsBracket X) (s : Str) : (∃ f, parseValue X s = .error f) ↔ Crashes s := by
  induction hn : s.length using Nat.strongRecOn generalizing s with
  | ind n ih =>
    subst hn
    rw [parseValue_eq]
    by_cases hq : ((Str.startsWith s c!"\"" && Str.endsWith s c!"\"") || (Str.startsWith s c!"'" && Str.endsWith s c!"'")) = true
    · rw [if_pos hq]
      have : (∃ q, (q = '"' ∨ q = '\'') ∧ (s = [q] ∨ ∃ t, s = q :: (t ++ [q]))) := by
        rcases Bool.or_eq_true_iff.1 hq with h | h
        · rcases wrapped.1 h with ⟨h, _⟩ | ⟨t, h⟩
          · exact ⟨'"', .inl rfl, .inl h⟩
          · exact ⟨'"', .inl rfl, .inr ⟨t, h⟩⟩
        · rcases wrapped.1 h with ⟨h, _⟩ | ⟨t, h⟩
          · exact ⟨'\'', .inr rfl, .inl h⟩
          · exact ⟨'\'', .inr rfl, .inr ⟨t, h⟩⟩
      clear hq
      obtain ⟨q, hq, rfl | ⟨t, rfl⟩⟩ := this
      · rw [between_single (by rcases hq with rfl | rfl <;> decide)]
        refine ⟨fun _ => ?_, fun _ => ⟨_, rfl⟩⟩
        rcases hq with rfl | rfl
        · exact .double
        · exact .single
      · rw [between_wrapped (by rcases hq with rfl | rfl <;> decide) (by rcases hq with rfl | rfl <;> decide)]
        constructor
        · rintro ⟨f, h⟩
          cases h
        · intro h
          exfalso
          rcases hq with rfl | rfl
          · generalize hs : '"' :: (t ++ ['"']) = s at h
            cases h <;> simp at hs
          · generalize hs : '\'' :: (t ++ ['\'']) = s at h
            cases h <;> simp at hs
    · rw [if_neg hq]
      by_cases hb : ∃ inner, s = '[' :: (inner ++ [']'])
      · obtain ⟨inner, hs⟩ := hb
        have hw : (Str.startsWith s c!"[" && Str.endsWith s c!"]") = true := wrapped.2 (.inr ⟨inner, hs⟩)
        have hlow : ∃ t, X.lower s = '[' :: t := by
          subst hs
          unfold Ext.lower
          split
          · exact ⟨(inner ++ [']']).map Str.asciiLowC, rfl⟩
          · exact hX _
        obtain ⟨lt, hlow⟩ := hlow
        rw [hlow, if_neg (by simp), if_neg (by simp), if_neg (by simp), if_pos hw]
        have hbw : between s = .ok inner := by rw [hs, between_wrapped (by decide) (by decide)]
        rw [hbw, ok_then]
        have hitems : (∃ item ∈ Str.split inner c!",", ∃ f, parseValue X (Str.strip item) = .error f) ↔ Crashes s := by
          constructor
          · rintro ⟨item, hi, h⟩
            have := (ih _ (bracket_pieces hs hi) (Str.strip item) rfl).1 h
            rw [hs]
            exact .item inner item ((split_mem _ _).1 hi) this
          · intro h
            cases h with
            | double => simp at hs
            | single => simp at hs
            | item inner' item hp hc =>
              simp only [List.cons.injEq, true_and] at hs
              obtain rfl := List.append_inj_left' hs rfl
              have hi := (split_mem _ _).2 hp
              exact ⟨item, hi, (ih _ (bracket_pieces rfl hi) (Str.strip item) rfl).2 hc⟩
        by_cases he : (Str.strip inner).isEmpty = true
        · rw [if_pos he]
          constructor
          · rintro ⟨f, h⟩
            cases h
          · intro h
            exfalso
            cases h with
            | double => simp at hs
            | single => simp at hs
            | item inner' item hp hc =>
              simp only [List.cons.injEq, true_and] at hs
              obtain rfl := List.append_inj_left' hs rfl
              have hbl := (strip_blank inner').1 (by simpa using he)
              obtain ⟨_, before, after, rfl, _⟩ := hp
              have : Str.strip item = [] := (strip_blank item).2 fun c hc => hbl c (by simp [hc])
              rw [this] at hc
              cases hc
        · rw [if_neg he, ← hitems, ← mapM_error]
          constructor
          · rintro ⟨f, h⟩
            cases hm : (Str.split inner c!",").mapM fun item => parseValue X (Str.strip item) with
            | error e => exact ⟨e, rfl⟩
            | ok vs =>
              rw [hm] at h
              cases h
          · rintro ⟨e, h⟩
            rw [h]
            exact ⟨e, rfl⟩
      · have hw : ¬ (Str.startsWith s c!"[" && Str.endsWith s c!"]") = true := by
          intro h
          rcases wrapped.1 h with ⟨_, h⟩ | h
          · exact absurd h (by decide)
          · exact hb h
        rw [if_neg hw]
        constructor
        · rintro ⟨f, h⟩
          split at h
          · cases h
          split at h
          · cases h
          split at h
          · cases h
          split at h <;> cases h
        · intro h
          exfalso
          cases h with
          | double => exact hq (by decide)
          | single => exact hq (by decide)
          | item inner _ _ _ => exact hb ⟨inner, rfl⟩

/-- The words of an assignment. -/
theorem parseArgs_set (X : Ext) (n t : Str) (hn : '=' ∉ n) (rest : List Str) (a : Args) : parseArgs X ((n ++ '=' :: t) :: rest) a =
    match parseValue X t with
    | .ok v => parseArgs X rest { a with vars := a.vars.insert n v }
    | .error _ => .error .panicked := by
  have hm : '=' ∈ n ++ '=' :: t := by simp
  have h1 : n ++ '=' :: t ≠ c!"--json" := fun h => absurd (h ▸ hm) (by decide)
  have h2 : n ++ '=' :: t ≠ c!"--output-json" := fun h => absurd (h ▸ hm) (by decide)
  have h3 : Str.splitOnce c!"=" (n ++ '=' :: t) = some (n, t) := by
    rw [splitOnce_over '=' [] n ('=' :: t) fun c hc h => hn (h ▸ hc), show '=' :: t = '=' :: ([] ++ t) from rfl, splitOnce_here]
    simp
  conv => lhs; unfold parseArgs
  rw [if_neg h1, if_neg h2, h3]
  rfl

/-- C62 is false as stated: a lone quote crashes the tool, whatever else is asked. -/
theorem C62_lone_quote (X : Ext) (reg : Registry) (expr name : Str) (hn : '=' ∉ name) (rest : List Str) :
    run X reg (expr :: (name ++ c!"=\"") :: rest) = .panicked := by
  have e : parseValue X c!"\"" = panics "begin <= end when slicing" := by
    rw [parseValue_eq, if_pos (by decide), between_single (by decide)]
    rfl
  unfold run
  simp only
  rw [show name ++ c!"=\"" = name ++ '=' :: c!"\"" from rfl, parseArgs_set X name _ hn, e]
  rfl

/-- C62 (partial): a text without quotes is always read. -/
theorem C62_no_quotes_partial (X : Ext) (s : Str) (h : ∀ c ∈ s, c ≠ '"' ∧ c ≠ '\'') : ∃ v, parseValue X s = .ok v := by
  induction hn : s.length using Nat.strongRecOn generalizing s with
  | ind n ih =>
    subst hn
    have hq : ∀ q, q = '"' ∨ q = '\'' → ¬ (Str.startsWith s [q] && Str.endsWith s [q]) = true := by
      intro q hq hw
      have : q ∈ s := by
        rcases wrapped.1 hw with ⟨rfl, _⟩ | ⟨t, rfl⟩ <;> simp
      rcases hq with rfl | rfl
      · exact (h _ this).1 rfl
      · exact (h _ this).2 rfl
    rw [parseValue_eq, if_neg (by rw [Bool.or_eq_true_iff]; exact fun h => h.elim (hq _ (.inl rfl)) (hq _ (.inr rfl)))]
    split
    · exact ⟨_, rfl⟩
    split
    · exact ⟨_, rfl⟩
    split
    · exact ⟨_, rfl⟩
    split
    · rename_i hw
      rcases wrapped.1 hw with ⟨_, h'⟩ | ⟨inner, hs⟩
      · exact absurd h' (by decide)
      · have hbw : between s = .ok inner := by rw [hs, between_wrapped (by decide) (by decide)]
        rw [hbw, ok_then]
        split
        · exact ⟨_, rfl⟩
        · cases hm : (Str.split inner c!",").mapM fun item => parseValue X (Str.strip item) with
          | ok vs => exact ⟨.arr vs, rfl⟩
          | error e =>
            exfalso
            obtain ⟨item, hi, e', he⟩ := mapM_error.1 ⟨e, hm⟩
            have hsub : ∀ c ∈ Str.strip item, c ∈ s := by
              intro c hc
              have h1 : c ∈ item := by
                unfold Str.strip Str.trim at hc
                exact (List.dropWhile_sublist _).subset (List.mem_reverse.1 ((List.dropWhile_sublist _).subset (List.mem_reverse.1 hc)))
              obtain ⟨_, before, after, rfl, _⟩ := (split_mem _ _).1 hi
              rw [hs]
              simp [h1]
            obtain ⟨v, hv⟩ := ih _ (bracket_pieces hs hi) (Str.strip item) (fun c hc => h c (hsub c hc)) rfl
            rw [hv] at he
            cases he
    · split <;> exact ⟨_, rfl⟩

/-- C62: a quoted text is the text between the quotes, whatever it is. -/
theorem C62_quoted (X : Ext) (q : Char) (hq : q = '"' ∨ q = '\'') (t : Str) : parseValue X (q :: (t ++ [q])) = .ok (.str t) := by
  rw [parseValue_eq, if_pos, between_wrapped (by rcases hq with rfl | rfl <;> decide) (by rcases hq with rfl | rfl <;> decide)]
  · rfl
  · have : (Str.startsWith (q :: (t ++ [q])) [q] && Str.endsWith (q :: (t ++ [q])) [q]) = true := wrapped.2 (.inr ⟨t, rfl⟩)
    rcases hq with rfl | rfl
    · rw [this]
      rfl
    · rw [this, Bool.or_true]

/-- The first character of the texts that are not read as they stand or as numbers. -/
theorem not_wrapped {a b : Char} {s : Str} (h : s.head? ≠ some a) : ¬ (Str.startsWith s [a] && Str.endsWith s [b]) = true := by
  intro hw
  rcases wrapped.1 hw with ⟨rfl, _⟩ | ⟨t, rfl⟩ <;> simp at h

/-- C62: a text that does not begin with a quote or a bracket and is not one of the three words is the number it spells, or else itself. -/
theorem C62_plain (X : Ext) (s : Str) (hq : s.head? ≠ some '"' ∧ s.head? ≠ some '\'' ∧ s.head? ≠ some '[')
    (hw : ∀ w ∈ [c!"true", c!"false", c!"null"], X.lower s ≠ w) :
    parseValue X s = .ok (match F64.parse s with | some n => .num n | none => .str s) := by
  rw [parseValue_eq, if_neg, if_neg (hw _ (by simp)), if_neg (hw _ (by simp)), if_neg (hw _ (by simp)), if_neg (not_wrapped hq.2.2)]
  · split <;> rfl
  · rw [Bool.or_eq_true_iff]
    exact fun h => h.elim (not_wrapped hq.1) (not_wrapped hq.2.1)

/-- The hypotheses of `C62_plain`: a number and a name. -/
example (X : Ext) : parseValue X c!"1.5e3" = .ok (.num (.fin 1500)) ∧ parseValue X c!"Ana Ruiz" = .ok (.str c!"Ana Ruiz") :=
  ⟨(C62_plain X c!"1.5e3" (by decide) (by rw [show X.lower c!"1.5e3" = c!"1.5e3" by kernel_rfl]; decide)).trans (by kernel_rfl),
   (C62_plain X c!"Ana Ruiz" (by decide) (by rw [show X.lower c!"Ana Ruiz" = c!"ana ruiz" by kernel_rfl]; decide)).trans (by kernel_rfl)⟩

/-- C62: the words, in any case. -/
theorem C62_words (X : Ext) (s : Str) : (Str.eqIgnoreCase s c!"true" = true → parseValue X s = .ok (.bool true)) ∧
    (Str.eqIgnoreCase s c!"false" = true → parseValue X s = .ok (.bool false)) ∧ (Str.eqIgnoreCase s c!"null" = true → parseValue X s = .ok .null) := by
  have key : ∀ w : Str, w.all Str.isAscii = true → w.map Str.asciiLowC = w → w.head?.isSome → (∀ q, q = '"' ∨ q = '\'' → w.head? ≠ some q) → Str.eqIgnoreCase s w = true →
      X.lower s = w ∧ ¬ ((Str.startsWith s c!"\"" && Str.endsWith s c!"\"") || (Str.startsWith s c!"'" && Str.endsWith s c!"'")) = true := by
    intro w ha hm hs hq he
    have he : s.map Str.asciiLowC = w := by
      unfold Str.eqIgnoreCase at he
      rw [hm] at he
      simpa using he
    have hlow : ∀ c, Str.isAscii (Str.asciiLowC c) = true → Str.isAscii c = true := by
      intro c hc
      by_cases hr : 'A' ≤ c ∧ c ≤ 'Z'
      · obtain ⟨n, h1, h2, rfl⟩ := Str.char_range hr
        have : ∀ n, n ≤ 90 → 65 ≤ n → Str.isAscii (Char.ofNat n) = true := by decide
        exact this n h2 h1
      · unfold Str.asciiLowC at hc
        rwa [if_neg hr] at hc
    have hsa : s.all Str.isAscii = true := by
      rw [List.all_eq_true]
      intro c hc
      rw [List.all_eq_true] at ha
      exact hlow c (ha _ (he ▸ List.mem_map_of_mem hc))
    refine ⟨by unfold Ext.lower; rw [if_pos hsa, he], ?_⟩
    have hd : ∀ q, q = '"' ∨ q = '\'' → s.head? ≠ some q := by
      intro q hq' hh
      apply hq q hq'
      rw [← he, List.head?_map, hh]
      rcases hq' with rfl | rfl <;> rfl
    rw [Bool.or_eq_true_iff]
    exact fun h => h.elim (not_wrapped (hd _ (.inl rfl))) (not_wrapped (hd _ (.inr rfl)))
  refine ⟨fun h => ?_, fun h => ?_, fun h => ?_⟩
  · obtain ⟨h1, h2⟩ := key c!"true" (by decide) (by decide) (by decide) (by rintro q (rfl | rfl) <;> decide) h
    rw [parseValue_eq, if_neg h2, if_pos h1]
  · obtain ⟨h1, h2⟩ := key c!"false" (by decide) (by decide) (by decide) (by rintro q (rfl | rfl) <;> decide) h
    rw [parseValue_eq, if_neg h2, h1]
    rfl
  · obtain ⟨h1, h2⟩ := key c!"null" (by decide) (by decide) (by decide) (by rintro q (rfl | rfl) <;> decide) h
    rw [parseValue_eq, if_neg h2, h1]
    rfl

/-- C62: a list is read item by item. -/
theorem C62_list (X : Ext) (hX : KeepsBracket X) (items : List Str) (vs : List Value) (hc : ∀ i ∈ items, ',' ∉ i) (hb : ∃ i ∈ items, Str.strip i ≠ [])
    (hv : List.Forall₂ (fun i v => parseValue X (Str.strip i) = .ok v) items vs) :
    parseValue X ('[' :: (Str.join c!"," items ++ [']'])) = .ok (.arr vs) := by
  have hne : items ≠ [] := by
    rintro rfl
    simp at hb
  have hsplit : Str.split (Str.join c!"," items) c!"," = items := by
    refine split_join c!"," (by simp) items hne fun p hp k hk h => ?_
    rw [List.drop_append_of_le_length (by omega)] at h
    obtain ⟨r, h⟩ := h
    cases hd : p.drop k with
    | nil =>
      have := congrArg List.length hd
      simp at this
      omega
    | cons c cs =>
      rw [hd] at h
      simp only [List.cons_append, List.nil_append, List.cons.injEq] at h
      apply hc p hp
      rw [h.1]
      exact List.mem_of_mem_drop (i := k) (by rw [hd]; simp)
  have hlow : ∃ t, X.lower ('[' :: (Str.join c!"," items ++ [']'])) = '[' :: t := by
    unfold Ext.lower
    split
    · exact ⟨(Str.join c!"," items ++ [']']).map Str.asciiLowC, rfl⟩
    · exact hX _
  obtain ⟨lt, hlow⟩ := hlow
  rw [parseValue_eq, if_neg (by rw [Bool.or_eq_true_iff]; exact fun h => h.elim (not_wrapped (by simp)) (not_wrapped (by simp))), hlow,
    if_neg (by simp), if_neg (by simp), if_neg (by simp), if_pos (wrapped.2 (.inr ⟨_, rfl⟩)), between_wrapped (by decide) (by decide), ok_then, hsplit]
  have hnb : ¬ (Str.strip (Str.join c!"," items)).isEmpty = true := by
    intro h
    obtain ⟨i, hi, hb⟩ := hb
    apply hb
    have h := (strip_blank _).1 (by simpa using h)
    rw [strip_blank]
    intro c hcm
    obtain ⟨_, before, after, he, _⟩ := (split_mem i _).1 (hsplit ▸ hi)
    exact h c (by rw [he]; simp [hcm])
  rw [if_neg hnb]
  have hm : (items.mapM fun item => parseValue X (Str.strip item)) = .ok vs := by
    clear hsplit hlow hnb hb hne hc
    induction hv with
    | nil => rfl
    | cons h _ ih =>
      rw [List.mapM_cons, h, ih]
      rfl
  rw [hm]
  rfl

/-- The hypotheses of `C62_list`: a list with a number, a text in quotes and a blank around it. -/
example (X : Ext) (hX : KeepsBracket X) : parseValue X c!"[1, 'a b' ]" = .ok (.arr [.num (F64.ofNat 1), .str c!"a b"]) :=
  C62_list X hX [c!"1", c!" 'a b' "] _ (by decide) ⟨c!"1", by decide, by decide⟩ (.cons (by kernel_rfl) (.cons (by kernel_rfl) .nil))

/-- Not vacuous: a list with three kinds of items. -/
example (X : Ext) : parseValue X c!"[1, 'a b' ,TRUE]" = .ok (.arr [.num (F64.ofNat 1), .str c!"a b", .bool true]) := by kernel_rfl

/-- Not vacuous: a list that crashes. -/
example : Crashes c!"[1, ']" := .item c!"1, '" c!" '" ⟨by decide, c!"1,", [], rfl, .inr rfl, .inl rfl⟩ .single

/-! ### C69 -/

theorem given_cons (a : Word) (as : List Word) (n : Str) : given (a :: as) n = (given as n).or (match a with
    | .set m _ v => if m = n then some v else none
    | _ => none) := by
  unfold given
  rw [List.reverse_cons, List.findSome?_append]
  cases a <;> simp [List.findSome?]
  split <;> simp_all

theorem document_cons (a : Word) (as : List Word) : document (a :: as) = (document as).or (match a with
    | .json t => some t
    | _ => none) := by
  unfold document
  rw [List.reverse_cons, List.findSome?_append]
  cases a <;> simp [List.findSome?]

theorem parseArgs_words (X : Ext) (as : List Word) (rest : List Str) : ∀ (a : Args), (∀ x ∈ as, x.ok X) → parseArgs X (as.flatMap Word.words ++ rest) a =
    parseArgs X rest ⟨(document as).or a.json, a.outputJson || wantsJson as, fun n => (given as n).or (a.vars n)⟩ := by
  induction as with
  | nil =>
    intro a _
    simp [document, given, wantsJson]
  | cons x as ih =>
    intro a h
    rw [List.flatMap_cons, List.append_assoc]
    have h' := fun y hy => h y (List.mem_cons_of_mem x hy)
    rcases a with ⟨aj, ao, av⟩
    cases x with
    | outputJson =>
      simp only [Word.words, List.cons_append, List.nil_append]
      conv => lhs; unfold parseArgs
      rw [if_neg (by decide), if_pos rfl, ih _ h']
      congr 1
      simp [document_cons, given_cons, wantsJson]
    | json t =>
      simp only [Word.words, List.cons_append, List.nil_append]
      conv => lhs; unfold parseArgs
      rw [if_pos rfl]
      simp only
      rw [ih _ h']
      congr 1
      simp only [document_cons, given_cons, wantsJson, List.any_cons, Bool.false_or, Option.or_none, Option.or_assoc, Option.some_or]
    | set n t v =>
      obtain ⟨h1, h2⟩ := h _ List.mem_cons_self
      simp only [Word.words, List.cons_append, List.nil_append]
      rw [parseArgs_set X n t h1, h2]
      simp only
      rw [ih _ h']
      congr 1
      simp only [document_cons, given_cons, wantsJson, List.any_cons, Bool.false_or, Option.or_none, Args.mk.injEq, true_and]
      funext m
      by_cases hm : n = m
      · subst hm
        simp [Env.insert]
      · simp [Env.insert, hm, Ne.symm hm]

/-- C69: without a JSON document, the expression is evaluated with exactly the variables given, the last one for each name, wherever the options stand. -/
theorem C69_variables (X : Ext) (reg : Registry) (expr : Str) (as : List Word) (h : ∀ a ∈ as, a.ok X) (hj : document as = none) :
    run X reg (expr :: as.flatMap Word.words) = outcome (wantsJson as)
      (if Str.contains expr c!";" || Str.contains expr c!":=" then Lib.evaluateWithAssignments X expr (given as) else Lib.evaluateWithCustom X reg expr (given as)) := by
  have := parseArgs_words X as [] {} h
  rw [List.append_nil] at this
  unfold run
  simp only
  rw [this]
  simp only [parseArgs, hj, Option.or_none, Bool.false_or]
  have e : (fun n => (given as n).or (Env.empty n)) = given as := by
    funext n
    simp [Env.empty]
  rw [e]
  exact (apply_ite (outcome (wantsJson as)) (isProgram expr = true) _ _).symm

/-- C69 is false as stated: with a JSON document the variables given by name are dropped, without a word. -/
theorem C69_json_drops_variables (X : Ext) (reg : Registry) (expr text : Str) (as : List Word) (h : ∀ a ∈ as, a.ok X) (hj : document as = some text) :
    run X reg (expr :: as.flatMap Word.words) = run X reg (expr :: ([c!"--json", text] ++ if wantsJson as then [c!"--output-json"] else [])) := by
  have h1 := parseArgs_words X as [] {} h
  have e : ([c!"--json", text] ++ if wantsJson as then [c!"--output-json"] else []) =
      (.json text :: if wantsJson as then [Word.outputJson] else []).flatMap Word.words := by
    split <;> rfl
  have h2 := parseArgs_words X (.json text :: if wantsJson as then [Word.outputJson] else []) [] {} (by
    intro a ha
    cases hw : wantsJson as <;> simp only [hw, Bool.false_eq_true, if_true, if_false, List.mem_cons, List.not_mem_nil, or_false] at ha
    · subst ha
      trivial
    · rcases ha with rfl | rfl <;> trivial)
  rw [List.append_nil] at h1 h2
  rw [e]
  unfold run
  simp only
  rw [h1, h2]
  simp only [parseArgs, hj, Option.or_none, Bool.false_or, document_cons]
  have hd : (document (if wantsJson as then [Word.outputJson] else [])) = none := by
    split <;> rfl
  have hw : wantsJson (.json text :: if wantsJson as then [Word.outputJson] else []) = wantsJson as := by
    cases wantsJson as <;> rfl
  rw [hd, hw]
  rfl

/-- C69: a word that is neither an option nor an assignment, and `--json` without a document, are refused before anything is evaluated. -/
theorem C69_refused (X : Ext) (reg : Registry) (expr : Str) (as : List Word) (h : ∀ a ∈ as, a.ok X) (w : Str) (rest : List Str)
    (hw : w ≠ c!"--json" ∧ w ≠ c!"--output-json" ∧ '=' ∉ w ∨ w = c!"--json" ∧ rest = []) :
    run X reg (expr :: (as.flatMap Word.words ++ w :: rest)) = .refused := by
  unfold run
  simp only
  rw [parseArgs_words X as _ {} h]
  unfold parseArgs
  rcases hw with ⟨h1, h2, h3⟩ | ⟨rfl, rfl⟩
  · rw [if_neg h1, if_neg h2, splitOnce_none '=' [] w fun c hc e => h3 (e ▸ hc)]
  · rw [if_pos rfl]

/-- The hypotheses of `C69_refused`: a word without `=`, and `--json` at the end. -/
example (X : Ext) (reg : Registry) : run X reg [c!"1", c!"--output-json", c!"a"] = .refused ∧ run X reg [c!"1", c!"--json"] = .refused :=
  ⟨C69_refused X reg c!"1" [.outputJson] (by intro a ha; simp at ha; subst ha; trivial) c!"a" [] (.inl (by decide)),
   C69_refused X reg c!"1" [] (by simp) c!"--json" [] (.inr ⟨rfl, rfl⟩)⟩

/-- Not vacuous: the later of two assignments counts. -/
example (X : Ext) : run X Registry.empty [c!":a + :b", c!"a=1", c!"--output-json", c!"b=2", c!"a=40"] = .printed (.num (F64.ofNat 42)) true := by
  kernel_rfl

end Cli
