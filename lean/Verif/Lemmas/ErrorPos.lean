import Verif.Lemmas.LexSound
import Verif.Lemmas.ParseMono
/-! Positions in errors of the lexer and the parser. -/

namespace Spec

/-- A character of the text starts at this byte. -/
def CharAt (text : Str) (p : Nat) : Prop := ∃ a c b, text = a ++ c :: b ∧ p = Str.byteLen a

end Spec

namespace Str

theorem byteLen_app (a b : Str) : byteLen (a ++ b) = byteLen a + byteLen b := by
  induction a with
  | nil => simp [byteLen]
  | cons c a ih => simp only [List.cons_append, byteLen, ih]; omega

theorem width_ascii {c : Char} (h : c.toNat < 128) : width c = 1 := by unfold width; rw [if_pos (UInt32.lt_iff_toNat_lt.2 (show c.val.toNat < (128 : UInt32).toNat from h))]

theorem byteLen_ascii {s : Str} (h : ∀ c ∈ s, c.toNat < 128) : byteLen s = s.length := by
  induction s with
  | nil => rfl
  | cons c s ih =>
    rw [byteLen, width_ascii (h c List.mem_cons_self), ih fun d hd => h d (List.mem_cons_of_mem _ hd), List.length_cons]
    omega

end Str

namespace Lx
open Spec

/-- The last character is one byte wide, if there is one. -/
def Narrow (a : Str) : Prop := ∀ c ∈ a.getLast?, Str.width c = 1

theorem narrow_ascii {a : Str} (h : ∀ c ∈ a, c.toNat < 128) : Narrow a := fun c hc => Str.width_ascii (h c (List.mem_of_getLast? hc))

theorem narrow_append {a b : Str} (ha : Narrow a) (hb : Narrow b) : Narrow (a ++ b) := by
  intro c hc
  cases b with
  | nil => rw [List.append_nil] at hc; exact ha c hc
  | cons d b =>
    rw [List.getLast?_append_of_ne_nil _ (by simp)] at hc
    exact hb c hc

theorem digit_ascii {c : Char} (h : Str.asciiDigit c = true) : c.toNat < 128 := by
  have := (digit_iff c).1 h
  have h2 : c ≤ '9' := this.2
  have : c.toNat ≤ 57 := h2
  omega

theorem numTail_ascii : ∀ (d : Bool) (r : Str), (∀ c ∈ (numTail d r).1, c.toNat < 128) ∧ r = (numTail d r).1 ++ (numTail d r).2.1 := by
  intro d r
  induction r generalizing d with
  | nil => simp [numTail]
  | cons c cs ih =>
    rw [numTail_cons]
    split
    · rename_i hc
      refine ⟨fun e he => ?_, ?_⟩
      · rcases List.mem_cons.1 he with rfl | he
        · exact digit_ascii hc
        · exact (ih d).1 e he
      · show c :: cs = c :: _ ++ _
        rw [List.cons_append, ← (ih d).2]
    · split
      · rename_i hc
        obtain ⟨rfl, rfl⟩ := hc
        cases cs with
        | nil => simp
        | cons e es =>
          simp only
          split
          · refine ⟨fun x hx => ?_, ?_⟩
            · rcases List.mem_cons.1 hx with rfl | hx
              · decide
              · exact (ih true).1 x hx
            · show '.' :: e :: es = '.' :: _ ++ _
              rw [List.cons_append, ← (ih true).2]
          · simp
      · simp

/-- Where a token ends and what the lexer calls its start. -/
def Placed (c : Char) (r : Str) (p : Nat) : Res (Token × Lx) → Prop
  | .ok (_, l) => ∃ s, r = s ++ l.rest ∧ l.pos = p + Str.byteLen (c :: s) ∧ Narrow (c :: s) ∧ (l.lastStart = p ∨ (c = '=' ∧ l.lastStart + 1 = p))
  | .error (.err m _ (some q)) => q = p ∨ (m = "Unterminated string literal" ∨ m = "Unterminated escape in string") ∧ q = ((p + Str.byteLen (c :: r) : Nat) : Int)
  | .error (.err _ _ none) => False
  | .error (.panic _) => True

theorem number_placed (c : Char) (r : Str) (p : Nat) (hc : c.toNat < 128) : Placed c r p (number c r p) := by
  unfold number
  obtain ⟨h1, h2⟩ := numTail_ascii (c = '.') r
  rcases hn : numTail (c = '.') r with ⟨tl, left, hd⟩
  rw [hn] at h1 h2
  simp only at h1 h2 ⊢
  cases numValue (c :: tl) hd with
  | none => exact .inl rfl
  | some n =>
    have ha : ∀ e ∈ c :: tl, e.toNat < 128 := by
      intro e he
      rcases List.mem_cons.1 he with rfl | he
      · exact hc
      · exact h1 e he
    refine ⟨tl, h2, ?_, narrow_ascii ha, .inl rfl⟩
    rw [Str.byteLen_ascii ha, List.length_cons]
    show p + 1 + tl.length = _
    omega

theorem ident_ascii {c : Char} (h : isIdent c = true) : c.toNat < 128 := by
  unfold isIdent Str.asciiAlnum Str.asciiAlpha at h
  simp only [Bool.or_eq_true, decide_eq_true_eq, Bool.and_eq_true] at h
  have up : ∀ {x y : Char}, x ≤ y → x.toNat ≤ y.toNat := fun h => h
  rcases h with (h | h) | rfl
  · rcases h with h | h
    · exact Nat.lt_of_le_of_lt (up h.2) (by decide)
    · exact Nat.lt_of_le_of_lt (up h.2) (by decide)
  · exact digit_ascii h
  · decide

theorem takeWhile_all {f : Char → Bool} : ∀ (r : Str), ∀ e ∈ r.takeWhile f, f e = true
  | [], e, h => by simp at h
  | c :: cs, e, h => by
    rw [List.takeWhile_cons] at h
    split at h
    · rcases List.mem_cons.1 h with rfl | h
      · assumption
      · exact takeWhile_all cs e h
    · simp at h

theorem identifier_placed (c : Char) (r : Str) (p : Nat) (hc : c.toNat < 128) : Placed c r p (identifier c r p) := by
  have ha : ∀ e ∈ c :: r.takeWhile isIdent, e.toNat < 128 := by
    intro e he
    rcases List.mem_cons.1 he with rfl | he
    · exact hc
    · exact ident_ascii (takeWhile_all r e he)
  refine ⟨r.takeWhile isIdent, (List.takeWhile_append_dropWhile).symm, ?_, narrow_ascii ha, .inl rfl⟩
  rw [Str.byteLen_ascii ha, List.length_cons]
  show p + 1 + _ = _
  omega

theorem strBody_placed (q : Char) (hq : Str.width q = 1) (s : Str) (p : Nat) :
    match strBody q s p with
    | .ok (_, r, p') => ∃ a, s = a ++ r ∧ p' = p + Str.byteLen a ∧ a ≠ [] ∧ Narrow a
    | .error (.err m _ (some e)) => (m = "Unterminated string literal" ∨ m = "Unterminated escape in string") ∧ e = ((p + Str.byteLen s : Nat) : Int)
    | .error (.err _ _ none) => False
    | .error (.panic _) => False := by
  induction s, p using strBody.induct q with
  | case1 p => rw [strBody]; simp [Str.byteLen]
  | case2 cs p =>
    rw [strBody.eq_def]
    simp only [if_true]
    exact ⟨[q], rfl, by simp [Str.byteLen, hq], by simp, by intro c hc; simp at hc; rw [← hc]; exact hq⟩
  | case3 p h =>
    rw [strBody.eq_def]
    simp only [h, if_false, if_true]
    exact ⟨by simp, by simp [Str.byteLen, Str.width]⟩
  | case4 p e cs' b r p' he h ih =>
    rw [he] at ih
    rw [strBody]; simp only [h, if_false, if_true, he]
    obtain ⟨a, h1, h2, h3, h4⟩ := ih
    refine ⟨'\\' :: e :: a, by rw [h1]; rfl, ?_, by simp, ?_⟩
    · rw [h2]; simp only [Str.byteLen]; rw [Str.width_ascii (c := '\\') (by decide)]; omega
    · intro x hx
      rw [List.getLast?_cons_cons, List.getLast?_cons_of_ne_nil h3] at hx
      exact h4 x hx
  | case5 p e cs' f he h ih =>
    rw [he] at ih
    rw [strBody]; simp only [h, if_false, if_true, he]
    rcases f with ⟨m, a, _ | x⟩ | w
    · exact ih
    · refine ⟨ih.1, ?_⟩
      rw [ih.2]; simp only [Str.byteLen]; rw [Str.width_ascii (c := '\\') (by decide)]; omega
    · exact ih
  | case6 c cs p hq' hb b r p' he ih =>
    rw [he] at ih
    rw [strBody.eq_def]; simp only [hq', hb, if_false, he]
    obtain ⟨a, h1, h2, h3, h4⟩ := ih
    refine ⟨c :: a, by rw [h1]; rfl, ?_, by simp, ?_⟩
    · rw [h2]; simp only [Str.byteLen]; omega
    · intro x hx
      rw [List.getLast?_cons_of_ne_nil h3] at hx
      exact h4 x hx
  | case7 c cs p hq' hb f he ih =>
    rw [he] at ih
    rw [strBody.eq_def]; simp only [hq', hb, if_false, he]
    rcases f with ⟨m, a, _ | x⟩ | w
    · exact ih
    · refine ⟨ih.1, ?_⟩
      rw [ih.2]; simp only [Str.byteLen]; omega
    · exact ih

theorem string_placed (q : Char) (hq : q.toNat < 128) (r : Str) (p : Nat) : Placed q r p (string q r p) := by
  have h := strBody_placed q (Str.width_ascii hq) r (p + 1)
  unfold string
  rcases hb : strBody q r (p + 1) with f | ⟨b, r', p'⟩
  · rw [hb] at h
    rcases f with ⟨m, a, _ | x⟩ | w
    · exact h
    · refine .inr ⟨h.1, ?_⟩
      rw [h.2, Str.byteLen, Str.width_ascii hq]; omega
    · exact h.elim
  · rw [hb] at h
    obtain ⟨a, h1, h2, h3, h4⟩ := h
    refine ⟨a, h1, ?_, ?_, .inl rfl⟩
    · rw [Str.byteLen, Str.width_ascii hq, ← Nat.add_assoc]; exact h2
    · intro x hx
      rw [List.getLast?_cons_of_ne_nil h3] at hx
      exact h4 x hx

theorem one_placed (c : Char) (hc : c.toNat < 128) (t : Token) (r : Str) (p : Nat) : Placed c r p (one t r p) := by
  refine ⟨[], rfl, ?_, narrow_ascii (by simpa using hc), .inl rfl⟩
  simp [Str.byteLen, Str.width_ascii hc]

theorem two_placed (c d : Char) (hc : c.toNat < 128) (hd : d.toNat < 128) (t : Token) (r : Str) (p : Nat) : Placed c (d :: r) p (two t r (p + 2)) := by
  unfold two
  rw [if_neg (by omega)]
  refine ⟨[d], rfl, ?_, narrow_ascii (by simp [hc, hd]), .inl ?_⟩
  · simp [Str.byteLen, Str.width_ascii hc, Str.width_ascii hd]
  · simp

theorem errAt_placed (c : Char) (m : String) (r : Str) (p : Nat) : Placed c r p (errAt m p) := .inl rfl

theorem dots_placed (r : Str) (p : Nat) : Placed '.' r p (dots r p) := by
  unfold dots
  split
  · refine ⟨['.', '.'], rfl, by simp [Str.byteLen, Str.width], narrow_ascii (by decide), .inl rfl⟩
  · split
    · exact number_placed '.' _ p (by decide)
    · exact one_placed '.' (by decide) _ _ _
  · exact one_placed '.' (by decide) _ _ _

theorem withEq_placed (c : Char) (hc : c.toNat < 128) (t1 t2 : Token) (r : Str) (p : Nat) : Placed c r p (withEq t1 t2 r p) := by
  unfold withEq
  split
  · exact two_placed c '=' hc (by decide) _ _ _
  · exact one_placed c hc _ _ _

theorem colons_placed (r : Str) (p : Nat) : Placed ':' r p (colons r p) := by
  unfold colons
  split
  · exact two_placed _ _ (by decide) (by decide) _ _ _
  · exact two_placed _ _ (by decide) (by decide) _ _ _
  · exact one_placed _ (by decide) _ _ _

theorem equals_placed (r : Str) (p : Nat) : Placed '=' r p (equals r p) := by
  unfold equals
  split
  · exact two_placed _ _ (by decide) (by decide) _ _ _
  · unfold two
    split
    · trivial
    · refine ⟨[], rfl, by simp [Str.byteLen, Str.width], narrow_ascii (by decide), .inr ⟨rfl, ?_⟩⟩
      simp only; omega

theorem ampersand_placed (r : Str) (p : Nat) : Placed '&' r p (ampersand r p) := by
  unfold ampersand
  split
  · exact two_placed _ _ (by decide) (by decide) _ _ _
  · exact two_placed _ _ (by decide) (by decide) _ _ _
  · exact errAt_placed _ _ _ _

theorem bar_placed (r : Str) (p : Nat) : Placed '|' r p (bar r p) := by
  unfold bar
  split
  · exact two_placed _ _ (by decide) (by decide) _ _ _
  · exact errAt_placed _ _ _ _

theorem symbol_placed (c : Char) (r : Str) (p : Nat) : Placed c r p (symbol c r p) := by
  unfold symbol
  split
  · rename_i h; subst h; exact dots_placed r p
  split
  · rename_i h; exact string_placed c (by rcases h with rfl | rfl <;> decide) r p
  split
  · rename_i h; subst h; exact withEq_placed _ (by decide) _ _ r p
  split
  · rename_i h; subst h; exact colons_placed r p
  split
  · rename_i h; subst h; exact withEq_placed _ (by decide) _ _ r p
  split
  · rename_i h; subst h; exact withEq_placed _ (by decide) _ _ r p
  split
  · rename_i h; subst h; exact equals_placed r p
  split
  · rename_i h; subst h; exact ampersand_placed r p
  split
  · rename_i h; subst h; exact bar_placed r p
  · exact errAt_placed _ _ _ _

theorem simple_ascii {c : Char} {t : Token} (h : simple c = some t) : c.toNat < 128 := by
  unfold simple at h
  split at h <;> first | decide | cases h

theorem token_placed (c : Char) (r : Str) (p : Nat) : Placed c r p (token c r p) := by
  unfold token
  split
  · rename_i h; exact number_placed c r p (digit_ascii h)
  split
  · rename_i h
    exact identifier_placed c r p (ident_ascii (by
      unfold isIdent Str.asciiAlnum
      simp only [Bool.or_eq_true, decide_eq_true_eq] at h ⊢
      tauto))
  split
  · rename_i t h; exact one_placed c (simple_ascii h) t r p
  · exact symbol_placed c r p

end Lx

namespace Lx
open Spec

theorem skipWs_place (s : Str) (p : Nat) : ∃ ws, s = ws ++ (skipWs s p).1 ∧ (skipWs s p).2 = p + Str.byteLen ws ∧ ∀ c ∈ ws, c.toNat < 128 := by
  induction s generalizing p with
  | nil => exact ⟨[], rfl, rfl, by simp⟩
  | cons c cs ih =>
    rw [skipWs]
    split
    · rename_i hc
      have ha : c.toNat < 128 := by
        simp only [isSpace, Bool.or_eq_true, decide_eq_true_eq] at hc
        rcases hc with ((rfl | rfl) | rfl) | rfl <;> decide
      obtain ⟨ws, h1, h2, h3⟩ := ih (p + 1)
      refine ⟨c :: ws, by rw [List.cons_append, ← h1], ?_, ?_⟩
      · rw [h2, Str.byteLen, Str.width_ascii ha]; omega
      · intro d hd
        rcases List.mem_cons.1 hd with rfl | hd
        · exact ha
        · exact h3 d hd
    · exact ⟨[], rfl, rfl, by simp⟩

/-- A position errors of the parser may have. -/
def Start (text : Str) (p : Nat) : Prop := CharAt text p ∨ (text = [] ∧ p = 0)

/-- The lexer has come so far in the text. -/
def Reached (text : Str) (l : Lx) : Prop :=
  ∃ a, text = a ++ l.rest ∧ l.pos = Str.byteLen a ∧ Narrow a ∧ Start text l.lastStart

theorem init_reached (text : Str) : Reached text (init text) := by
  refine ⟨[], rfl, rfl, by intro c hc; simp at hc, ?_⟩
  cases text with
  | nil => exact .inr ⟨rfl, rfl⟩
  | cons c r => exact .inl ⟨[], c, r, rfl, rfl⟩

/-- A failure of the lexer or the parser at a place in the text. -/
def FailAt (text : Str) : Fail → Prop
  | .err m _ (some q) => (∃ p : Nat, q = p ∧ Start text p) ∨
      (m = "Unterminated string literal" ∨ m = "Unterminated escape in string") ∧ q = (Str.byteLen text : Nat)
  | .err m _ none => m = "Unknown cast type" ∨ m = "Expected type name after '::'"
  | .panic _ => True

theorem next_reached {text : Str} {l : Lx} (h : Reached text l) :
    match l.next with
    | .ok (_, l') => Reached text l'
    | .error f => FailAt text f := by
  obtain ⟨a, h1, h2, h3, h4⟩ := h
  obtain ⟨ws, w1, w2, w3⟩ := skipWs_place l.rest l.pos
  unfold next
  rcases hs : skipWs l.rest l.pos with ⟨r, p⟩
  rw [hs] at w1 w2
  simp only at w1 w2
  have hn : Narrow (a ++ ws) := narrow_append h3 (narrow_ascii w3)
  cases r with
  | nil =>
    simp only
    refine ⟨a ++ ws, ?_, ?_, hn, h4⟩
    · rw [h1, w1]; simp
    · rw [w2, h2, Str.byteLen_app]
  | cons c r =>
    have hp : p = Str.byteLen (a ++ ws) := by rw [w2, h2, Str.byteLen_app]
    have ht : text = (a ++ ws) ++ c :: r := by rw [h1, w1, List.append_assoc]
    have hst : Start text p := .inl ⟨a ++ ws, c, r, ht, hp⟩
    have hpl := token_placed c r p
    simp only
    rcases htk : token c r p with f | ⟨t, l'⟩
    · rw [htk] at hpl
      rcases f with ⟨m, as, _ | q⟩ | w
      · exact hpl.elim
      · rcases hpl with rfl | ⟨hm, hq⟩
        · exact .inl ⟨p, rfl, hst⟩
        · refine .inr ⟨hm, ?_⟩
          rw [hq, ht, Str.byteLen_app (a ++ ws), hp]
      · trivial
    · rw [htk] at hpl
      obtain ⟨s, s1, s2, s3, s4⟩ := hpl
      refine ⟨a ++ ws ++ (c :: s), ?_, ?_, narrow_append hn s3, ?_⟩
      · rw [ht, s1]; simp
      · rw [s2, Str.byteLen_app (a ++ ws), hp]
      · rcases s4 with s4 | ⟨rfl, s4⟩
        · rw [s4]; exact hst
        · -- the character before is one byte wide
          rcases List.eq_nil_or_concat (a ++ ws) with he | ⟨b, d, he⟩
          · rw [he] at hp
            simp only [Str.byteLen] at hp
            omega
          · rw [List.concat_eq_append] at he
            have hd : Str.width d = 1 := hn d (by rw [he]; simp)
            refine .inl ⟨b, d, '=' :: r, by rw [ht, he]; simp, ?_⟩
            rw [he, Str.byteLen_app] at hp
            simp only [Str.byteLen, hd] at hp
            omega

end Lx

namespace Parser
open Spec Lx

/-- All positions in a token list are places of the text. -/
def TokAt (text : Str) : Toks → Prop
  | .eof p => Start text p
  | .bad (some f) => FailAt text f
  | .bad none => True
  | .cons _ p r => Start text p ∧ TokAt text r

theorem of_at (text : Str) : ∀ (n : Nat) (l : Lx), Reached text l → TokAt text (Toks.of n l)
  | 0, _, _ => trivial
  | n + 1, l, h => by
    have hn := next_reached h
    rw [Toks.of]
    rcases hl : l.next with f | ⟨t, l'⟩
    · rw [hl] at hn; exact hn
    · rw [hl] at hn
      have hs : Start text l'.lastStart := hn.choose_spec.2.2.2
      by_cases ht : t = .eof
      · subst ht; exact hs
      · have : TokAt text (.cons t l'.lastStart (Toks.of n l')) := ⟨hs, of_at text n l' hn⟩
        cases t <;> first | exact this | exact absurd rfl ht

/-- A parser state at a place of the text. -/
def SAt (text : Str) (s : St) : Prop := Start text s.pos ∧ TokAt text s.rest

/-- The outcome of a parsing function is at a place of the text. -/
def RAt {α : Type} (text : Str) : PRes (α × St) → Prop
  | .ok (_, s) => SAt text s
  | .error (some f) => FailAt text f
  | .error none => True

theorem RAt.bind {α β : Type} {text : Str} {r : PRes (α × St)} {k : α × St → PRes (β × St)} (h : RAt text r)
    (hk : ∀ a s, SAt text s → RAt text (k (a, s))) : RAt text (r >>= k) := by
  rcases r with (_ | f) | ⟨a, s⟩
  · trivial
  · exact h
  · exact hk a s h

theorem RAt.bump {β : Type} {text : Str} {s : St} {k : St → PRes (β × St)} (h : SAt text s)
    (hk : ∀ s, SAt text s → RAt text (k s)) : RAt text (Parser.bump s >>= k) := by
  obtain ⟨_, h⟩ := h
  unfold Parser.bump
  rcases hr : s.rest with p | (_ | f) | ⟨t, p, r⟩
  · rw [hr] at h; exact hk _ ⟨h, h⟩
  · trivial
  · rw [hr] at h; exact h
  · rw [hr] at h; exact hk _ h

theorem RAt.err {α : Type} {text : Str} {s : St} (h : SAt text s) (m : String) : RAt text (Parser.err s m : PRes (α × St)) := .inl ⟨s.pos, rfl, h.1⟩

theorem RAt.errCast {α : Type} {text : Str} : RAt text (.error (some (Fail.err "Unknown cast type" [] none)) : PRes (α × St)) := .inl rfl

theorem RAt.errType {α : Type} {text : Str} : RAt text (.error (some (Fail.err "Expected type name after '::'" [] none)) : PRes (α × St)) := .inr rfl

theorem RAt.pure {α : Type} {text : Str} {v : α} {s : St} (h : SAt text s) : RAt text (Pure.pure (v, s) : PRes (α × St)) := h

structure PlacedAll (text : Str) (n : Nat) : Prop where
  expr : ∀ s, SAt text s → RAt text (expr n s)
  ternary : ∀ s, SAt text s → RAt text (ternary n s)
  level : ∀ k s, SAt text s → RAt text (level n k s)
  levelLoop : ∀ k e s, SAt text s → RAt text (levelLoop n k e s)
  unary : ∀ s, SAt text s → RAt text (unary n s)
  power : ∀ s, SAt text s → RAt text (power n s)
  castE : ∀ s, SAt text s → RAt text (castE n s)
  postfixE : ∀ s, SAt text s → RAt text (postfixE n s)
  postLoop : ∀ e s, SAt text s → RAt text (postLoop n e s)
  sliceEnd : ∀ s, SAt text s → RAt text (sliceEnd n s)
  args : ∀ m s, SAt text s → RAt text (args n m s)
  argsLoop : ∀ m s, SAt text s → RAt text (argsLoop n m s)
  arg : ∀ s, SAt text s → RAt text (arg n s)
  itemsLoop : ∀ s, SAt text s → RAt text (itemsLoop n s)
  membersLoop : ∀ s, SAt text s → RAt text (membersLoop n s)
  atom : ∀ s, SAt text s → RAt text (atom n s)

macro "at_step" ih:term : tactic => `(tactic| (
  repeat' first
    | exact RAt.err (by assumption) _
    | exact RAt.pure (by assumption)
    | exact RAt.errCast
    | exact RAt.errType
    | exact ($ih).expr _ (by assumption)
    | exact ($ih).ternary _ (by assumption)
    | exact ($ih).level _ _ (by assumption)
    | exact ($ih).levelLoop _ _ _ (by assumption)
    | exact ($ih).unary _ (by assumption)
    | exact ($ih).power _ (by assumption)
    | exact ($ih).castE _ (by assumption)
    | exact ($ih).postfixE _ (by assumption)
    | exact ($ih).postLoop _ _ (by assumption)
    | exact ($ih).sliceEnd _ (by assumption)
    | exact ($ih).args _ _ (by assumption)
    | exact ($ih).argsLoop _ _ (by assumption)
    | exact ($ih).arg _ (by assumption)
    | exact ($ih).itemsLoop _ (by assumption)
    | exact ($ih).membersLoop _ (by assumption)
    | exact ($ih).atom _ (by assumption)
    | (refine RAt.bump (by assumption) ?_; intro _ _; (try simp only))
    | (refine RAt.bind (($ih).expr _ (by assumption)) ?_; intro _ _ _; (try simp only))
    | (refine RAt.bind (($ih).ternary _ (by assumption)) ?_; intro _ _ _; (try simp only))
    | (refine RAt.bind (($ih).level _ _ (by assumption)) ?_; intro _ _ _; (try simp only))
    | (refine RAt.bind (($ih).unary _ (by assumption)) ?_; intro _ _ _; (try simp only))
    | (refine RAt.bind (($ih).castE _ (by assumption)) ?_; intro _ _ _; (try simp only))
    | (refine RAt.bind (($ih).postfixE _ (by assumption)) ?_; intro _ _ _; (try simp only))
    | (refine RAt.bind (($ih).sliceEnd _ (by assumption)) ?_; intro _ _ _; (try simp only))
    | (refine RAt.bind (($ih).args _ _ (by assumption)) ?_; intro _ _ _; (try simp only))
    | (refine RAt.bind (($ih).argsLoop _ _ (by assumption)) ?_; intro _ _ _; (try simp only))
    | (refine RAt.bind (($ih).arg _ (by assumption)) ?_; intro _ _ _; (try simp only))
    | (refine RAt.bind (($ih).itemsLoop _ (by assumption)) ?_; intro _ _ _; (try simp only))
    | (refine RAt.bind (($ih).membersLoop _ (by assumption)) ?_; intro _ _ _; (try simp only))
    | (refine RAt.bind (($ih).atom _ (by assumption)) ?_; intro _ _ _; (try simp only))
    | split))

set_option maxHeartbeats 800000 in
theorem parser_at (text : Str) : ∀ n, PlacedAll text n := by
  intro n
  induction n with
  | zero =>
    constructor <;> intros <;>
      first
        | (rw [expr]; trivial) | (rw [ternary]; trivial) | (rw [level]; trivial) | (rw [levelLoop]; trivial) | (rw [unary]; trivial) | (rw [power]; trivial) | (rw [castE]; trivial) | (rw [postfixE]; trivial) | (rw [postLoop]; trivial) | (rw [sliceEnd]; trivial) | (rw [args]; trivial) | (rw [argsLoop]; trivial) | (rw [arg]; trivial) | (rw [itemsLoop]; trivial) | (rw [membersLoop]; trivial) | (rw [atom]; trivial)
  | succ n ih =>
    constructor
    · intro s h; rw [expr.eq_2]; at_step ih
    · intro s h; rw [ternary.eq_2]; at_step ih
    · intro k s h; rw [level.eq_2]; at_step ih
    · intro k e s h; rw [levelLoop.eq_2]; at_step ih
    · intro s h; rw [unary.eq_2]; at_step ih
    · intro s h; rw [power.eq_2]; at_step ih
    · intro s h; rw [castE.eq_2]; at_step ih
    · intro s h; rw [postfixE.eq_2]; at_step ih
    · intro e s h; rw [postLoop.eq_2]; at_step ih
    · intro s h; rw [sliceEnd.eq_2]; at_step ih
    · intro m s h; rw [args.eq_2]; at_step ih
    · intro m s h; rw [argsLoop.eq_2]; at_step ih
    · intro s h; rw [arg.eq_2]; at_step ih
    · intro s h; rw [itemsLoop.eq_2]; at_step ih
    · intro s h; rw [membersLoop.eq_2]
      refine RAt.bind ?_ ?_
      · at_step ih
      · intro _ _ _; simp only; at_step ih
    · intro s h; rw [atom.eq_2]; at_step ih

theorem stmts_at (text : Str) : ∀ (n : Nat) (s : St), SAt text s → RAt text (stmts n s) := by
  intro n
  induction n with
  | zero => intro s _; exact trivial
  | succ n ih =>
    intro s h
    rw [stmts.eq_2]
    split
    · refine RAt.bump h fun s1 h1 => ?_
      split
      · exact h1
      · refine RAt.bind ((parser_at text n).expr _ h1) fun e s2 h2 => ?_
        exact RAt.bind (ih _ h2) fun es s3 h3 => h3
    · exact h

theorem program_at (text : Str) (n : Nat) (s : St) (h : SAt text s) : RAt text (program n s) := by
  unfold program
  refine RAt.bind ((parser_at text n).expr _ h) fun e s1 h1 => ?_
  refine RAt.bind (stmts_at text n _ h1) fun es s2 h2 => ?_
  simp only
  split
  · exact h2
  · exact h2

theorem parseText_at (text : Str) (n : Nat) : RAt text (parseTextWith n text) := by
  have ht := of_at text n (Lx.init text) (init_reached text)
  unfold parseTextWith
  have h0 : Start text 0 := (init_reached text).choose_spec.2.2.2
  rcases hx : Toks.of n (Lx.init text) with p | (_ | (⟨m, a, q⟩ | w)) | ⟨t, p, r⟩
  · rw [hx] at ht; exact program_at text n _ ⟨ht, ht⟩
  · trivial
  · exact program_at text n _ ⟨h0, h0⟩
  · trivial
  · rw [hx] at ht; exact program_at text n _ ht

end Parser
