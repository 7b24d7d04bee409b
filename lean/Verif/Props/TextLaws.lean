import Verif.Props.Texts
import Verif.Props.Strings
import Verif.Props.JsFile
/-! C150: calls on texts can be rewritten by the usual laws. -/

namespace TextLaws

open _root_.Spec

namespace Spec

/-- `F(a, b, ...)` where the arguments are given by what they are worth. -/
def app (X : Ext) (f : Str) (as : List (Res Value)) : Res Value := do
  let vs ← as.mapM id
  fn X f vs

/-- A text as an argument. -/
abbrev txt (s : Str) : Res Value := .ok (.str s)
/-- A number as an argument. -/
abbrev no (n : F64) : Res Value := .ok (.num n)
/-- A truth value as a result. -/
abbrev yes : Res Value := .ok (.bool true)

/-- The text with every `c` replaced by `r`. -/
def everywhere (c : Char) (r s : Str) : Str := s.flatMap fun x => if x = c then r else [x]

end Spec

open Spec

theorem app1 (X : Ext) (f : Str) (a : Value) : app X f [.ok a] = fn X f [a] := rfl
theorem app2 (X : Ext) (f : Str) (a b : Value) : app X f [.ok a, .ok b] = fn X f [a, b] := rfl
theorem app3 (X : Ext) (f : Str) (a b c : Value) : app X f [.ok a, .ok b, .ok c] = fn X f [a, b, c] := rfl
theorem app4 (X : Ext) (f : Str) (a b c d : Value) : app X f [.ok a, .ok b, .ok c, .ok d] = fn X f [a, b, c, d] := rfl

theorem concat2 (X : Ext) (a b : Str) : fn X c!"CONCAT" [.str a, .str b] = txt (a ++ b) := by simpa using C33_concat_strings X [a, b]
theorem concat3 (X : Ext) (a b c : Str) : fn X c!"CONCAT" [.str a, .str b, .str c] = txt (a ++ b ++ c) := by simpa using C33_concat_strings X [a, b, c]

theorem fits_take {s : Str} (h : Fits s) (k : ℕ) : Fits (s.take k) := lt_of_le_of_lt (by simp) h
theorem fits_drop {s : Str} (h : Fits s) (k : ℕ) : Fits (s.drop k) := lt_of_le_of_lt (by simp) h

/-- **C150.** Parts of parts of a text. -/
theorem C150_parts (X : Ext) (s : Str) (hs : Fits s) (n m k : F64) (t u : ℤ) (hn : TruncatesTo n t) (hm : TruncatesTo m u) :
    (t ≤ u →
      app X c!"LEFT" [app X c!"LEFT" [txt s, no n], no m] = app X c!"LEFT" [txt s, no n] ∧
      app X c!"LEFT" [app X c!"LEFT" [txt s, no m], no n] = app X c!"LEFT" [txt s, no n] ∧
      app X c!"RIGHT" [app X c!"RIGHT" [txt s, no n], no m] = app X c!"RIGHT" [txt s, no n] ∧
      app X c!"RIGHT" [app X c!"RIGHT" [txt s, no m], no n] = app X c!"RIGHT" [txt s, no n]) ∧
    app X c!"SUBSTRING" [txt s, no n, no m] = app X c!"LEFT" [app X c!"SUBSTRING" [txt s, no n], no m] ∧
    (0 ≤ t → 0 ≤ u → TruncatesTo k (t + u) → app X c!"SUBSTRING" [app X c!"SUBSTRING" [txt s, no n], no m] = app X c!"SUBSTRING" [txt s, no k] ∧
      app X c!"SUBSTRING" [app X c!"LEFT" [txt s, no k], no n] = app X c!"SUBSTRING" [txt s, no n, no m]) ∧
    (0 ≤ t → TruncatesTo k (t + 1) → app X c!"MID" [txt s, no k, no m] = app X c!"SUBSTRING" [txt s, no n, no m] ∧
      app X c!"MID" [txt s, no k] = app X c!"SUBSTRING" [txt s, no n]) := by
  refine ⟨?_, ?_, ?_, ?_⟩
  · intro h
    have h' : t.toNat ≤ u.toNat := Int.toNat_le_toNat h
    refine ⟨?_, ?_, ?_, ?_⟩
    · rw [app2 X _ (.str s), C32_left X s hs n t hn, app2, C32_left X _ (fits_take hs _) m u hm, List.take_take, Nat.min_eq_right h']
    · rw [app2 X _ (.str s) (.num m), C32_left X s hs m u hm, app2, C32_left X _ (fits_take hs _) n t hn, app2, C32_left X s hs n t hn, List.take_take, Nat.min_eq_left h']
    · rw [app2 X _ (.str s), C32_right X s hs n t hn, app2, C32_right X _ (fits_drop hs _) m u hm, List.drop_drop, List.length_drop]
      congr 4; omega
    · rw [app2 X _ (.str s) (.num m), C32_right X s hs m u hm, app2, C32_right X _ (fits_drop hs _) n t hn, app2, C32_right X s hs n t hn, List.drop_drop, List.length_drop]
      congr 4; omega
  · rw [app3, (C32_substring X s hs n m t u hn hm).2, app2 X _ (.str s), (C32_substring X s hs n m t u hn hm).1, app2, C32_left X _ (fits_drop hs _) m u hm]
  · intro h0 h1 hk
    constructor
    · rw [app2 X _ (.str s), (C32_substring X s hs n m t u hn hm).1, app2, (C32_substring X _ (fits_drop hs _) m m u u hm hm).1, app2, (C32_substring X s hs k m _ u hk hm).1,
        List.drop_drop]
      congr 4; omega
    · rw [app2 X _ (.str s), C32_left X s hs k _ hk, app2, (C32_substring X _ (fits_take hs _) n m t u hn hm).1, app3, (C32_substring X s hs n m t u hn hm).2, List.drop_take]
      congr 4; omega
  · intro h0 hk
    have e : (max (t + 1) 1).toNat - 1 = t.toNat := by omega
    constructor
    · rw [app3, (C32_mid X s hs k m _ u hk hm).2, app3, (C32_substring X s hs n m t u hn hm).2, e]
    · rw [app2, (C32_mid X s hs k m _ u hk hm).1, app2, (C32_substring X s hs n m t u hn hm).1, e]

/-- **C150.** Taking texts apart and putting them together. -/
theorem C150_together (X : Ext) (s new : Str) (hs : Fits s) (n m k : F64) (t u : ℤ) (hn : TruncatesTo n t) (hm : TruncatesTo m u) (h0 : 0 ≤ t) (h1 : 0 ≤ u) :
    (t + u = s.length → app X c!"CONCAT" [app X c!"LEFT" [txt s, no n], app X c!"RIGHT" [txt s, no m]] = txt s) ∧
    app X c!"CONCAT" [app X c!"LEFT" [txt s, no n], app X c!"SUBSTRING" [txt s, no n]] = txt s ∧
    (∀ j, TruncatesTo k (t + 1) → TruncatesTo j (t + u) →
      app X c!"REPLACE" [txt s, no k, no m, txt new] = app X c!"CONCAT" [app X c!"LEFT" [txt s, no n], txt new, app X c!"SUBSTRING" [txt s, no j]] ∧
      app X c!"REPLACE" [txt s, no k, no m, app X c!"MID" [txt s, no k, no m]] = txt s) := by
  refine ⟨?_, ?_, ?_⟩
  · intro h
    rw [app2 X _ (.str s), C32_left X s hs n t hn, app2 X _ (.str s), C32_right X s hs m u hm, app2, concat2]
    rw [show s.length - u.toNat = t.toNat by omega, List.take_append_drop]
  · rw [app2 X _ (.str s), C32_left X s hs n t hn, app2 X _ (.str s), (C32_substring X s hs n m t u hn hm).1, app2, concat2, List.take_append_drop]
  · intro j hk hj
    have e : (max (t + 1) 1).toNat - 1 = t.toNat := by omega
    have e2 : (t + u).toNat = t.toNat + u.toNat := by omega
    constructor
    · rw [app4, C32_replace X s new hs k m _ u hk hm, app2 X _ (.str s), C32_left X s hs n t hn, app2 X _ (.str s), (C32_substring X s hs j m _ u hj hm).1, app3, concat3, e, e2]
    · rw [app3, (C32_mid X s hs k m _ u hk hm).2, app4, C32_replace X s _ hs k m _ u hk hm, e, ← List.drop_drop, List.append_assoc, List.take_append_drop, List.take_append_drop]

theorem trunc_len {k : ℕ} (h : k ≤ 2 ^ 53) : TruncatesTo (F64.ofNat k) k := by
  unfold F64.ofNat
  rw [F64.ofInt_exact _ (by rw [abs_of_nonneg (by omega)]; exact_mod_cast h)]
  unfold F64.ofIntExact
  split
  · rename_i h0; exact h0
  · exact ⟨by simp, by simp, mul_self_nonneg _⟩

/-- **C150.** The parts of two texts put together can be found again by their lengths. -/
theorem C150_apart (X : Ext) (a b : Str) (h : a.length + b.length ≤ 2 ^ 53) :
    app X c!"LEFT" [app X c!"CONCAT" [txt a, txt b], app X c!"LENGTH" [txt a]] = txt a ∧
    app X c!"SUBSTRING" [app X c!"CONCAT" [txt a, txt b], app X c!"LENGTH" [txt a]] = txt b ∧
    app X c!"RIGHT" [app X c!"CONCAT" [txt a, txt b], app X c!"LENGTH" [txt b]] = txt b := by
  have hf : Fits (a ++ b) := by simp only [Fits, List.length_append]; omega
  rw [app2 X _ (.str a), concat2, app1, app1, fn_length, fn_length, app2, app2, app2]
  rw [C32_left X _ hf _ _ (trunc_len (k := a.length) (by omega)), (C32_substring X _ hf _ _ _ _ (trunc_len (k := a.length) (by omega)) (trunc_len (k := a.length) (by omega))).1,
    C32_right X _ hf _ _ (trunc_len (k := b.length) (by omega))]
  simp

theorem fn_trim (X : Ext) (s : Str) : fn X c!"TRIM" [.str s] = txt (Str.strip s) := by
  obtain ⟨t, h, h', -⟩ := C76_trim X s
  rw [h', (JsFile.trimmed_iff s t).1 h]

theorem fn_includes (X : Ext) (s p : Str) : fn X c!"INCLUDES" [.str s, .str p] = yes ↔ p <:+: s := by
  obtain ⟨b, h, h', -⟩ := C76_includes X s p
  rw [h', ← h]; simp

/-- **C150.** Trimming again changes nothing, and white space put around a text is trimmed away. -/
theorem C150_trim (X : Ext) (s a b : Str) (ha : ∀ c ∈ a, White c) (hb : ∀ c ∈ b, White c) :
    app X c!"TRIM" [app X c!"TRIM" [txt s]] = app X c!"TRIM" [txt s] ∧
    app X c!"TRIM" [app X c!"CONCAT" [txt a, txt s, txt b]] = app X c!"TRIM" [txt s] ∧
    app X c!"INCLUDES" [txt s, app X c!"TRIM" [txt s]] = yes := by
  have h := (JsFile.trimmed_iff s _).2 rfl
  obtain ⟨⟨p, q, e, hp, hq⟩, h1, h2⟩ := h
  refine ⟨?_, ?_, ?_⟩
  · rw [app1 X _ (.str s), fn_trim, app1, fn_trim, (JsFile.trimmed_iff (Str.strip s) (Str.strip s)).1 ⟨⟨[], [], by simp, by simp, by simp⟩, h1, h2⟩]
  · rw [app3, concat3, app1, app1, fn_trim, fn_trim, (JsFile.trimmed_iff (a ++ s ++ b) (Str.strip s)).1 ⟨⟨a ++ p, q ++ b, ?_, ?_, ?_⟩, h1, h2⟩]
    · conv_lhs => rw [e]
      simp
    · intro c hc; exact (List.mem_append.1 hc).elim (ha c) (hp c)
    · intro c hc; exact (List.mem_append.1 hc).elim (hq c) (hb c)
  · rw [app1, fn_trim, app2, fn_includes]
    exact ⟨p, q, e.symm⟩

/-- **C150.** What is part of a part is part of the whole; the parts taken out are parts. -/
theorem C150_includes (X : Ext) (s p q a b : Str) (hs : Fits s) (n m : F64) (t u : ℤ) (hn : TruncatesTo n t) (hm : TruncatesTo m u) :
    (app X c!"INCLUDES" [txt s, txt p] = yes → app X c!"INCLUDES" [txt p, txt q] = yes → app X c!"INCLUDES" [txt s, txt q] = yes) ∧
    (app X c!"INCLUDES" [txt s, txt p] = yes → app X c!"INCLUDES" [txt p, txt s] = yes → s = p) ∧
    app X c!"INCLUDES" [app X c!"CONCAT" [txt a, txt p, txt b], txt p] = yes ∧
    app X c!"INCLUDES" [txt s, app X c!"LEFT" [txt s, no n]] = yes ∧
    app X c!"INCLUDES" [txt s, app X c!"RIGHT" [txt s, no n]] = yes ∧
    app X c!"INCLUDES" [txt s, app X c!"SUBSTRING" [txt s, no n, no m]] = yes ∧
    app X c!"INCLUDES" [txt s, app X c!"MID" [txt s, no n, no m]] = yes := by
  refine ⟨?_, ?_, ?_, ?_, ?_, ?_, ?_⟩
  · rw [app2, app2, app2, fn_includes, fn_includes, fn_includes]
    exact fun h1 h2 => h2.trans h1
  · rw [app2, app2, fn_includes, fn_includes]
    exact fun h1 h2 => (h2.eq_of_length (le_antisymm h2.length_le h1.length_le))
  · rw [app3, concat3, app2, fn_includes]
    exact ⟨a, b, rfl⟩
  · rw [app2 X _ (.str s), C32_left X s hs n t hn, app2, fn_includes]
    exact (List.take_prefix _ _).isInfix
  · rw [app2 X _ (.str s), C32_right X s hs n t hn, app2, fn_includes]
    exact (List.drop_suffix _ _).isInfix
  · rw [app3, (C32_substring X s hs n m t u hn hm).2, app2, fn_includes]
    exact (List.take_prefix _ _).isInfix.trans (List.drop_suffix _ _).isInfix
  · rw [app3, (C32_mid X s hs n m t u hn hm).2, app2, fn_includes]
    exact (List.take_prefix _ _).isInfix.trans (List.drop_suffix _ _).isInfix

theorem fn_substitute (X : Ext) (s p r : Str) : fn X c!"SUBSTITUTE" [.str s, .str p, .str r] = txt (Str.join r (Str.split s p)) := by
  rw [fn_eq X _ _ (by decide)]; rfl

theorem join_char (c : Char) (r : Str) : ∀ s acc : Str, Str.join r (Str.splitGo [c] 0 acc s) = acc.reverse ++ everywhere c r s
  | [], acc => by simp [Str.splitGo, Str.join, everywhere]
  | x :: s, acc => by
    rw [Str.splitGo]
    by_cases h : x = c
    · rw [if_pos (by simp [Str.startsWith, h]), join_cons _ _ _ (splitGo_ne_nil _ _ _ _)]
      rw [show [c].length - 1 = 0 from rfl, join_char c r s []]
      simp [everywhere, h]
    · rw [if_neg (by simp [Str.startsWith, h]), join_char c r s (x :: acc)]
      simp [everywhere, h]

theorem substitute_char (X : Ext) (s : Str) (c : Char) (r : Str) : fn X c!"SUBSTITUTE" [.str s, .str [c], .str r] = txt (everywhere c r s) := by
  rw [fn_substitute]
  have : Str.split s [c] = Str.splitGo [c] 0 [] s := rfl
  rw [this, join_char]; rfl

theorem everywhere_absent {c : Char} {r s : Str} (h : c ∉ s) : everywhere c r s = s := by
  induction s with
  | nil => rfl
  | cons x s ih =>
    simp only [List.mem_cons, not_or] at h
    have : ¬ x = c := fun e => h.1 e.symm
    have i := ih h.2
    unfold everywhere at i ⊢
    rw [List.flatMap_cons, if_neg this, i]; rfl

theorem everywhere_gone {c : Char} {r : Str} (h : c ∉ r) (s : Str) : c ∉ everywhere c r s := by
  intro hc
  obtain ⟨x, -, hx⟩ := List.mem_flatMap.1 hc
  split at hx
  · exact h hx
  · rename_i hne
    exact hne (List.mem_singleton.1 hx).symm

theorem everywhere_append (c : Char) (r a b : Str) : everywhere c r (a ++ b) = everywhere c r a ++ everywhere c r b := List.flatMap_append

theorem everywhere_back {c d : Char} {s : Str} (h : d ∉ s) : everywhere d [c] (everywhere c [d] s) = s := by
  induction s with
  | nil => rfl
  | cons x s ih =>
    simp only [List.mem_cons, not_or] at h
    have i := ih h.2
    rw [show x :: s = [x] ++ s from rfl, everywhere_append, everywhere_append, i]
    by_cases e : x = c
    · subst e; simp [everywhere]
    · have : ¬ x = d := fun e => h.1 e.symm
      simp [everywhere, e, this]

theorem splitGo_absent {p : Str} (hp : p ≠ []) : ∀ (s acc : Str), Str.contains s p = false → Str.splitGo p 0 acc s = [acc.reverse ++ s]
  | [], acc, _ => by simp [Str.splitGo]
  | c :: s, acc, h => by
    rw [Str.contains, Bool.or_eq_false_iff] at h
    rw [Str.splitGo, if_neg (by simp [h.1]), splitGo_absent hp s (c :: acc) h.2]
    simp

/-- **C150.** Replacing a part by itself, or a part that is not there, changes nothing. Replacing a character can be done in the parts of a text, once is enough when the
replacement does not hold the character, and it can be undone when the new character was not there. -/
theorem C150_substitute (X : Ext) (s a b p r : Str) (c d : Char) :
    app X c!"SUBSTITUTE" [txt s, txt p, txt p] = txt s ∧
    (app X c!"INCLUDES" [txt s, txt p] ≠ yes → app X c!"SUBSTITUTE" [txt s, txt p, txt r] = txt s) ∧
    app X c!"SUBSTITUTE" [app X c!"CONCAT" [txt a, txt b], txt [c], txt r] =
      app X c!"CONCAT" [app X c!"SUBSTITUTE" [txt a, txt [c], txt r], app X c!"SUBSTITUTE" [txt b, txt [c], txt r]] ∧
    (c ∉ r →
      app X c!"INCLUDES" [app X c!"SUBSTITUTE" [txt s, txt [c], txt r], txt [c]] = .ok (.bool false) ∧
      app X c!"SUBSTITUTE" [app X c!"SUBSTITUTE" [txt s, txt [c], txt r], txt [c], txt p] = app X c!"SUBSTITUTE" [txt s, txt [c], txt r]) ∧
    (d ∉ s → app X c!"SUBSTITUTE" [app X c!"SUBSTITUTE" [txt s, txt [c], txt [d]], txt [d], txt [c]] = txt s) := by
  have inc : ∀ t : Str, fn X c!"INCLUDES" [.str t, .str [c]] = .ok (.bool false) ↔ c ∉ t := by
    intro t
    obtain ⟨v, h, h', -⟩ := C76_includes X t [c]
    rw [h']
    have e : [c] <:+: t ↔ c ∈ t := List.singleton_infix_iff c t
    rw [← e, ← h]
    cases v <;> simp
  refine ⟨?_, ?_, ?_, ?_, ?_⟩
  · rw [app3, fn_substitute, join_split]
  · intro h
    rw [app2] at h
    rw [Ne, fn_includes] at h
    have hp : p ≠ [] := fun e => h (e ▸ List.nil_infix)
    rw [app3, fn_substitute]
    have hc : Str.contains s p = false := by rw [Bool.eq_false_iff]; exact fun hc => h ((contains_iff s p).1 hc)
    rw [Str.split, if_neg (by simpa using hp), splitGo_absent hp _ _ hc]
    rfl
  · rw [app2 X _ (.str a), concat2, app3, app3 X _ (.str a), app3 X _ (.str b), substitute_char, substitute_char, substitute_char, app2, concat2, everywhere_append]
  · intro h
    rw [app3 X _ (.str s), substitute_char, app2, app3, substitute_char, inc, everywhere_absent (r := p) (everywhere_gone h s)]
    exact ⟨everywhere_gone h s, rfl⟩
  · intro h
    rw [app3 X _ (.str s), substitute_char, app3, substitute_char, everywhere_back h]

theorem splitGo_present {p : Str} : ∀ (s acc : Str), Str.contains s p = true → p ≠ [] → 2 ≤ (Str.splitGo p 0 acc s).length
  | [], acc, h, hp => by cases p with
    | nil => exact absurd rfl hp
    | cons c p => simp [Str.contains] at h
  | c :: s, acc, h, hp => by
    rw [Str.splitGo]
    split
    · have := List.length_pos_iff.2 (splitGo_ne_nil p (p.length - 1) [] s)
      rw [List.length_cons]; omega
    · rename_i hn
      rw [Str.contains, Bool.or_eq_true] at h
      exact splitGo_present s _ (h.resolve_left hn) hp

theorem join_length (r : Str) : ∀ l : List Str, l ≠ [] → (Str.join r l).length = (l.map List.length).sum + (l.length - 1) * r.length
  | [], h => absurd rfl h
  | [a], _ => by simp [Str.join]
  | a :: b :: l, _ => by
    rw [Str.join, List.length_append, List.length_append, join_length r (b :: l) (by simp)]
    simp only [List.map_cons, List.sum_cons, List.length_cons, Nat.add_sub_cancel, Nat.add_mul, Nat.one_mul]
    omega

/-- **C150.** How often a part was replaced is one less than the number of pieces, and this many times the difference in length is added. -/
theorem C150_pieces (X : Ext) (s p r : Str) (hp : p ≠ []) :
    ∃ (k : ℕ) (t : Str) (parts : List Value), fn X c!"SPLIT" [.str s, .str p] = .ok (.arr parts) ∧ parts.length = k + 1 ∧
      fn X c!"SUBSTITUTE" [.str s, .str p, .str r] = txt t ∧ t.length + k * p.length = s.length + k * r.length ∧
      (app X c!"INCLUDES" [txt s, txt p] = yes ↔ 0 < k) := by
  have hne : Str.split s p ≠ [] := by rw [Str.split, if_neg (by simpa using hp)]; exact splitGo_ne_nil _ _ _ _
  have hl : 0 < (Str.split s p).length := List.length_pos_iff.2 hne
  refine ⟨(Str.split s p).length - 1, _, _, fn_split X s p, by rw [List.length_map]; omega, fn_substitute X s p r, ?_, ?_⟩
  · have h1 := join_length r _ hne
    have h2 := join_length p _ hne
    rw [join_split] at h2
    omega
  · rw [app2, fn_includes, ← contains_iff]
    constructor
    · intro h
      rw [Str.split, if_neg (by simpa using hp)]
      have := splitGo_present s [] h hp
      omega
    · intro h
      by_contra hc
      rw [Str.split, if_neg (by simpa using hp), splitGo_absent hp _ _ (by simpa using hc)] at h
      simp at h

theorem reverse_text (X : Ext) (s : Str) : meth0 X (.str s) c!"reverse" = txt s.reverse := by kernel_rfl

/-- **C150.** A text turned round twice is the text; turned round it begins with what it ended with, holds the same parts turned round, and can be trimmed before or after. -/
theorem C150_reverse (X : Ext) (s p : Str) :
    (∃ t, meth0 X (.str s) c!"reverse" = txt t ∧ meth0 X (.str t) c!"reverse" = txt s) ∧
    ∃ t q u, meth0 X (.str s) c!"reverse" = txt t ∧ meth0 X (.str p) c!"reverse" = txt q ∧ meth0 X (.str s) c!"trim" = txt u ∧
      meth1 X (.str t) c!"starts_with" (.str q) = meth1 X (.str s) c!"ends_with" (.str p) ∧
      meth1 X (.str t) c!"ends_with" (.str q) = meth1 X (.str s) c!"starts_with" (.str p) ∧
      meth1 X (.str t) c!"includes" (.str q) = meth1 X (.str s) c!"includes" (.str p) ∧
      meth0 X (.str t) c!"trim" = meth0 X (.str u) c!"reverse" ∧
      meth0 X (.str t) c!"length" = meth0 X (.str s) c!"length" := by
  have hb : ∀ {P Q : Prop} {x y : Bool}, (x = true ↔ P) → (y = true ↔ Q) → (P ↔ Q) → x = y := by
    intro P Q x y h1 h2 h
    rw [Bool.eq_iff_iff, h1, h2, h]
  refine ⟨⟨_, reverse_text X s, by rw [reverse_text, List.reverse_reverse]⟩, _, _, Str.strip s, reverse_text X s, reverse_text X p, ?_, ?_, ?_, ?_, ?_, ?_⟩
  · obtain ⟨t, h, -, h'⟩ := C76_trim X s
    rw [h', (JsFile.trimmed_iff s t).1 h]
  · obtain ⟨⟨x, hx, ex, -⟩, -⟩ := C76_starts_ends X s.reverse p.reverse
    obtain ⟨-, y, hy, ey, -⟩ := C76_starts_ends X s p
    rw [ex, ey, hb hx hy (by simp)]
  · obtain ⟨-, x, hx, ex, -⟩ := C76_starts_ends X s.reverse p.reverse
    obtain ⟨⟨y, hy, ey, -⟩, -⟩ := C76_starts_ends X s p
    rw [ex, ey, hb hx hy (by simp)]
  · obtain ⟨x, hx, -, ex, -⟩ := C76_includes X s.reverse p.reverse
    obtain ⟨y, hy, -, ey, -⟩ := C76_includes X s p
    rw [ex, ey, hb hx hy (by simp)]
  · obtain ⟨t, h, -, h'⟩ := C76_trim X s.reverse
    rw [h', reverse_text, ← (JsFile.trimmed_iff _ t).1 h]
    obtain ⟨⟨a, c, e, ha, hc⟩, h1, h2⟩ := (JsFile.trimmed_iff s _).2 rfl
    rw [(JsFile.trimmed_iff s.reverse (Str.strip s).reverse).1 ⟨⟨c.reverse, a.reverse, ?_, ?_, ?_⟩, ?_, ?_⟩]
    · conv_lhs => rw [e]
      simp
    · simpa using hc
    · simpa using ha
    · rw [List.head?_reverse]; exact h2
    · rw [List.getLast?_reverse]; exact h1
  · have e : ∀ t : Str, meth0 X (.str t) c!"length" = .ok (.num (F64.ofNat (Str.byteLen t))) := by intro t; kernel_rfl
    have l : ∀ t : Str, Str.byteLen t = (t.map Str.width).sum := by
      intro t
      induction t with
      | nil => rfl
      | cons c t ih => rw [Str.byteLen, ih]; rfl
    rw [e, e, l, l, List.map_reverse, List.sum_reverse]

/-- **C150.** A part of two characters cannot be replaced in the pieces, and may be there again after replacing. -/
theorem C150_not_laws (X : Ext) :
    app X c!"SUBSTITUTE" [app X c!"CONCAT" [txt c!"a", txt c!"b"], txt c!"ab", txt c!"x"] ≠
      app X c!"CONCAT" [app X c!"SUBSTITUTE" [txt c!"a", txt c!"ab", txt c!"x"], app X c!"SUBSTITUTE" [txt c!"b", txt c!"ab", txt c!"x"]] ∧
    app X c!"INCLUDES" [app X c!"SUBSTITUTE" [txt c!"aabb", txt c!"ab", txt []], txt c!"ab"] = yes := by
  constructor
  · rw [app2, concat2, app3, app3, app3, fn_substitute, fn_substitute, fn_substitute, app2, concat2]
    intro e
    exact absurd (Value.str.inj (Except.ok.inj e)) (by decide)
  · rw [app3, fn_substitute, app2, fn_includes]
    exact ⟨[], [], by decide⟩

/-! Cases. -/

example (X : Ext) : app X c!"LEFT" [app X c!"LEFT" [txt c!"añb", no (F64.ofNat 2)], no (F64.ofNat 1)] = app X c!"LEFT" [txt c!"añb", no (F64.ofNat 1)] :=
  ((C150_parts X c!"añb" (by decide) (F64.ofNat 1) (F64.ofNat 2) .nan 1 2 (trunc_len (by norm_num)) (trunc_len (by norm_num))).1 (by decide)).2.1

example (X : Ext) : app X c!"CONCAT" [app X c!"LEFT" [txt c!"añb", no (F64.ofNat 1)], app X c!"RIGHT" [txt c!"añb", no (F64.ofNat 2)]] = txt c!"añb" :=
  (C150_together X c!"añb" [] (by decide) (F64.ofNat 1) (F64.ofNat 2) .nan 1 2 (trunc_len (by norm_num)) (trunc_len (by norm_num)) (by decide) (by decide)).1 rfl

example (X : Ext) : app X c!"RIGHT" [app X c!"CONCAT" [txt c!"ab", txt c!"c"], app X c!"LENGTH" [txt c!"c"]] = txt c!"c" :=
  (C150_apart X c!"ab" c!"c" (by decide)).2.2

example (X : Ext) : app X c!"TRIM" [app X c!"CONCAT" [txt c!" ", txt c!" a b", txt c!"\t"]] = app X c!"TRIM" [txt c!" a b"] :=
  (C150_trim X c!" a b" c!" " c!"\t" (by simp [White]) (by simp [White])).2.1

example (X : Ext) : app X c!"SUBSTITUTE" [app X c!"SUBSTITUTE" [txt c!"a-b-", txt c!"-", txt c!"+"], txt c!"+", txt c!"-"] = txt c!"a-b-" :=
  (C150_substitute X c!"a-b-" [] [] [] [] '-' '+').2.2.2.2 (by decide)

example (X : Ext) := C150_includes X c!"añb" c!"ñb" c!"b" c!"a" [] (by decide) (F64.ofNat 1) (F64.ofNat 2) 1 2 (trunc_len (by norm_num)) (trunc_len (by norm_num))

example (X : Ext) : ∃ (k : ℕ) (t : Str) (parts : List Value), fn X c!"SPLIT" [.str c!"a-b-", .str c!"-"] = .ok (.arr parts) ∧ parts.length = k + 1 ∧
    fn X c!"SUBSTITUTE" [.str c!"a-b-", .str c!"-", .str c!"++"] = txt t ∧ t.length + k * 1 = 4 + k * 2 ∧
    (app X c!"INCLUDES" [txt c!"a-b-", txt c!"-"] = yes ↔ 0 < k) := C150_pieces X c!"a-b-" c!"-" c!"++" (by decide)

end TextLaws
