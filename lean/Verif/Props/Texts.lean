import Verif.Props.Strings
import Mathlib.Data.List.TakeWhile
/-! C76: searching, replacing, trimming and changing the case of texts. -/

open Lib

namespace Spec

/-- `t` is `s` with the occurrences of `p` that a scan from the left meets replaced by `r`; the scan goes on after each. -/
inductive Replaced (p r : Str) : Str → Str → Prop
  | done : Replaced p r [] []
  | hit {s t} : Replaced p r s t → Replaced p r (p ++ s) (r ++ t)
  | miss {c s t} : ¬ p <+: c :: s → Replaced p r s t → Replaced p r (c :: s) (c :: t)

/-- The Unicode `White_Space` characters. -/
def White (c : Char) : Prop :=
  c.toNat ∈ [9, 10, 11, 12, 13, 32, 0x85, 0xA0, 0x1680, 0x2000, 0x2001, 0x2002, 0x2003, 0x2004, 0x2005, 0x2006, 0x2007, 0x2008, 0x2009, 0x200A,
    0x2028, 0x2029, 0x202F, 0x205F, 0x3000]

/-- `t` is `s` without the white space at its ends. -/
def Trimmed (s t : Str) : Prop :=
  (∃ a b, s = a ++ t ++ b ∧ (∀ c ∈ a, White c) ∧ ∀ c ∈ b, White c) ∧ (∀ c ∈ t.head?, ¬ White c) ∧ ∀ c ∈ t.getLast?, ¬ White c

/-- A letter `a`-`z` in upper case. -/
def upcase (c : Char) : Char := if 97 ≤ c.toNat ∧ c.toNat ≤ 122 then Char.ofNat (c.toNat - 32) else c
/-- A letter `A`-`Z` in lower case. -/
def downcase (c : Char) : Char := if 65 ≤ c.toNat ∧ c.toNat ≤ 90 then Char.ofNat (c.toNat + 32) else c

end Spec

open Spec

theorem contains_iff (s p : Str) : Str.contains s p = true ↔ p <:+: s := by
  induction s with
  | nil => simp [Str.contains]
  | cons c cs ih =>
    rw [Str.contains, Bool.or_eq_true, startsWith_iff, ih, List.infix_cons_iff]

theorem endsWith_iff (s p : Str) : Str.endsWith s p = true ↔ p <:+ s := by
  rw [Str.endsWith, startsWith_iff, List.reverse_prefix]

theorem meth1_includes (X : Ext) (s p : Str) : meth1 X (.str s) c!"includes" (.str p) = .ok (.bool (Str.contains s p)) := by kernel_rfl
theorem meth1_contains (X : Ext) (s p : Str) : meth1 X (.str s) c!"contains" (.str p) = .ok (.bool (Str.contains s p)) := by kernel_rfl

/-- `INCLUDES(s, p)`, `s.includes(p)` and `s.contains(p)` say whether `p` occurs in `s`. -/
theorem C76_includes (X : Ext) (s p : Str) : ∃ b, (b = true ↔ p <:+: s) ∧ fn X c!"INCLUDES" [.str s, .str p] = .ok (.bool b) ∧
    meth1 X (.str s) c!"includes" (.str p) = .ok (.bool b) ∧ meth1 X (.str s) c!"contains" (.str p) = .ok (.bool b) :=
  ⟨_, contains_iff s p, by rw [fn_eq X _ _ (by decide)]; rfl, by kernel_rfl, by kernel_rfl⟩

/-- `s.starts_with(p)` says whether `s` begins with `p`, `s.ends_with(p)` whether it ends with it. -/
theorem C76_starts_ends (X : Ext) (s p : Str) :
    (∃ b, (b = true ↔ p <+: s) ∧ meth1 X (.str s) c!"starts_with" (.str p) = .ok (.bool b) ∧ meth1 X (.str s) c!"startsWith" (.str p) = .ok (.bool b)) ∧
    ∃ b, (b = true ↔ p <:+ s) ∧ meth1 X (.str s) c!"ends_with" (.str p) = .ok (.bool b) ∧ meth1 X (.str s) c!"endsWith" (.str p) = .ok (.bool b) :=
  ⟨⟨_, startsWith_iff s p, by kernel_rfl, by kernel_rfl⟩, ⟨_, endsWith_iff s p, by kernel_rfl, by kernel_rfl⟩⟩

theorem replaced_splitGo (p r : Str) (hp : p ≠ []) (n : ℕ) : ∀ (acc cs : Str), cs.length ≤ n →
    ∃ t, Replaced p r cs t ∧ Str.join r (Str.splitGo p 0 acc cs) = acc.reverse ++ t := by
  induction n with
  | zero =>
    intro acc cs h
    cases cs with
    | nil => exact ⟨[], .done, by simp [Str.splitGo, Str.join]⟩
    | cons c cs => simp at h
  | succ n ih =>
    intro acc cs h
    cases cs with
    | nil => exact ⟨[], .done, by simp [Str.splitGo, Str.join]⟩
    | cons c cs =>
      rw [List.length_cons] at h
      rw [Str.splitGo]
      split
      · rename_i hs
        rw [startsWith_iff] at hs
        obtain ⟨u, hu⟩ := hs
        cases p with
        | nil => exact absurd rfl hp
        | cons d ps =>
          rw [List.cons_append, List.cons.injEq] at hu
          obtain ⟨rfl, rfl⟩ := hu
          have hl : u.length ≤ n := by rw [List.length_append] at h; omega
          obtain ⟨t, ht, hj⟩ := ih [] u hl
          refine ⟨r ++ t, Replaced.hit (p := d :: ps) ht, ?_⟩
          rw [join_cons _ _ _ (splitGo_ne_nil _ _ _ _), splitGo_skip]
          rw [show (ps ++ u).drop ((d :: ps).length - 1) = u by simp]
          rw [hj]; simp
      · rename_i hs
        rw [startsWith_iff] at hs
        obtain ⟨t, ht, hj⟩ := ih (c :: acc) cs (by omega)
        exact ⟨c :: t, .miss hs ht, by rw [hj]; simp⟩

/-- `SUBSTITUTE(s, p, r)`, `SUBSTITUTEM` and `s.replace(p, r)` replace the occurrences of `p`; they are `JOIN(SPLIT(s, p), r)`. -/
theorem C76_substitute (X : Ext) (s p r : Str) :
    ∃ t, (p ≠ [] → Replaced p r s t) ∧ fn X c!"SUBSTITUTE" [.str s, .str p, .str r] = .ok (.str t) ∧
      fn X c!"SUBSTITUTEM" [.str s, .str p, .str r] = .ok (.str t) ∧ meth2 X (.str s) c!"replace" (.str p) (.str r) = .ok (.str t) ∧
      ∃ parts, fn X c!"SPLIT" [.str s, .str p] = .ok (.arr parts) ∧ fn X c!"JOIN" [.arr parts, .str r] = .ok (.str t) := by
  refine ⟨Str.replace s p r, ?_, by rw [fn_eq X _ _ (by decide)]; rfl, by rw [fn_eq X _ _ (by decide)]; rfl, by kernel_rfl, _, fn_split X s p, fn_join X _ r⟩
  intro hp
  obtain ⟨t, ht, hj⟩ := replaced_splitGo p r hp s.length [] s (le_refl _)
  rw [Str.replace, Str.split, if_neg (by simpa using hp), hj]; exact ht

/-- With an empty `p` the replacement goes before, between and after the characters. -/
theorem C76_substitute_empty (X : Ext) (s r : Str) :
    fn X c!"SUBSTITUTE" [.str s, .str [], .str r] = .ok (.str (r ++ s.flatMap fun c => c :: r)) := by
  have h : ∀ s : Str, Str.join r ((s.map fun c => [c]) ++ [[]]) = s.flatMap fun c => c :: r := by
    intro s
    induction s with
    | nil => rfl
    | cons c cs ih => rw [List.map_cons, List.cons_append, join_cons _ _ _ (by simp), ih]; simp
  rw [fn_eq X _ _ (by decide)]
  show Except.ok (Value.str (Str.replace s [] r)) = _
  rw [Str.replace, Str.split, if_pos List.isEmpty_nil, List.cons_append, join_cons _ _ _ (by simp), h]; simp

theorem isWs_iff (c : Char) : Str.isWs c = true ↔ White c := by
  have : c.val.toNat = c.toNat := rfl
  simp only [Str.isWs, White, Bool.or_eq_true, Bool.and_eq_true, decide_eq_true_eq, beq_iff_eq, UInt32.le_iff_toNat_le, ← UInt32.toNat_inj,
    List.mem_cons, List.not_mem_nil, or_false]
  simp only [UInt32.reduceToNat]
  rw [this]; omega

theorem head_dropWhile_ws (s : Str) : ∀ c ∈ (s.dropWhile Str.isWs).head?, ¬ White c := by
  intro c hc hw
  rw [← isWs_iff] at hw
  have hne : s.dropWhile Str.isWs ≠ [] := by intro h; rw [h] at hc; simp at hc
  have := List.head_dropWhile_not Str.isWs hne
  rw [Option.mem_def, List.head?_eq_some_head hne, Option.some.injEq] at hc
  rw [hc, hw] at this; exact absurd this (by simp)

theorem trim_spec (s : Str) : Trimmed s (Str.trim Str.isWs s) := by
  unfold Str.trim
  have hsplit : ∀ u : Str, u = (u.reverse.dropWhile Str.isWs).reverse ++ (u.reverse.takeWhile Str.isWs).reverse := by
    intro u
    rw [← List.reverse_append, List.takeWhile_append_dropWhile, List.reverse_reverse]
  refine ⟨⟨s.takeWhile Str.isWs, ((s.dropWhile Str.isWs).reverse.takeWhile Str.isWs).reverse, ?_, ?_, ?_⟩, ?_, ?_⟩
  · rw [List.append_assoc, ← hsplit, List.takeWhile_append_dropWhile]
  · intro c hc; exact (isWs_iff c).1 (List.mem_takeWhile_imp hc)
  · intro c hc; rw [List.mem_reverse] at hc; exact (isWs_iff c).1 (List.mem_takeWhile_imp hc)
  · intro c hc
    refine head_dropWhile_ws s c ?_
    rw [hsplit (s.dropWhile Str.isWs)]
    rw [Option.mem_def] at hc ⊢
    cases h : ((s.dropWhile Str.isWs).reverse.dropWhile Str.isWs).reverse with
    | nil => rw [h] at hc; simp at hc
    | cons a l => rw [h] at hc; simpa using hc
  · intro c hc
    rw [List.getLast?_reverse] at hc
    exact head_dropWhile_ws _ c hc

/-- `TRIM(s)` and `s.trim()` remove the white space at both ends and nothing else. -/
theorem C76_trim (X : Ext) (s : Str) : ∃ t, Trimmed s t ∧ fn X c!"TRIM" [.str s] = .ok (.str t) ∧ meth0 X (.str s) c!"trim" = .ok (.str t) :=
  ⟨_, trim_spec s, by rw [fn_eq X _ _ (by decide)]; rfl, by kernel_rfl⟩

/-- The functions and methods that change case agree on every text; on ASCII texts they do it letter by letter. -/
theorem C76_case (X : Ext) (s : Str) :
    (∃ t, ((∀ c ∈ s, c.toNat < 128) → t = s.map upcase) ∧ fn X c!"UPPER" [.str s] = .ok (.str t) ∧ meth0 X (.str s) c!"upper" = .ok (.str t) ∧
      meth0 X (.str s) c!"upcase" = .ok (.str t)) ∧
    ∃ t, ((∀ c ∈ s, c.toNat < 128) → t = s.map downcase) ∧ fn X c!"LOWER" [.str s] = .ok (.str t) ∧ meth0 X (.str s) c!"lower" = .ok (.str t) ∧
      meth0 X (.str s) c!"downcase" = .ok (.str t) := by
  have ha : (∀ c ∈ s, c.toNat < 128) → s.all Str.isAscii = true := by
    intro h; rw [List.all_eq_true]; intro c hc
    simp only [Str.isAscii, decide_eq_true_eq, UInt32.lt_iff_toNat_lt]; exact h c hc
  refine ⟨⟨X.upper s, fun h => ?_, by rw [fn_eq X _ _ (by decide)]; rfl, by kernel_rfl, by kernel_rfl⟩,
    ⟨X.lower s, fun h => ?_, by rw [fn_eq X _ _ (by decide)]; rfl, by kernel_rfl, by kernel_rfl⟩⟩
  · rw [Ext.upper, if_pos (ha h)]; rfl
  · rw [Ext.lower, if_pos (ha h)]; rfl

example : c!"an" <:+: c!"banana" ∧ c!"ba" <+: c!"banana" ∧ ¬ c!"an" <+: c!"banana" ∧ c!"na" <:+ c!"banana" := by decide
example : Replaced c!"aa" c!"b" c!"aaa" c!"ba" := .hit (p := c!"aa") (.miss (by decide) .done)
