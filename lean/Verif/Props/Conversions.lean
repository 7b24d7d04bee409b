import Verif.Props.Casts
import Mathlib.Data.List.TakeWhile
/-! C73: what the casts convert values to. -/

open Lib Spec

namespace Spec

/-- The values a boolean cast counts as true: true, numbers other than zero, texts with a character that is no white space,
non-empty arrays, dates other than the epoch. -/
def Truth : Value → Prop
  | .bool b => b = true
  | .num x => ∀ s, x ≠ .zero s
  | .cur x => ∀ s, x ≠ .zero s
  | .str s => ∃ c ∈ s, Str.isWs c = false
  | .json s => ∃ c ∈ s, Str.isWs c = false
  | .arr items => items ≠ []
  | .dt t => t ≠ 0
  | .null => False

/-- The amount of a number, a currency, a boolean or null. -/
inductive Amount : Value → F64 → Prop
  | num (x : F64) : Amount (.num x) x
  | cur (x : F64) : Amount (.cur x) x
  | true : Amount (.bool true) (.fin 1)
  | false : Amount (.bool false) (.zero false)
  | null : Amount .null (.zero false)

end Spec

theorem trim_empty (s : Str) : (Str.trim Str.isWs s).isEmpty = true ↔ ∀ c ∈ s, Str.isWs c = true := by
  unfold Str.trim
  rw [List.isEmpty_iff, List.reverse_eq_nil_iff, List.dropWhile_eq_nil_iff]
  constructor
  · intro h
    by_contra hc
    push Not at hc
    obtain ⟨c, hc, hw⟩ := hc
    have hne : s.dropWhile Str.isWs ≠ [] := by
      rw [Ne, List.dropWhile_eq_nil_iff]; exact fun h => hw (h c hc)
    have := List.head_dropWhile_not Str.isWs hne
    exact absurd (h _ (List.mem_reverse.2 (List.head_mem hne))) (by simp [this])
  · intro h c hc
    exact h c ((List.dropWhile_sublist _).subset (List.mem_reverse.1 hc))

theorem trim_isEmpty (s : Str) : (!(Str.trim Str.isWs s).isEmpty) = true ↔ ∃ c ∈ s, Str.isWs c = false := by
  rw [Bool.not_eq_true', ← Bool.not_eq_true, trim_empty]
  push Not
  simp

theorem fne_zero (x : F64) (h : x ≠ .fin 0) : F64.fne x (.zero false) = true ↔ ∀ s, x ≠ .zero s := by
  cases x with
  | nan => simp [F64.fne, F64.feq]
  | inf s => simp [F64.fne, F64.feq]
  | zero s => simp [F64.fne, F64.feq, F64.toRat]
  | fin q =>
    have : q ≠ 0 := fun hq => h (by rw [hq])
    simp [F64.fne, F64.feq, F64.toRat, this]

/-- C73: a boolean cast never fails and tells the true values from the others. -/
theorem C73_boolean (X : Ext) (v : Value) (hv : Proper v) : ∃ b, castTo X v .boolean = .ok (.bool b) ∧ (b = true ↔ Truth v) := by
  rw [castTo_eq]
  refine ⟨_, rfl, ?_⟩
  cases v with
  | bool b => exact Iff.rfl
  | num x => exact fne_zero x fun h => hv 0 h rfl
  | cur x => exact fne_zero x fun h => hv 0 h rfl
  | str s => exact trim_isEmpty s
  | json s => exact trim_isEmpty s
  | arr items => cases items <;> simp [Truth]
  | dt t => simp [Truth]
  | null => simp [Truth]

/-- C73: casts to a float and to a currency keep the amount; a text is read as the number it denotes. -/
theorem C73_amount (X : Ext) (v : Value) (x : F64) (h : Amount v x) :
    castTo X v .float = .ok (.num x) ∧ castTo X v .currency = .ok (.cur x) := by
  simp only [castTo_eq]
  cases h <;> exact ⟨rfl, rfl⟩

/-- C73: a number turned into text and back is the same number, whenever printing a number and reading it back is (the standard
library's `Display` and `FromStr` for doubles). -/
theorem C73_text_round_trip (X : Ext) (x : F64) (hp : F64.parse (X.fmt x) = some x) :
    ∃ t, castTo X (.num x) .string = .ok t ∧ castTo X t .float = .ok (.num x) ∧ castTo X t .currency = .ok (.cur x) := by
  simp only [castTo_eq]
  exact ⟨.str (X.fmt x), rfl, by simp [castValue, hp], by simp [castValue, hp]⟩

theorem isTrunc_truncRat (q : ℚ) : IsTrunc q (F64.truncRat q) := by
  rcases trunc_exists (.fin q) with ⟨t, h⟩ | h | h | h
  · rw [isTrunc_unique h]; exact h
  all_goals cases h

/-- C73: an integer cast of a number or currency within 64 bits drops the fraction: it gives the nearest integer towards zero, exactly. -/
theorem C73_integer (X : Ext) (x : F64) (hd : IsDouble x) (t : ℤ) (h : TruncatesTo x t) (hlo : -2 ^ 63 ≤ t) (hhi : t < 2 ^ 63) :
    castTo X (.num x) .integer = .ok (.num (F64.ofIntExact t)) ∧ castTo X (.cur x) .integer = .ok (.num (F64.ofIntExact t)) := by
  simp only [castTo_eq]
  have e : F64.ofInt x.toI64 = F64.ofIntExact t := by
    rw [toI64_of h (by simpa [F64.i64Min] using hlo) (by have : F64.i64Max = 2 ^ 63 - 1 := rfl; omega)]
    have hb : IsBin64 (t : ℚ) := by
      cases x with
      | nan => exact h.elim
      | inf s => exact h.elim
      | zero s => simp only [TruncatesTo] at h; subst h; simpa using F64.isBin64_zero
      | fin q => rw [← isTrunc_unique h]; exact F64.isBin64_trunc hd.2
    unfold F64.ofInt F64.ofIntExact
    split
    · rename_i h0; subst h0; rfl
    · rename_i h0; exact F64.round_exact hb (by exact_mod_cast h0) _
  exact ⟨by rw [← e]; rfl, by rw [← e]; rfl⟩

/-- C73: an array cast wraps anything else into a one-element array, and a date cast takes the whole seconds of a number. -/
theorem C73_array_date (X : Ext) (v : Value) (x : F64) (t : ℤ) (h : TruncatesTo x t) (hlo : -2 ^ 63 ≤ t) (hhi : t < 2 ^ 63) :
    ((∀ items, v ≠ .arr items) → castTo X v .array = .ok (.arr [v])) ∧ castTo X (.num x) .dateTime = .ok (.dt t) := by
  simp only [castTo_eq]
  refine ⟨fun hv => ?_, ?_⟩
  · cases v <;> first | rfl | exact absurd rfl (hv _)
  · simp only [castValue]
    rw [toI64_of h (by simpa [F64.i64Min] using hlo) (by have : F64.i64Max = 2 ^ 63 - 1 := rfl; omega)]

/-- C73: the texts of booleans, null and texts themselves. -/
theorem C73_string (X : Ext) (s : Str) :
    castTo X (.str s) .string = .ok (.str s) ∧ castTo X (.json s) .string = .ok (.str s) ∧ castTo X (.bool true) .string = .ok (.str c!"TRUE") ∧
    castTo X (.bool false) .string = .ok (.str c!"FALSE") ∧ castTo X .null .string = .ok (.str []) := by
  simp only [castTo_eq]
  exact ⟨rfl, rfl, rfl, rfl, rfl⟩

example (X : Ext) : evaluate X c!"\" \"::Boolean" = .ok (.bool false) ∧ evaluate X c!"0.5::Boolean" = .ok (.bool true) ∧
    evaluate X c!"(0 - 2.75)::Integer" = .ok (.num (.fin (-2))) := ⟨by kernel_rfl, by kernel_rfl, by kernel_rfl⟩
example : TruncatesTo (.fin (-11 / 4)) (-2) ∧ IsDouble (.fin (-11 / 4)) := by
  refine ⟨?_, by norm_num, -11, -2, by norm_num, by norm_num, by norm_num, by norm_num⟩
  simp only [TruncatesTo, IsTrunc]; norm_num [abs_of_pos, abs_of_neg]
