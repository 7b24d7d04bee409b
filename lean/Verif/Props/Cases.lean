import Verif.Props.Arrays
import Verif.Props.Strings
import Verif.Props.OrderStats
import Verif.Props.Conversions
import Verif.Props.Calendar

/-!
Cases of the theorems on arrays, texts, order statistics, conversions and dates: each theorem is applied to concrete arguments, so that its hypotheses are seen to hold there.
-/

namespace Cases

open Spec

theorem two : TruncatesTo (.fin (5 / 2)) 2 := by
  simp only [TruncatesTo, IsTrunc]; norm_num [abs_of_pos]

theorem three : TruncatesTo (.fin 3) 3 := by
  simp only [TruncatesTo, IsTrunc]; norm_num [abs_of_pos]

theorem less : TruncatesTo (.fin (-11 / 4)) (-2) := by
  simp only [TruncatesTo, IsTrunc]; norm_num [abs_of_pos, abs_of_neg]

theorem whole (n : ℤ) : TruncatesTo (.fin n) n := by
  simp only [TruncatesTo, IsTrunc]
  simp [mul_self_nonneg]

/-! ### Arrays -/

example (X : Ext) : fn X c!"REVERSE" [.arr [.str c!"b", .null, .bool true]] = .ok (.arr [.bool true, .null, .str c!"b"]) :=
  (C27_reverse_reverse_partial X [.bool true, .null, .str c!"b"] _ rfl).1

example (X : Ext) : meth0 X (.str c!"añ→") c!"reverse" = .ok (.str c!"→ña") ∧ meth0 X (.str c!"→ña") c!"reverse" = .ok (.str c!"añ→") :=
  have h : meth0 X (.str c!"añ→") c!"reverse" = .ok (.str c!"→ña") := by kernel_rfl
  ⟨h, ((C27_method_reverse_reverse_partial X [] [] _ _).2 h).1⟩

/-! ### Texts -/

example (X : Ext) : ∃ a b, fn X c!"LEFT" [.str c!"añb→c", .num (.fin (5 / 2))] = .ok (.str a) ∧ fn X c!"SUBSTRING" [.str c!"añb→c", .num (.fin (5 / 2))] = .ok (.str b) ∧ a ++ b = c!"añb→c" :=
  C32_left_substring_partial X _ _ (by simp)

example (X : Ext) : fn X c!"LEFT" [.str c!"añb→c", .num (.fin (5 / 2))] = .ok (.str c!"añ") := C32_left X _ (by decide) _ _ two

example (X : Ext) : fn X c!"RIGHT" [.str c!"añb→c", .num (.fin (5 / 2))] = .ok (.str c!"→c") := C32_right X _ (by decide) _ _ two

example (X : Ext) : fn X c!"LEFT" [.str c!"añb→c", .num (.fin (-11 / 4))] = .ok (.str []) := C32_left X _ (by decide) _ _ less

example (X : Ext) : fn X c!"SUBSTRING" [.str c!"añb→c", .num (.fin (5 / 2))] = .ok (.str c!"b→c") ∧
    fn X c!"SUBSTRING" [.str c!"añb→c", .num (.fin (5 / 2)), .num (.fin (5 / 2))] = .ok (.str c!"b→") := C32_substring X _ (by decide) _ _ _ _ two two

example (X : Ext) : meth1 X (.str c!"añb→c") c!"substring" (.num (.fin (5 / 2))) = fn X c!"SUBSTRING" [.str c!"añb→c", .num (.fin (5 / 2))] :=
  (C32_substring_method X _ (by decide) _ (.fin 1)).1

example (X : Ext) : fn X c!"MID" [.str c!"añb→c", .num (.fin (5 / 2))] = .ok (.str c!"ñb→c") ∧
    fn X c!"MID" [.str c!"añb→c", .num (.fin (5 / 2)), .num (.fin 3)] = .ok (.str c!"ñb→") := C32_mid X _ (by decide) _ _ _ _ two three

example (X : Ext) : fn X c!"REPLACE" [.str c!"añb→c", .num (.fin (5 / 2)), .num (.fin 3), .str c!"--"] = .ok (.str c!"a--c") := C32_replace X _ _ (by decide) _ _ _ _ two three

example (X : Ext) : ∃ c : Str, ∃ x y : F64, fn X c!"CONCAT" [.str c!"añ", .str c!"→"] = .ok (.str c) ∧ fn X c!"LENGTH" [.str c!"añ"] = .ok (.num x) ∧
    fn X c!"LENGTH" [.str c!"→"] = .ok (.num y) ∧ fn X c!"LENGTH" [.str c] = .ok (.num (F64.add x y)) := C33_length X _ _ (by decide)

example (X : Ext) : fn X c!"LENGTH" [.str c!"a b"] = .ok (.num (F64.ofNat 3)) ∧ meth0 X (.str c!"a b") c!"length" = .ok (.num (F64.ofNat 3)) := C34_length_partial X c!"a b" (by decide)

/-! ### Order statistics -/

theorem small_double (n : ℕ) (h : n ∈ [1, 2, 3]) : IsDouble (.fin n) ∧ (F64.fin n).isFinite = true ∧ |(F64.fin n).toRat| < 2 ^ 1023 := by
  have big : (4 : ℚ) ≤ 2 ^ 1023 := by
    calc (4 : ℚ) = 2 ^ 2 := by norm_num
      _ ≤ 2 ^ 1023 := pow_le_pow_right₀ (by norm_num) (by norm_num)
  simp only [List.mem_cons, List.not_mem_nil, or_false] at h
  rcases h with rfl | rfl | rfl
  · exact ⟨⟨by norm_num, 1, 0, by norm_num, by norm_num, by norm_num, by norm_num⟩, rfl, by simp only [F64.toRat]; rw [abs_of_pos (by norm_num)]; exact lt_of_lt_of_le (by norm_num) big⟩
  · exact ⟨⟨by norm_num, 2, 0, by norm_num, by norm_num, by norm_num, by norm_num⟩, rfl, by simp only [F64.toRat]; rw [abs_of_pos (by norm_num)]; exact lt_of_lt_of_le (by norm_num) big⟩
  · exact ⟨⟨by norm_num, 3, 0, by norm_num, by norm_num, by norm_num, by norm_num⟩, rfl, by simp only [F64.toRat]; rw [abs_of_pos (by norm_num)]; exact lt_of_lt_of_le (by norm_num) big⟩

/-- Three numbers in two groups, with a text and null in between. -/
def groups : List Value := [.arr [.num (.fin (3 : ℕ)), .str c!"x"], .null, .cur (.fin (1 : ℕ)), .arr [.arr [.num (.fin (2 : ℕ))]]]
def flat : List Value := [.num (.fin (3 : ℕ)), .str c!"x", .null, .cur (.fin (1 : ℕ)), .num (.fin (2 : ℕ))]

theorem groups_flat : LeavesOf groups flat :=
  have h1 : LeavesOf [.num (.fin (3 : ℕ)), .str c!"x"] [.num (.fin (3 : ℕ)), .str c!"x"] := .self (by simp)
  have h2 : LeavesOf [.arr [.num (.fin (2 : ℕ))]] [.num (.fin (2 : ℕ))] := .single (by simp)
  have h3 : LeavesOf [.arr [.arr [.num (.fin (2 : ℕ))]]] [.num (.fin (2 : ℕ))] := by simpa using LeavesOf.nested h2 .nil
  .nested (l₁ := [.num (.fin (3 : ℕ)), .str c!"x"]) h1 (.leaf (by simp) (.leaf (by simp) h3))

def sorted : List Value := [.num (.fin (1 : ℕ)), .num (.fin (2 : ℕ)), .num (.fin (3 : ℕ))]

theorem sorted_flat : LeavesOf sorted sorted := .self (by simp [sorted])

theorem flat_amounts : amounts flat = [.fin (3 : ℕ), .fin (1 : ℕ), .fin (2 : ℕ)] := by simp [flat, amounts]

theorem flat_doubles : ∀ x ∈ amounts flat, IsDouble x ∧ x.isFinite = true ∧ |x.toRat| < 2 ^ 1023 := by
  rw [flat_amounts]
  intro x hx
  simp only [List.mem_cons, List.not_mem_nil, or_false] at hx
  rcases hx with rfl | rfl | rfl
  · exact small_double 3 (by simp)
  · exact small_double 1 (by simp)
  · exact small_double 2 (by simp)

theorem flat_numbers : F64.nan ∉ amounts flat := by simp [flat_amounts]

example (X : Ext) (p : Value) : AlikeRes (fn X c!"MEDIAN" groups) (fn X c!"MEDIAN" sorted) ∧
    AlikeRes (fn X c!"PERCENTILE_INC" (groups ++ [p])) (fn X c!"PERCENTILE_INC" (sorted ++ [p])) ∧
    AlikeRes (fn X c!"QUARTILE_INC" (groups ++ [p])) (fn X c!"QUARTILE_INC" (sorted ++ [p])) :=
  C40_permutation_partial X groups sorted flat sorted p groups_flat sorted_flat
    (by rw [flat_amounts]; simp only [sorted, amounts]; exact (List.Perm.swap _ _ _).trans (.cons _ (.swap _ _ _)) |>.trans (by decide +kernel))
    (fun x hx => ⟨(flat_doubles x hx).1, fun h => by rw [h] at hx; exact flat_numbers hx⟩) (by simp [groups]) (by simp [sorted])

example (X : Ext) (p : Value) (w : String) : fn X c!"PERCENTILE_INC" (groups ++ [p]) ≠ panics w :=
  (C40_no_panic_partial X groups flat p groups_flat flat_numbers (by simp [groups]) w).2.1

example (X : Ext) : ∃ lo m hi, fn X c!"MIN" groups = .ok (.num lo) ∧ fn X c!"MEDIAN" groups = .ok (.num m) ∧ fn X c!"MAX" groups = .ok (.num hi) ∧
    F64.fle lo m = true ∧ F64.fle m hi = true := C40_median_bounds_partial X groups flat groups_flat (by simp [flat_amounts]) flat_doubles

example (X : Ext) : fn X c!"MEDIAN" groups = fn X c!"PERCENTILE_INC" (groups ++ [.num (.fin (1 / 2))]) ∧
    fn X c!"MEDIAN" groups = fn X c!"QUARTILE_INC" (groups ++ [.num (.fin 2)]) :=
  C40_median_odd_partial X groups flat groups_flat flat_numbers (by simp [flat_amounts]) (by simp [flat_amounts])

example (X : Ext) : ∃ lo lo' hi hi', fn X c!"MIN" groups = .ok (.num lo) ∧ fn X c!"PERCENTILE_INC" (groups ++ [.num (.zero false)]) = .ok (.num lo') ∧
    fn X c!"MAX" groups = .ok (.num hi) ∧ fn X c!"PERCENTILE_INC" (groups ++ [.num (.fin 1)]) = .ok (.num hi') ∧ F64.feq lo lo' = true ∧ F64.feq hi hi' = true :=
  C40_ends_partial X groups flat groups_flat (by simp [flat_amounts]) flat_numbers (by simp [flat_amounts])

example (X : Ext) : ∃ s x, s.Perm (amounts flat) ∧ s.Pairwise (fun a b => F64.fle a b = true) ∧
    fn X c!"PERCENTILE_INC" (groups ++ [.num (.fin (1 / 4))]) = .ok (.num x) ∧ AtRank s (F64.mul (.fin (1 / 4)) (F64.ofNat ((amounts flat).length - 1))).toRat x :=
  C40_percentile_partial X groups flat _ groups_flat (by simp [flat_amounts]) flat_numbers (by simp [flat_amounts]) (by decide +kernel) (by decide +kernel)

/-! ### Conversions -/

example (X : Ext) : ∃ b, castTo X (.arr [.bool false]) .boolean = .ok (.bool b) ∧ (b = true ↔ Truth (.arr [.bool false])) :=
  C73_boolean X _ (by simp [Proper, ProperAll])

example (X : Ext) : castTo X (.bool true) .float = .ok (.num (.fin 1)) ∧ castTo X (.bool true) .currency = .ok (.cur (.fin 1)) := C73_amount X _ _ .true

example (X : Ext) : castTo X (.num (.fin (-11 / 4))) .integer = .ok (.num (.fin (-2))) :=
  (C73_integer X (.fin (-11 / 4)) ⟨by norm_num, -11, -2, by norm_num, by norm_num, by norm_num, by norm_num⟩ (-2) less (by norm_num) (by norm_num)).1

example (X : Ext) : castTo X (.str c!"a") .array = .ok (.arr [.str c!"a"]) ∧ castTo X (.num (.fin (-11 / 4))) .dateTime = .ok (.dt (-2)) :=
  have h := C73_array_date X (.str c!"a") (.fin (-11 / 4)) (-2) less (by norm_num) (by norm_num)
  ⟨h.1 (by simp), h.2⟩

/-! ### Dates -/

theorem leap_day : Supported 2024 ∧ IsDate 2024 2 29 := by
  have l1 : Leap 2024 := by unfold Leap; omega
  refine ⟨by unfold Supported; omega, ?_⟩
  simp [IsDate, monthLength, l1]

theorem no_leap_day : ¬ (Supported 2023 ∧ IsDate 2023 2 29) := by
  have l2 : ¬ Leap 2023 := by unfold Leap; omega
  simp [IsDate, monthLength, l2]

example (X : Ext) : ∃ v, fn X c!"DATE" [.num (.fin (2024 : ℤ)), .num (.fin (2 : ℤ)), .num (.fin (29 : ℤ))] = .ok v ∧ ReadsAs X v 2024 2 29 :=
  C63_round_trip X (whole _) (whole _) (whole _) leap_day.1 leap_day.2

example (X : Ext) : fn X c!"DATE" [.num (.fin (2023 : ℤ)), .num (.fin (2 : ℤ)), .num (.fin (29 : ℤ))] = fail "Invalid date" :=
  C63_rejects X (whole _) (whole _) (whole _) no_leap_day

example (X : Ext) : fn X c!"DATE" [.num (.fin 2023), .num (.inf true), .num (.fin 1)] = fail "Invalid date" := by
  have h := C63_rejects_infinite X (.fin 2023) (.inf true) (.fin 1) ⟨true, .inr (.inl rfl)⟩
  exact h

/-- A world in which small letters stay what they are. -/
def lowers (X : Ext) : Ext := { X with lowerUni := fun s => s.map Str.asciiLowC }

theorem lower_days (X : Ext) (u : Str) (h : u ∈ [c!"seconds", c!"days", c!"month", c!"years"]) : (lowers X).lower u = u := by
  simp only [List.mem_cons, List.not_mem_nil, or_false] at h
  rcases h with rfl | rfl | rfl | rfl <;> rfl

theorem in_range : InRange 1706659200 ∧ InRange (1706659200 + 30 * (24 * 60 * 60)) := by constructor <;> unfold InRange <;> decide +kernel

theorem january (X : Ext) : ReadsAs X (.dt 1706659200) 2024 1 31 := ⟨by kernel_rfl, by kernel_rfl, by kernel_rfl⟩

example (X : Ext) : fn (lowers X) c!"DATEADD" [.dt 1706659200, .num (.fin (30 : ℤ)), .str c!"days"] = .ok (.dt (1706659200 + 30 * (24 * 60 * 60))) ∧
    fn (lowers X) c!"DATEDIFF" [.dt 1706659200, .dt (1706659200 + 30 * (24 * 60 * 60)), .str c!"days"] = .ok (int 30) :=
  have hu : Lasts ((lowers X).lower c!"days") (24 * 60 * 60) := by rw [lower_days X _ (by simp)]; exact .inr (.inr (.inr (.inl ⟨by simp, rfl⟩)))
  have h := C64_fixed_units_no_panic_partial (lowers X) 1706659200 (.fin (30 : ℤ)) 30 (whole _) c!"days" _ hu in_range.1 in_range.2
  ⟨h, (C64_fixed_units_partial (lowers X) 1706659200 (.fin (30 : ℤ)) 30 (whole _) c!"days" _ hu _ h).2⟩

example (X : Ext) : ∃ n, fn (lowers X) c!"DATEDIFF" [.dt 1706659200, .dt (1706659200 + 30 * (24 * 60 * 60)), .str c!"seconds"] = .ok n ∧
    fn (lowers X) c!"DATEADD" [.dt 1706659200, n, .str c!"seconds"] = .ok (.dt (1706659200 + 30 * (24 * 60 * 60))) :=
  C64_add_difference (lowers X) _ _ _ (by rw [lower_days X _ (by simp)]; simp) in_range.1 in_range.2

/-- A month after the end of January is the 28th of February, also in 2024. -/
example (X : Ext) : ∃ w, fn (lowers X) c!"DATEADD" [.dt 1706659200, .num (.fin (1 : ℤ)), .str c!"month"] = .ok (.dt w) ∧ ReadsAs (lowers X) (.dt w) 2024 2 28 := by
  obtain ⟨w, d, h, _, hr, _, _, hd⟩ := C64_months_partial (lowers X) 1706659200 in_range.1 2024 1 31 (january _) (.fin (1 : ℤ)) 1 (whole _) (by norm_num) (by norm_num) c!"month"
    (by rw [lower_days X _ (by simp)]; simp) 2024 2 (by decide) (by norm_num) leap_day.1
  have l1 : Leap 2024 := by unfold Leap; omega
  rw [hd (by simp [IsDate, monthLength, l1])] at hr
  exact ⟨w, h, hr⟩

example (X : Ext) : ∃ w, fn (lowers X) c!"DATEADD" [.dt 1706659200, .num (.fin (1 : ℤ)), .str c!"years"] = .ok (.dt w) ∧ ReadsAs (lowers X) (.dt w) 2025 1 31 := by
  obtain ⟨w, d, h, _, hr, _, hd, _⟩ := C64_years_partial (lowers X) 1706659200 in_range.1 2024 1 31 (january _) (.fin (1 : ℤ)) 1 (whole _) (by unfold Supported; omega) c!"years"
    (by rw [lower_days X _ (by simp)]; simp)
  rw [hd (by simp [IsDate, monthLength])] at hr
  exact ⟨w, h, hr⟩

example (X : Ext) : ∃ v w, fn (lowers X) c!"DATE" [int 2024, int 2, int 29] = .ok v ∧ fn (lowers X) c!"DATE" [int 2024, int 3, int 1] = .ok w ∧
    fn (lowers X) c!"DATEDIFF" [v, w, .str c!"days"] = .ok (int 1) := by
  have l1 : Leap 2024 := by unfold Leap; omega
  have e : dayAfter 2024 2 29 = (2024, 3, 1) := by simp [dayAfter, monthLength, l1]
  have h := C63_day_after (lowers X) 2024 2 29 leap_day.1 leap_day.2 (by rw [e]; exact leap_day.1) c!"days" (by rw [lower_days X _ (by simp)]; simp)
  rwa [e] at h

end Cases
