import Verif.Model.DateTime
import Mathlib.Tactic.IntervalCases
/-! Day numbers and civil dates are inverse to each other. -/

namespace Cal

/-- Days before year `y` of a 400-year cycle starting in March. -/
def before (y : Int) : Int := 365 * y + y / 4 - y / 100

/-- The correction in `civil` which makes every year 365 days long. -/
def evened (doe : Int) : Int := doe - doe / 1460 + doe / 36524 - doe / 146096

theorem evened_mono {a b : Int} (ha : 0 ≤ a) (hb : b < 146097) (h : a ≤ b) : evened a ≤ evened b := by
  simp only [evened]
  have h1 : b / 1460 - a / 1460 ≤ b - a := by omega
  have h2 : a / 36524 ≤ b / 36524 := by omega
  by_cases hb' : b = 146096
  · subst hb'
    by_cases ha' : a = 146096
    · subst ha'; omega
    · omega
  · omega

/-- First and last day of each year of the cycle. -/
theorem year_bounds : ∀ y : Fin 400, evened (before y.val) / 365 = y.val ∧
    evened ((if y.val = 399 then 146097 else before (y.val + 1)) - 1) / 365 = y.val := by decide +kernel

theorem yoe_eq {y doe : Int} (h0 : 0 ≤ y) (h1 : y < 400) (hlo : before y ≤ doe)
    (hhi : doe < if y = 399 then 146097 else before (y + 1)) : evened doe / 365 = y := by
  obtain ⟨n, rfl⟩ := Int.eq_ofNat_of_zero_le h0
  have hb := year_bounds ⟨n, by omega⟩
  simp only at hb
  have hn : ((n : Int) = 399) ↔ n = 399 := by omega
  have hd : doe < 146097 := by
    split at hhi
    · exact hhi
    · simp only [before] at hhi; omega
  have hp : 0 ≤ before n := by simp only [before]; omega
  have a1 := evened_mono hp hd hlo
  have a2 : evened doe ≤ evened ((if n = 399 then 146097 else before ((n : Int) + 1)) - 1) := by
    apply evened_mono (by omega)
    · split
      · omega
      · simp only [before]; omega
    · rw [show (if (n : Int) = 399 then (146097 : Int) else before (n + 1)) = if n = 399 then 146097 else before ((n : Int) + 1) by
        simp only [hn]] at hhi
      omega
  have b1 : evened (before n) / 365 ≤ evened doe / 365 := by omega
  have b2 : evened doe / 365 ≤ evened ((if n = 399 then 146097 else before ((n : Int) + 1)) - 1) / 365 := by omega
  rw [hb.1] at b1
  rw [hb.2] at b2
  omega

/-- The year of the cycle found by `civil` brackets the day. -/
theorem yoe_bracket {doe : Int} (h0 : 0 ≤ doe) (h1 : doe < 146097) :
    0 ≤ evened doe / 365 ∧ evened doe / 365 < 400 ∧ before (evened doe / 365) ≤ doe ∧
      doe < if evened doe / 365 = 399 then 146097 else before (evened doe / 365 + 1) := by
  have key : ∃ y : Int, 0 ≤ y ∧ y < 400 ∧ before y ≤ doe ∧ doe < if y = 399 then 146097 else before (y + 1) := by
    have : ∀ n : Nat, n < 400 → (before n ≤ doe → ∃ y : Int, 0 ≤ y ∧ y < 400 ∧ before y ≤ doe ∧ doe < if y = 399 then 146097 else before (y + 1)) := by
      intro n
      induction hk : 399 - n generalizing n with
      | zero =>
        intro hn hb
        exact ⟨n, by omega, by omega, hb, by rw [if_pos (by omega)]; exact h1⟩
      | succ k ih =>
        intro hn hb
        by_cases hc : before ((n : Int) + 1) ≤ doe
        · exact ih (n + 1) (by omega) (by omega) (by push_cast; exact hc)
        · exact ⟨n, by omega, by omega, hb, by rw [if_neg (by omega)]; omega⟩
    exact this 0 (by omega) (by simp only [before]; omega)
  obtain ⟨y, a, b, c, d⟩ := key
  rw [yoe_eq a b c d]
  exact ⟨a, b, c, d⟩

/-- Month (from March) of a day of the year, and back. -/
theorem month_of {mp e doy : Int} (h0 : 0 ≤ mp) (h1 : mp < 12) (he : 0 ≤ e) (hd : doy = (153 * mp + 2) / 5 + e)
    (hlt : doy < if mp = 11 then 366 else (153 * (mp + 1) + 2) / 5) : (5 * doy + 2) / 153 = mp := by
  have : mp = 0 ∨ mp = 1 ∨ mp = 2 ∨ mp = 3 ∨ mp = 4 ∨ mp = 5 ∨ mp = 6 ∨ mp = 7 ∨ mp = 8 ∨ mp = 9 ∨ mp = 10 ∨ mp = 11 := by omega
  rcases this with h | h | h | h | h | h | h | h | h | h | h | h <;> subst h <;> simp at hlt <;> omega

theorem isLeap_iff (y : Int) : isLeap y = true ↔ y % 4 = 0 ∧ (y % 100 ≠ 0 ∨ y % 400 = 0) := by
  simp [isLeap]

/-- `civil` undoes `dayNumber` on valid dates. -/
theorem civil_dayNumber {y : Int} {m d : Nat} (hm1 : 1 ≤ m) (hm2 : m ≤ 12) (hd1 : 1 ≤ d) (hd2 : d ≤ daysInMonth y m) :
    civil (dayNumber y m d) = (y, m, d) := by
  -- the pieces
  obtain ⟨y', hy'⟩ : ∃ y', y' = if m ≤ 2 then y - 1 else y := ⟨_, rfl⟩
  obtain ⟨mp, hmp⟩ : ∃ mp : Int, mp = if m ≤ 2 then (m : Int) + 9 else (m : Int) - 3 := ⟨_, rfl⟩
  obtain ⟨doy, hdoy⟩ : ∃ doy : Int, doy = (153 * mp + 2) / 5 + (d : Int) - 1 := ⟨_, rfl⟩
  obtain ⟨yoe, hyoe⟩ : ∃ yoe, yoe = y' % 400 := ⟨_, rfl⟩
  have hz : dayNumber y m d + 719468 = y' / 400 * 146097 + (before yoe + doy) := by
    simp only [dayNumber, ← hy', ← hmp, ← hyoe, ← hdoy, before]; omega
  have hmp0 : 0 ≤ mp ∧ mp < 12 := by split at hmp <;> omega
  have hdoy0 : 0 ≤ doy := by omega
  -- the day of the year is in its month, and in its year
  have hdm : doy < (if mp = 11 then 366 else (153 * (mp + 1) + 2) / 5) ∧ (mp = 11 → doy = 365 → isLeap y = true) := by
    have : m = 1 ∨ m = 2 ∨ m = 3 ∨ m = 4 ∨ m = 5 ∨ m = 6 ∨ m = 7 ∨ m = 8 ∨ m = 9 ∨ m = 10 ∨ m = 11 ∨ m = 12 := by omega
    rcases this with h | h | h | h | h | h | h | h | h | h | h | h <;> subst h <;> simp [daysInMonth] at hd2 hmp <;> subst hmp <;> simp
    all_goals try omega
    cases hl : isLeap y <;> simp [hl] at hd2 ⊢ <;> omega
  have hyear : before yoe + doy < if yoe = 399 then 146097 else before (yoe + 1) := by
    have h365 : doy ≤ 365 := by
      have := hdm.1
      split at this
      · omega
      · have : mp ≤ 10 := by omega
        omega
    by_cases h5 : doy = 365
    · have h11 : mp = 11 := by
        by_contra hne
        have := hdm.1
        rw [if_neg hne] at this
        omega
      have hl := (isLeap_iff y).1 (hdm.2 h11 h5)
      have hm2 : m ≤ 2 := by
        by_contra hc
        rw [if_neg hc] at hmp; omega
      rw [if_pos hm2] at hy'
      split <;> simp only [before] <;> omega
    · split <;> simp only [before] <;> omega
  have hyoe0 : 0 ≤ yoe ∧ yoe < 400 := by omega
  have hb0 : 0 ≤ before yoe := by simp only [before]; omega
  have hd' : before yoe + doy < 146097 := by
    split at hyear
    · exact hyear
    · simp only [before] at hyear ⊢; omega
  have hera : (dayNumber y m d + 719468) / 146097 = y' / 400 := by rw [hz]; omega
  have hdoe : (dayNumber y m d + 719468) % 146097 = before yoe + doy := by rw [hz]; omega
  have hy1 : evened (before yoe + doy) / 365 = yoe := yoe_eq hyoe0.1 hyoe0.2 (by omega) hyear
  have hmp1 : (5 * doy + 2) / 153 = mp := month_of hmp0.1 hmp0.2 (e := d - 1) (by omega) (by omega) hdm.1
  have hdoy1 : before yoe + doy - (365 * yoe + yoe / 4 - yoe / 100) = doy := by simp only [before]; omega
  simp only [civil, hera, hdoe]
  rw [show (before yoe + doy - (before yoe + doy) / 1460 + (before yoe + doy) / 36524 - (before yoe + doy) / 146096) = evened (before yoe + doy) from rfl]
  simp only [hy1, hdoy1, hmp1]
  have hm3 : (if mp < 10 then mp + 3 else mp - 9) = (m : Int) := by split at hmp <;> split <;> omega
  simp only [hm3]
  have e1 : (if (m : Int) ≤ 2 then yoe + y' / 400 * 400 + 1 else yoe + y' / 400 * 400) = y := by
    split at hy' <;> split <;> omega
  have e2 : (doy - (153 * mp + 2) / 5 + 1).toNat = d := by omega
  rw [e1, e2]
  simp

/-- Every day number is that of a valid date. -/
theorem civil_valid (z : Int) : ∃ y m d, civil z = (y, m, d) ∧ 1 ≤ m ∧ m ≤ 12 ∧ 1 ≤ d ∧ d ≤ daysInMonth y m ∧ dayNumber y m d = z := by
  obtain ⟨doe, hdoe⟩ : ∃ doe, doe = (z + 719468) % 146097 := ⟨_, rfl⟩
  obtain ⟨era, hera⟩ : ∃ era, era = (z + 719468) / 146097 := ⟨_, rfl⟩
  obtain ⟨yoe, hyoe⟩ : ∃ yoe, yoe = evened doe / 365 := ⟨_, rfl⟩
  have hbr := yoe_bracket (doe := doe) (by omega) (by omega)
  rw [← hyoe] at hbr
  obtain ⟨b0, b1, b2, b3⟩ := hbr
  obtain ⟨doy, hdoy⟩ : ∃ doy, doy = doe - before yoe := ⟨_, rfl⟩
  have hd0 : 0 ≤ doy := by omega
  have hd1 : doy ≤ 365 := by
    split at b3
    · simp only [before] at hdoy; omega
    · simp only [before] at b3 hdoy; omega
  have hleap : doy = 365 → isLeap (yoe + 1 + era * 400) = true := by
    intro h5
    rw [isLeap_iff]
    split at b3
    · omega
    · simp only [before] at b3 hdoy
      have k1 : yoe / 100 ≤ (yoe + 1) / 100 := by omega
      have k2 : yoe / 4 + 1 ≤ (yoe + 1) / 4 := by omega
      have k3 : (yoe + 1) % 4 = 0 := by omega
      have k4 : (yoe + 1) % 100 ≠ 0 := by
        intro k
        have : yoe / 4 + 1 = (yoe + 1) / 4 := by omega
        have : yoe / 100 + 1 = (yoe + 1) / 100 := by omega
        omega
      constructor
      · omega
      · left; omega
  obtain ⟨mp, hmp⟩ : ∃ mp, mp = (5 * doy + 2) / 153 := ⟨_, rfl⟩
  have hm : 0 ≤ mp ∧ mp < 12 := by omega
  obtain ⟨e, he⟩ : ∃ e, e = doy - (153 * mp + 2) / 5 := ⟨_, rfl⟩
  have hc : civil z = (if (if mp < 10 then mp + 3 else mp - 9) ≤ 2 then yoe + era * 400 + 1 else yoe + era * 400,
      (if mp < 10 then mp + 3 else mp - 9).toNat, (e + 1).toNat) := by
    simp only [civil, ← hera, ← hdoe]
    rw [show doe - doe / 1460 + doe / 36524 - doe / 146096 = evened doe from rfl, ← hyoe]
    rw [show doe - (365 * yoe + yoe / 4 - yoe / 100) = doy by simp only [before] at hdoy; omega]
    rw [← hmp, ← he]
  have hz : z + 719468 = era * 146097 + (before yoe + doy) := by omega
  refine ⟨_, _, _, hc, ?_⟩
  have q1 : (yoe + era * 400) / 400 = era := by omega
  have q2 : (yoe + era * 400) % 400 = yoe := by omega
  have hcases : mp = 0 ∨ mp = 1 ∨ mp = 2 ∨ mp = 3 ∨ mp = 4 ∨ mp = 5 ∨ mp = 6 ∨ mp = 7 ∨ mp = 8 ∨ mp = 9 ∨ mp = 10 ∨ mp = 11 := by omega
  rcases hcases with h | h | h | h | h | h | h | h | h | h | h | h <;> subst h <;> simp at he ⊢
  all_goals refine ⟨by omega, ?_, ?_⟩
  all_goals first
    | (simp [daysInMonth]; omega)
    | (simp only [dayNumber]; simp [q1, q2]; simp only [before] at hz; omega)
    | skip
  · simp only [daysInMonth]
    split
    · omega
    · rename_i hl
      have : doy ≠ 365 := fun h5 => hl (by have := hleap h5; rw [show yoe + era * 400 + 1 = yoe + 1 + era * 400 by omega]; exact this)
      omega

end Cal
