import Verif.Lemmas.Round
import Verif.Lemmas.F64Order
import Mathlib.Tactic.Linarith
/-! Arithmetic stays within binary64, and rounding is monotone with respect to representable values. -/

namespace F64

open Spec

theorem isBin64_zero : IsBin64 0 := ⟨0, 0, by norm_num, by norm_num, by norm_num, by norm_num⟩

theorem isBin64_bound {w : ℚ} (h : IsBin64 w) : |w| ≤ 2 ^ (1024 : ℕ) - 2 ^ (971 : ℕ) := by
  obtain ⟨m, e, h1, h2, h3, rfl⟩ := h
  have hm : |(m : ℚ)| ≤ 2 ^ 53 - 1 := by
    have : |m| ≤ 2 ^ 53 - 1 := by omega
    exact_mod_cast this
  have he : (2 : ℚ) ^ e ≤ 2 ^ (971 : ℤ) := zpow_le_zpow_right₀ (by norm_num) h3
  have hb : |(m : ℚ) * 2 ^ e| ≤ (2 ^ 53 - 1) * 2 ^ (971 : ℤ) := by
    rw [abs_mul, abs_of_pos (pow2_pos e)]
    exact mul_le_mul hm he (pow2_pos e).le (by norm_num)
  refine hb.trans (le_of_eq ?_)
  rw [show (2 : ℚ) ^ (971 : ℤ) = 2 ^ (971 : ℕ) from zpow_natCast 2 971, sub_mul, one_mul, ← pow_add]

theorem pow970_lt : (2 : ℚ) ^ (1024 : ℕ) - 2 ^ (971 : ℕ) < 2 ^ (1024 : ℕ) - 2 ^ (970 : ℕ) :=
  sub_lt_sub_left (pow_lt_pow_right₀ (by norm_num) (by norm_num)) _

theorem round_isDouble (q : ℚ) (z : Bool) : IsDouble (round q z) := by
  by_cases h : q = 0
  · simp [round, h, IsDouble]
  · have := round_isRounded h z
    cases hx : round q z with
    | fin v => rw [hx] at this; exact ⟨this.1, this.2.1⟩
    | _ => trivial

theorem neg_isDouble {x : F64} (h : IsDouble x) : IsDouble x.neg := by
  cases x with
  | fin q => exact ⟨by simpa using h.1, isBin64_neg h.2⟩
  | _ => trivial

theorem add_isDouble {x y : F64} (hx : IsDouble x) (hy : IsDouble y) : IsDouble (add x y) := by
  cases x <;> cases y <;> simp only [add] <;> first | trivial | exact hx | exact hy | exact round_isDouble _ _ | (split <;> trivial)

theorem mul_isDouble (x y : F64) : IsDouble (mul x y) := by
  cases x <;> cases y <;> simp only [mul] <;> first | trivial | exact round_isDouble _ _

theorem div_isDouble (x y : F64) : IsDouble (div x y) := by
  cases x <;> cases y <;> simp only [div] <;> first | trivial | exact round_isDouble _ _

theorem ofInt_isDouble (i : ℤ) : IsDouble (ofInt i) := round_isDouble _ _

theorem roundPos_isDouble (ng : Bool) {q : ℚ} (hq : 0 < q) : IsDouble (roundPos ng q) := by
  cases ng with
  | false =>
    have := roundPos_pos hq
    cases hx : roundPos false q with
    | fin v => rw [hx] at this; exact ⟨this.1, this.2.1⟩
    | _ => trivial
  | true =>
    rw [roundPos_true]
    refine neg_isDouble ?_
    have := roundPos_pos hq
    cases hx : roundPos false q with
    | fin v => rw [hx] at this; exact ⟨this.1, this.2.1⟩
    | _ => trivial

theorem decimalVal_nonneg (int frac : Str) (e : ℤ) : 0 ≤ decimalVal int frac e := by
  unfold decimalVal
  simp only
  split
  · exact_mod_cast Nat.zero_le _
  · apply div_nonneg <;> exact_mod_cast Nat.zero_le _

/-- Every parsed number is a binary64 number. -/
theorem parse_isDouble {s : Str} {x : F64} (h : parse s = some x) : IsDouble x := by
  unfold parse at h
  simp only at h
  repeat' split at h
  all_goals first
    | contradiction
    | (rw [Option.some.injEq] at h; subst h; trivial)
    | (rw [Option.some.injEq] at h; rw [← h]; rename_i h0
       exact roundPos_isDouble _ (lt_of_le_of_ne (decimalVal_nonneg _ _ _) (Ne.symm h0)))

/-- Rounding does not pass a representable value from below. -/
theorem key_round_le {w q : ℚ} (hw : IsBin64 w) (h : q ≤ w) (z : Bool) : key (round q z) ≤ toLex (0, w) := by
  unfold key
  rw [Prod.Lex.toLex_le_toLex]
  by_cases hq : q = 0
  · subst hq; right; simp [round, rank, toRat, h]
  have hr := round_isRounded hq z
  cases hx : round q z with
  | nan => rw [hx] at hr; exact hr.elim
  | zero s =>
    rw [hx] at hr
    right; refine ⟨rfl, ?_⟩
    show (0 : ℚ) ≤ w
    by_contra hc
    rw [not_le] at hc
    have := hr.1 w hw
    rw [abs_of_nonpos (by linarith), abs_of_nonpos (by linarith)] at this
    linarith
  | inf s =>
    rw [hx] at hr
    cases s with
    | true => left; show (-1 : ℤ) < 0; norm_num
    | false =>
      exfalso
      have hq0 : 0 ≤ q := by
        by_contra hc; have := hr.2.2 (not_le.1 hc); simp at this
      have h1 := hr.1
      rw [abs_of_nonneg hq0] at h1
      have h2 := isBin64_bound hw
      have h3 := le_abs_self w
      have h4 := pow970_lt
      generalize (2 : ℚ) ^ (1024 : ℕ) - 2 ^ (970 : ℕ) = A at *
      generalize (2 : ℚ) ^ (1024 : ℕ) - 2 ^ (971 : ℕ) = B at *
      linarith
  | fin v =>
    rw [hx] at hr
    right; refine ⟨rfl, ?_⟩
    show v ≤ w
    by_contra hc
    rw [not_le] at hc
    have := hr.2.2.2.1 w hw
    rw [abs_of_nonpos (by linarith), abs_of_nonpos (by linarith)] at this
    linarith

/-- Rounding does not pass a representable value from above. -/
theorem le_key_round {w q : ℚ} (hw : IsBin64 w) (h : w ≤ q) (z : Bool) : toLex (0, w) ≤ key (round q z) := by
  unfold key
  rw [Prod.Lex.toLex_le_toLex]
  by_cases hq : q = 0
  · subst hq; right; simp [round, rank, toRat, h]
  have hr := round_isRounded hq z
  cases hx : round q z with
  | nan => rw [hx] at hr; exact hr.elim
  | zero s =>
    rw [hx] at hr
    right; refine ⟨rfl, ?_⟩
    show w ≤ (0 : ℚ)
    by_contra hc
    rw [not_le] at hc
    have := hr.1 w hw
    rw [abs_of_nonneg (by linarith), abs_of_nonneg (by linarith)] at this
    linarith
  | inf s =>
    rw [hx] at hr
    cases s with
    | false => left; show (0 : ℤ) < 1; norm_num
    | true =>
      exfalso
      have hq0 : q < 0 := hr.2.1 rfl
      have h1 := hr.1
      rw [abs_of_neg hq0] at h1
      have h2 := isBin64_bound hw
      have h3 := neg_le_abs w
      have h4 := pow970_lt
      generalize (2 : ℚ) ^ (1024 : ℕ) - 2 ^ (970 : ℕ) = A at *
      generalize (2 : ℚ) ^ (1024 : ℕ) - 2 ^ (971 : ℕ) = B at *
      linarith
  | fin v =>
    rw [hx] at hr
    right; refine ⟨rfl, ?_⟩
    show w ≤ v
    by_contra hc
    rw [not_le] at hc
    have := hr.2.2.2.1 w hw
    rw [abs_of_nonneg (by linarith), abs_of_nonneg (by linarith)] at this
    linarith

theorem round_ne_nan (q : ℚ) (z : Bool) : round q z ≠ nan := by
  by_cases hq : q = 0
  · simp [round, hq]
  · intro h
    have := round_isRounded hq z
    rw [h] at this; exact this

/-- The integer part of a binary64 number is one. -/
theorem isBin64_trunc {q : ℚ} (h : IsBin64 q) : IsBin64 (truncRat q : ℚ) := by
  obtain ⟨m, e, h1, h2, h3, rfl⟩ := h
  by_cases he : 0 ≤ e
  · obtain ⟨n, rfl⟩ := Int.eq_ofNat_of_zero_le he
    have hz : (m : ℚ) * 2 ^ (n : ℤ) = ((m * 2 ^ n : ℤ) : ℚ) := by push_cast; rw [zpow_natCast]
    have ht : truncRat ((m : ℚ) * 2 ^ (n : ℤ)) = m * 2 ^ n := by
      rw [hz]
      unfold truncRat
      split
      · exact Rat.floor_intCast _
      · rw [show (-((m * 2 ^ n : ℤ) : ℚ)).floor = -(m * 2 ^ n) by rw [← Rat.floor_intCast (-(m * 2 ^ n))]; push_cast; rfl]; omega
    exact ⟨m, n, h1, h2, h3, by rw [ht]; push_cast; rw [zpow_natCast]⟩
  · refine isBin64_int _ ?_
    have hpow : (2 : ℚ) ^ e ≤ 1 := zpow_le_one_of_nonpos₀ (by norm_num) (by omega)
    have hb : |(m : ℚ) * 2 ^ e| ≤ 2 ^ 53 := by
      rw [abs_mul, abs_of_pos (pow2_pos e)]
      have hm : |(m : ℚ)| ≤ 2 ^ 53 := by exact_mod_cast h1.le
      calc |(m : ℚ)| * 2 ^ e ≤ 2 ^ 53 * 1 := mul_le_mul hm hpow (pow2_pos e).le (by norm_num)
        _ = 2 ^ 53 := mul_one _
    generalize (m : ℚ) * 2 ^ e = q at *
    have : |(truncRat q : ℚ)| ≤ |q| := by
      unfold truncRat
      split
      · rename_i hq
        have h0 : (0 : ℤ) ≤ ⌊q⌋ := Int.floor_nonneg.2 hq
        have h0' : (0 : ℚ) ≤ (⌊q⌋ : ℤ) := by exact_mod_cast h0
        show |((⌊q⌋ : ℤ) : ℚ)| ≤ |q|
        rw [abs_of_nonneg h0', abs_of_nonneg hq]
        exact Int.floor_le q
      · rename_i hq
        rw [not_le] at hq
        have h0 : (0 : ℤ) ≤ ⌊-q⌋ := Int.floor_nonneg.2 (by linarith)
        have h0' : (0 : ℚ) ≤ (⌊-q⌋ : ℤ) := by exact_mod_cast h0
        show |((-⌊-q⌋ : ℤ) : ℚ)| ≤ |q|
        push_cast
        rw [abs_neg, abs_of_nonneg h0', abs_of_neg hq]
        exact Int.floor_le _
    have h5 : |(truncRat q : ℚ)| ≤ 2 ^ 53 := this.trans hb
    exact_mod_cast h5

end F64
