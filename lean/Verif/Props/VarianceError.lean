import Verif.Props.SumError
import Verif.Props.Monotone
import Mathlib.Tactic.Positivity
import Mathlib.Tactic.FieldSimp
/-! C85: how far the variance of doubles is from the exact one. -/

open Lib Spec

namespace Spec

/-- The mean. -/
def average (qs : List ℚ) : ℚ := qs.sum / qs.length

/-- The mean of the squared distances from `m`. -/
def spreadFrom (m : ℚ) (qs : List ℚ) : ℚ := (qs.map fun q => (q - m) ^ 2).sum / qs.length

/-- The variance: the mean of the squared distances from the mean. -/
def spread (qs : List ℚ) : ℚ := spreadFrom (average qs) qs

/-- Half of the least positive double. -/
def tiny : ℚ := 2 ^ (-1075 : ℤ)

end Spec

namespace F64

/-- Rounding a number outside the subnormal range moves it by at most one part in `2^53`. -/
theorem close_normal {q v : ℚ} {z : F64} (h : RoundsTo q z) (hv : HasValue z v) (hq : (2 : ℚ) ^ (-1022 : ℤ) ≤ |q|) : |v - q| ≤ |q| * (1 / 2 ^ 53) := by
  have h0 : q ≠ 0 := by
    intro h0; rw [h0, abs_zero] at hq; exact absurd hq (not_le.2 (pow2_pos _))
  have hfin : z = .fin v ∨ ∃ s, z = .zero s := by
    cases z with
    | fin w => exact .inl (congrArg F64.fin hv)
    | zero s => exact .inr ⟨s, rfl⟩
    | nan => exact hv.elim
    | inf _ => exact hv.elim
  unfold RoundsTo at h
  rw [if_neg h0] at h
  rcases hfin with rfl | ⟨s, rfl⟩
  · have := rounded_close h hq
    linarith
  · exfalso
    obtain ⟨hz, -⟩ := h
    have hw : IsBin64 (2 ^ (-1022 : ℤ)) := ⟨1, -1022, by norm_num, by norm_num, by norm_num, by norm_num⟩
    have hp := pow2_pos (-1022)
    rcases abs_choice q with hc | hc
    · have := hz _ hw
      rw [hc] at this hq
      rw [abs_of_nonneg (by linarith)] at this
      linarith
    · have := hz _ (isBin64_neg hw)
      rw [hc] at this hq
      rw [abs_of_nonpos (by linarith)] at this
      linarith

/-- Rounding moves a number by at most one part in `2^53`, or half of the least positive double. -/
theorem close_any {q v : ℚ} {z : F64} (h : RoundsTo q z) (hv : HasValue z v) : |v - q| ≤ |q| * (1 / 2 ^ 53) + tiny := by
  have htiny : 0 < tiny := pow2_pos _
  by_cases hq : (2 : ℚ) ^ (-1022 : ℤ) ≤ |q|
  · have := close_normal h hv hq
    linarith
  · obtain ⟨-, near⟩ := roundsTo_near h hv
    rw [not_le] at hq
    have hu : (0 : ℚ) < 2 ^ (-1074 : ℤ) := pow2_pos _
    have e : (2 : ℚ) ^ (-1022 : ℤ) = 2 ^ (52 : ℤ) * 2 ^ (-1074 : ℤ) := by rw [two_zpow_mul]; norm_num
    have e2 : tiny = 1 / 2 * 2 ^ (-1074 : ℤ) := by
      unfold tiny
      rw [show (1 / 2 : ℚ) = 2 ^ (-1 : ℤ) by norm_num, two_zpow_mul]
      norm_num
    have half := (roundEven_spec (q / 2 ^ (-1074 : ℤ))).1
    have hk : |roundEven (q / 2 ^ (-1074 : ℤ))| < 2 ^ 53 := by
      have : |q / 2 ^ (-1074 : ℤ)| < 2 ^ (52 : ℤ) := by
        rw [abs_div, abs_of_pos hu, div_lt_iff₀ hu, ← e]; exact hq
      rw [two52] at this
      have h2 : |((roundEven (q / 2 ^ (-1074 : ℤ)) : ℤ) : ℚ)| < ((2 ^ 53 : ℤ) : ℚ) := by
        rw [abs_le] at half
        rw [abs_lt] at this ⊢
        push_cast at *
        constructor <;> linarith [this.1, this.2, half.1, half.2]
      exact_mod_cast h2
    have := near (roundEven (q / 2 ^ (-1074 : ℤ)) * 2 ^ (-1074 : ℤ)) ⟨_, -1074, hk, le_refl _, by norm_num, rfl⟩
    rw [abs_sub_comm]
    refine (this.trans ?_).trans (le_add_of_nonneg_left (mul_nonneg (abs_nonneg _) (by norm_num)))
    rw [e2]
    have e3 : q - roundEven (q / 2 ^ (-1074 : ℤ)) * 2 ^ (-1074 : ℤ) = (q / 2 ^ (-1074 : ℤ) - roundEven (q / 2 ^ (-1074 : ℤ))) * 2 ^ (-1074 : ℤ) := by
      rw [sub_mul, div_mul_cancel₀ _ hu.ne']
    rw [e3, abs_mul, abs_of_pos hu]
    exact mul_le_mul_of_nonneg_right half hu.le

theorem finite_of_add_right {x y : F64} (h : (add x y).isFinite = true) : y.isFinite = true := by
  by_contra hc
  have := add_not_finite (x := y) (y := x) (Bool.eq_false_iff.2 hc)
  rw [add_comm', h] at this
  cases this

theorem finite_of_fold {xs : List F64} {acc : F64} (h : (xs.foldl add acc).isFinite = true) : ∀ x ∈ xs, x.isFinite = true := by
  induction xs generalizing acc with
  | nil => simp
  | cons y ys ih =>
    intro x hx
    rcases List.mem_cons.1 hx with rfl | hx
    · have : (add acc x).isFinite = true := by
        by_contra hc
        have := foldl_not_finite ys (Bool.eq_false_iff.2 hc)
        rw [List.foldl_cons] at h
        rw [h] at this
        cases this
      exact finite_of_add_right this
    · exact ih h x hx

theorem finite_of_square {x : F64} (h : (mul x x).isFinite = true) : x.isFinite = true := by
  cases x <;> first | rfl | (simp [mul, isFinite] at h)

theorem finite_of_sub {x m : F64} (h : (sub x m).isFinite = true) : m.isFinite = true := by
  have := finite_of_add_right h
  cases m <;> simp_all [neg, isFinite]

theorem finite_of_div {x : F64} {q : ℚ} (h : (div x (.fin q)).isFinite = true) : x.isFinite = true := by
  cases x <;> first | rfl | (simp [div, isFinite] at h)

theorem ofNat_eq {n : ℕ} (h0 : 0 < n) (hb : n ≤ 2 ^ 53) : F64.ofNat n = .fin n := by
  have hb := F64.isBin64_int (n : ℤ) (by rw [abs_of_nonneg (by positivity)]; exact_mod_cast hb)
  exact F64.round_exact (by exact_mod_cast hb) (by exact_mod_cast h0.ne') false

/-- One squared distance. -/
theorem square_close {x m : F64} {q r : ℚ} (hx : IsDouble x) (hm : IsDouble m) (hq : HasValue x q) (hr : HasValue m r) {s : ℚ} (hs : HasValue (mul (sub x m) (sub x m)) s) :
    |s - (q - r) ^ 2| ≤ ((1 + 1 / 2 ^ 53) ^ 3 - 1) * (q - r) ^ 2 + tiny := by
  obtain ⟨d, hd⟩ := value_of_finite (finite_of_square (hasValue_finite hs))
  have hb : IsBin64 (-r) := isBin64_neg (hasValue_bin64 hr hm)
  have h1 : |d - (q - r)| ≤ |q - r| * (1 / 2 ^ 53) := by
    have := sum_close (hasValue_bin64 hq hx) hb (by have := sub_roundsTo hx hm hq hr; rwa [sub_eq_add_neg] at this) hd
    rwa [← sub_eq_add_neg] at this
  have h2 := close_any (mul_roundsTo hd hd) hs
  rw [abs_of_nonneg (mul_self_nonneg d)] at h2
  generalize (1 / 2 ^ 53 : ℚ) = u at *
  have hu : 0 ≤ |q - r| * u := (abs_nonneg _).trans h1
  have sq : |q - r| ^ 2 = (q - r) ^ 2 := sq_abs _
  have hd2 : |d| ≤ |q - r| + |q - r| * u := by
    have := abs_add_le (d - (q - r)) (q - r)
    simp only [sub_add_cancel] at this
    linarith
  have hdd : d * d ≤ (q - r) ^ 2 * (1 + u) ^ 2 := by
    rw [← sq, ← mul_pow]
    have : d * d = |d| ^ 2 := by rw [sq_abs]; ring
    rw [this]
    refine pow_le_pow_left₀ (abs_nonneg _) ?_ 2
    linarith
  have hdiff : |d * d - (q - r) ^ 2| ≤ (q - r) ^ 2 * (2 * u + u ^ 2) := by
    have e : d * d - (q - r) ^ 2 = (d - (q - r)) * (d + (q - r)) := by ring
    rw [e, abs_mul]
    have : |d + (q - r)| ≤ 2 * |q - r| + |q - r| * u := by
      have := abs_add_le d (q - r)
      linarith
    calc _ ≤ (|q - r| * u) * (2 * |q - r| + |q - r| * u) := mul_le_mul h1 this (abs_nonneg _) hu
      _ = |q - r| ^ 2 * (2 * u + u ^ 2) := by ring
      _ = _ := by rw [sq]
  by_cases hz : q - r = 0
  · have hd0 : d = 0 := by
      rw [hz, abs_zero, zero_mul, sub_zero] at h1
      exact abs_nonpos_iff.1 h1
    rw [hd0] at h2
    rw [hz]
    simpa using h2
  · have hu0 : 0 ≤ u := by
      by_contra hc
      have := mul_neg_of_pos_of_neg (abs_pos.2 hz) (not_le.1 hc)
      linarith
    calc |s - (q - r) ^ 2| ≤ |s - d * d| + |d * d - (q - r) ^ 2| := by
          have := abs_add_le (s - d * d) (d * d - (q - r) ^ 2)
          simpa using this
      _ ≤ (d * d * u + tiny) + (q - r) ^ 2 * (2 * u + u ^ 2) := add_le_add h2 hdiff
      _ ≤ ((q - r) ^ 2 * (1 + u) ^ 2 * u + tiny) + (q - r) ^ 2 * (2 * u + u ^ 2) := by
          have := mul_le_mul_of_nonneg_right hdd hu0
          linarith
      _ = _ := by ring

end F64

/-- The squared distances. -/
theorem squares_close {xs : List F64} {qs : List ℚ} (hx : Values xs qs) {m : F64} {r : ℚ} (hm : IsDouble m) (hr : HasValue m r)
    (hf : ∀ x ∈ xs.map fun x => F64.mul (F64.sub x m) (F64.sub x m), x.isFinite = true) :
    ∃ ss, Values (xs.map fun x => F64.mul (F64.sub x m) (F64.sub x m)) ss ∧
      |ss.sum - (qs.map fun q => (q - r) ^ 2).sum| ≤ ((1 + 1 / 2 ^ 53) ^ 3 - 1) * (qs.map fun q => (q - r) ^ 2).sum + qs.length * tiny ∧
      absSum ss ≤ (1 + 1 / 2 ^ 53) ^ 3 * (qs.map fun q => (q - r) ^ 2).sum + qs.length * tiny := by
  induction hx with
  | nil => exact ⟨[], .nil, by simp, by simp [absSum]⟩
  | @cons x q xs qs hd hq hrest ih =>
    obtain ⟨ss, h1, h2, h3⟩ := ih fun y hy => hf y (by simp at hy ⊢; exact .inr hy)
    obtain ⟨s, hs⟩ := F64.value_of_finite (hf (F64.mul (F64.sub x m) (F64.sub x m)) (by simp))
    have hc := F64.square_close hd hm hq hr hs
    refine ⟨s :: ss, .cons (F64.mul_isDouble _ _) hs h1, ?_, ?_⟩
    · simp only [List.sum_cons, List.map_cons, List.length_cons]
      generalize (qs.map fun q => (q - r) ^ 2).sum = S at *
      have := abs_add_le (s - (q - r) ^ 2) (ss.sum - S)
      have e : s + ss.sum - ((q - r) ^ 2 + S) = (s - (q - r) ^ 2) + (ss.sum - S) := by ring
      rw [e]
      push_cast
      linarith
    · simp only [absSum, List.map_cons, List.sum_cons, List.length_cons] at h3 ⊢
      generalize (qs.map fun q => (q - r) ^ 2).sum = S at *
      have := abs_add_le (s - (q - r) ^ 2) ((q - r) ^ 2)
      simp only [sub_add_cancel] at this
      rw [abs_of_nonneg (sq_nonneg (q - r))] at this
      push_cast
      linarith

/-- The mean squared distance from `m` is the variance and the squared distance of `m` from the mean. -/
theorem spreadFrom_eq (qs : List ℚ) (h : qs ≠ []) (m : ℚ) : spreadFrom m qs = spread qs + (m - average qs) ^ 2 := by
  have hn : (qs.length : ℚ) ≠ 0 := by simpa using h
  have key : ∀ (qs : List ℚ) (m : ℚ), (qs.map fun q => (q - m) ^ 2).sum = (qs.map fun q => q ^ 2).sum - 2 * m * qs.sum + qs.length * m ^ 2 := by
    intro qs m
    induction qs with
    | nil => simp
    | cons q qs ih => simp only [List.map_cons, List.sum_cons, ih, List.length_cons]; push_cast; ring
  unfold spread spreadFrom
  rw [key, key]
  unfold average
  field_simp
  ring

/-- **C85.** How exact it is: a finite variance of finite numbers is, up to a part that grows by one in `2^53` with every number and up to multiples of `2^-1075`, the exact variance increased by the square
of the error of the mean, which is such a part of the mean magnitude. -/
theorem C85_error (X : Ext) (vs ls : List Value) (hl : LeavesOf vs ls) (qs : List ℚ) (hq : Values (amounts ls) qs) (hne : qs ≠ []) (hb : qs.length ≤ 2 ^ 53) (x : F64) (v : ℚ)
    (hx : fn X c!"VARP" vs = .ok (.num x)) (hv : HasValue x v) :
    ∃ m : ℚ, |m - average qs| ≤ ((1 + 1 / 2 ^ 53) ^ (qs.length + 1) - 1) * (absSum qs / qs.length) + tiny ∧
      |v - (spread qs + (m - average qs) ^ 2)| ≤ ((1 + 1 / 2 ^ 53) ^ (qs.length + 4) - 1) * (spread qs + (m - average qs) ^ 2) + ((1 + 1 / 2 ^ 53) ^ (qs.length + 1) + 1) * tiny := by
  have hlen := total_value hq
  have hpos : 0 < qs.length := List.length_pos_iff.2 hne
  rw [(C85_variance X vs ls hl).1, if_neg (by intro h; rw [h] at hlen; simp at hlen; omega)] at hx
  cases hx
  generalize amounts ls = xs at *
  have hN : F64.ofNat xs.length = .fin (qs.length : ℚ) := by rw [hlen]; exact F64.ofNat_eq hpos hb
  unfold varianceOf at hv
  rw [hN] at hv
  have fT := F64.finite_of_div (F64.hasValue_finite hv)
  have fs := F64.finite_of_fold fT
  have fm : (mean64 xs).isFinite = true := by
    cases hxs : xs with
    | nil => rw [hxs] at hlen; simp at hlen; omega
    | cons y ys =>
      rw [← hxs]
      exact F64.finite_of_sub (F64.finite_of_square (fs (F64.mul (F64.sub y (mean64 xs)) (F64.sub y (mean64 xs))) (by rw [hxs]; simp)))
  obtain ⟨m, hm⟩ := F64.value_of_finite fm
  have dm : IsDouble (mean64 xs) := F64.div_isDouble _ _
  obtain ⟨T, hT⟩ := F64.value_of_finite fT
  obtain ⟨ss, s1, s2, s3⟩ := squares_close hq dm hm fs
  have e1 := F64.fold_error s1 (.zero false) 0 T trivial rfl hT
  have e2 := F64.close_any (F64.div_roundsTo hT (show HasValue (.fin (qs.length : ℚ)) (qs.length : ℚ) from rfl) (by exact_mod_cast hpos.ne')) hv
  rw [List.length_map, hlen] at e1
  have hn : (0 : ℚ) < qs.length := by exact_mod_cast hpos
  refine ⟨m, ?_, ?_⟩
  · unfold mean64 at hm
    rw [hN] at hm
    obtain ⟨t, ht⟩ := F64.value_of_finite (F64.finite_of_div (F64.hasValue_finite hm))
    have a1 := F64.fold_error hq (.zero false) 0 t trivial rfl ht
    have a2 := F64.close_any (F64.div_roundsTo ht (show HasValue (.fin (qs.length : ℚ)) (qs.length : ℚ) from rfl) (by exact_mod_cast hpos.ne')) hm
    rw [hlen] at a1
    simp only [abs_zero, zero_add] at a1
    rw [pow_succ]
    have hP : (1 : ℚ) ≤ (1 + 1 / 2 ^ 53) ^ qs.length := one_le_pow₀ (by norm_num)
    have hA : |qs.sum| ≤ absSum qs := by
      have : ∀ qs : List ℚ, |qs.sum| ≤ absSum qs := by
        intro qs
        induction qs with
        | nil => simp [absSum]
        | cons q qs ih =>
          simp only [List.sum_cons, absSum, List.map_cons] at ih ⊢
          exact (abs_add_le _ _).trans (by linarith)
      exact this qs
    have hu : (0 : ℚ) ≤ 1 / 2 ^ 53 := by norm_num
    unfold average
    generalize (1 + 1 / 2 ^ 53 : ℚ) ^ qs.length = P at *
    generalize (1 / 2 ^ 53 : ℚ) = u at *
    generalize absSum qs = A at *
    generalize (qs.length : ℚ) = n at *
    generalize qs.sum = S at *
    have b1 : |t / n - S / n| ≤ (P - 1) * (A / n) := by
      rw [← sub_div, abs_div, abs_of_pos hn, div_le_iff₀ hn]
      refine a1.trans (le_of_eq ?_)
      field_simp
    have b2 : |t / n| ≤ P * (A / n) := by
      have h1 : |S / n| ≤ A / n := by rw [abs_div, abs_of_pos hn]; exact div_le_div_of_nonneg_right hA hn.le
      have := abs_add_le (t / n - S / n) (S / n)
      simp only [sub_add_cancel] at this
      linarith
    have b3 := mul_le_mul_of_nonneg_right b2 hu
    have := abs_add_le (m - t / n) (t / n - S / n)
    simp only [sub_add_sub_cancel] at this
    nlinarith
  · rw [← spreadFrom_eq qs hne m]
    unfold spreadFrom
    simp only [abs_zero, zero_add] at e1
    have hP : (1 : ℚ) ≤ (1 + 1 / 2 ^ 53) ^ qs.length := one_le_pow₀ (by norm_num)
    have hC : (1 : ℚ) ≤ (1 + 1 / 2 ^ 53) ^ 3 := one_le_pow₀ (by norm_num)
    have hS : 0 ≤ (qs.map fun q => (q - m) ^ 2).sum := List.sum_nonneg (by simp; intro a _; exact sq_nonneg _)
    have hu : (0 : ℚ) ≤ 1 / 2 ^ 53 := by norm_num
    have ht : 0 < tiny := F64.pow2_pos _
    have p1 : ∀ a : ℚ, a ^ (qs.length + 4) = a ^ qs.length * a ^ 3 * a := fun a => by ring
    have p2 : ∀ a : ℚ, a ^ (qs.length + 1) = a ^ qs.length * a := fun a => by ring
    rw [p1, p2]
    generalize (1 + 1 / 2 ^ 53 : ℚ) ^ qs.length = P at *
    generalize (1 + 1 / 2 ^ 53 : ℚ) ^ 3 = C at *
    generalize (1 / 2 ^ 53 : ℚ) = u at *
    generalize (qs.length : ℚ) = n at *
    generalize (qs.map fun q => (q - m) ^ 2).sum = S at *
    generalize tiny = η at *
    have c1 : |T - S| ≤ (P * C - 1) * S + P * (n * η) := by
      have h1 := abs_add_le (T - ss.sum) (ss.sum - S)
      simp only [sub_add_sub_cancel] at h1
      have h2 := mul_le_mul_of_nonneg_left s3 (sub_nonneg.2 hP)
      nlinarith
    have c2 : |T / n - S / n| ≤ (P * C - 1) * (S / n) + P * η := by
      rw [← sub_div, abs_div, abs_of_pos hn, div_le_iff₀ hn]
      refine c1.trans (le_of_eq ?_)
      field_simp
    have c3 : |T / n| ≤ P * C * (S / n) + P * η := by
      have h1 : |S / n| = S / n := abs_of_nonneg (div_nonneg hS hn.le)
      have := abs_add_le (T / n - S / n) (S / n)
      simp only [sub_add_cancel] at this
      linarith
    have c4 := mul_le_mul_of_nonneg_right c3 hu
    have := abs_add_le (v - T / n) (T / n - S / n)
    simp only [sub_add_sub_cancel] at this
    nlinarith

/-- A concrete case: the values of two doubles. -/
example : Values [.fin 3, .fin (1 / 4)] [3, 1 / 4] ∧ (LeavesOf [.arr [.num (.fin 3)], .num (.fin (1 / 4))] [.num (.fin 3), .num (.fin (1 / 4))]) :=
  ⟨.cons ⟨by norm_num, 3, 0, by norm_num, by norm_num, by norm_num, by norm_num⟩ rfl (.cons ⟨by norm_num, 1, -2, by norm_num, by norm_num, by norm_num, by norm_num⟩ rfl .nil),
    .nested (l₁ := [_]) (.leaf (fun _ h => by cases h) .nil) (.leaf (fun _ h => by cases h) .nil)⟩

/-- The squared distances of integers from an integer are exact. -/
theorem squares_integers {xs : List F64} {ns : List ℤ} (h : Integers xs ns) {m : F64} {k : ℤ} (hm : IsDouble m) (hk : HasValue m k)
    (hb : ∀ n ∈ ns, (n - k) ^ 2 ≤ 2 ^ 53) : Integers (xs.map fun x => F64.mul (F64.sub x m) (F64.sub x m)) (ns.map fun n => (n - k) ^ 2) := by
  induction ns generalizing xs with
  | nil => cases h; exact .nil
  | cons n ns ih =>
    cases h with
    | @cons x _ xs _ hxd hx hr =>
      have h1 := hb n (by simp)
      replace hx : HasValue x (n : ℚ) := hx
      have h2 : |n - k| ≤ 2 ^ 53 := by
        have := Int.le_self_sq |n - k|
        rw [sq_abs] at this
        exact this.trans h1
      obtain ⟨d1, d2⟩ := F64.roundsTo_exact (F64.sub_roundsTo hxd hm hx hk) (by exact_mod_cast F64.isBin64_int (n - k) h2)
      obtain ⟨s1, s2⟩ := F64.roundsTo_exact (F64.mul_roundsTo d1 d1) (by
        have := F64.isBin64_int ((n - k) ^ 2) (by rw [abs_of_nonneg (sq_nonneg _)]; exact h1)
        rw [pow_two] at this
        exact_mod_cast this)
      refine .cons s2 ?_ (ih hr fun i hi => hb i (by simp [hi]))
      push_cast
      rw [pow_two]
      exact s1

/-- **C85.** Integers whose mean is an integer: the variance is the exact one correctly rounded, as long as no sum exceeds `2^53`. -/
theorem C85_integers (X : Ext) (vs ls : List Value) (hl : LeavesOf vs ls) (ns : List ℤ) (h : Integers (amounts ls) ns) (hb : absTotal ns ≤ 2 ^ 53) (hn : ns ≠ []) (hc : ns.length ≤ 2 ^ 53)
    (k : ℤ) (hk : ns.sum = k * ns.length) (hs : (ns.map fun n => (n - k) ^ 2).sum ≤ 2 ^ 53) :
    ∃ s, fn X c!"VARP" vs = .ok (.num s) ∧ RoundsTo (spread (ns.map fun n : ℤ => (n : ℚ))) s := by
  have hlen : (amounts ls).length = ns.length := by have := total_value h; simpa using this
  have hne : amounts ls ≠ [] := by intro e; rw [e] at hlen; exact hn (List.length_eq_zero_iff.1 hlen.symm)
  refine ⟨_, (C85_variance X vs ls hl).1, ?_⟩
  rw [if_neg hne]
  generalize amounts ls = xs at *
  have hpos : 0 < ns.length := List.length_pos_iff.2 hn
  have hN : F64.ofNat xs.length = .fin (ns.length : ℚ) := by rw [hlen]; exact F64.ofNat_eq hpos hc
  have h0 : (ns.length : ℚ) ≠ 0 := by exact_mod_cast hpos.ne'
  have hq : (ns.sum : ℚ) = k * ns.length := by exact_mod_cast hk
  have hsum : ((ns.map fun n : ℤ => (n : ℚ)).sum) = (ns.sum : ℚ) := by
    clear * -
    induction ns with
    | nil => simp
    | cons n ns ih => simp [ih]
  have hmean : average (ns.map fun n : ℤ => (n : ℚ)) = k := by
    unfold average
    rw [hsum, List.length_map, hq, mul_div_cancel_right₀ _ h0]
  have mem : ∀ n ∈ ns, (n - k) ^ 2 ≤ (ns.map fun n => (n - k) ^ 2).sum := fun n hn =>
    List.single_le_sum (by simp; intro a _; exact sq_nonneg _) _ (List.mem_map_of_mem hn)
  have hk53 : |k| ≤ 2 ^ 53 := by
    have habs : |ns.sum| ≤ absTotal ns := by
      clear * -
      induction ns with
      | nil => simp [absTotal]
      | cons n ns ih =>
        simp only [List.sum_cons, absTotal, List.map_cons] at ih ⊢
        exact (abs_add_le _ _).trans (by omega)
    rw [hk, abs_mul] at habs
    have h1 : (1 : ℤ) ≤ |(ns.length : ℤ)| := by rw [abs_of_nonneg (by omega)]; omega
    have := mul_le_mul_of_nonneg_left h1 (abs_nonneg k)
    omega
  have hm : HasValue (mean64 xs) k := by
    have h1 := (F64.fold_integers h (.zero false) 0 trivial rfl (by simpa using hb)).1
    rw [Int.zero_add] at h1
    unfold mean64
    rw [hN]
    have := F64.div_roundsTo h1 (show HasValue (.fin (ns.length : ℚ)) (ns.length : ℚ) from rfl) h0
    rw [hq, mul_div_cancel_right₀ _ h0] at this
    exact (F64.roundsTo_exact this (F64.isBin64_int k hk53)).1
  have hsq := squares_integers h (F64.div_isDouble _ _) hm fun n hn => (mem n hn).trans hs
  have habs : absTotal (ns.map fun n => (n - k) ^ 2) = (ns.map fun n => (n - k) ^ 2).sum := by
    clear * -
    unfold absTotal
    rw [List.map_map]
    congr 1
    refine List.map_congr_left fun n _ => ?_
    simp
  have hT := (F64.fold_integers hsq (.zero false) 0 trivial rfl (by rw [habs]; simpa using hs)).1
  rw [Int.zero_add] at hT
  unfold varianceOf
  rw [hN]
  have := F64.div_roundsTo hT (show HasValue (.fin (ns.length : ℚ)) (ns.length : ℚ) from rfl) h0
  have e : spread (ns.map fun n : ℤ => (n : ℚ)) = (((ns.map fun n => (n - k) ^ 2).sum : ℤ) : ℚ) / ns.length := by
    unfold spread spreadFrom
    rw [hmean, List.length_map, List.map_map]
    congr 1
    clear * -
    induction ns with
    | nil => simp
    | cons n ns ih => simp only [List.map_cons, List.sum_cons, ih]; push_cast; simp
  rw [e]
  exact this

/-- **C85.** Equal integers have no variance. -/
theorem C85_equal_integers (X : Ext) (vs ls : List Value) (hl : LeavesOf vs ls) (k : ℤ) (n : ℕ) (h : Integers (amounts ls) (List.replicate n k)) (hb : n * |k| ≤ 2 ^ 53) (hn : 0 < n) (hc : n ≤ 2 ^ 53) :
    ∃ s, fn X c!"VARP" vs = .ok (.num s) ∧ HasValue s 0 := by
  obtain ⟨s, h1, h2⟩ := C85_integers X vs ls hl _ h (by simpa [absTotal] using hb) (by simp; omega) (by simpa using hc) k (by simp [mul_comm]) (by simp)
  refine ⟨s, h1, ?_⟩
  have hq : ((n : ℕ) : ℚ) ≠ 0 := by exact_mod_cast hn.ne'
  have e : spread ((List.replicate n k).map fun n : ℤ => (n : ℚ)) = 0 := by
    unfold spread spreadFrom average
    simp only [List.map_replicate, List.sum_replicate, List.length_replicate, nsmul_eq_mul]
    have : (k : ℚ) - n * k / n = 0 := by rw [mul_div_cancel_left₀ _ hq, sub_self]
    simp [this]
  rw [e] at h2
  exact (F64.roundsTo_exact h2 (by simpa using F64.isBin64_int 0 (by norm_num))).1

example : (List.sum [2, 4, 4, 4, 5, 5, 7, 9] : ℤ) = 5 * List.length [2, 4, 4, 4, 5, 5, 7, 9] ∧ absTotal [2, 4, 4, 4, 5, 5, 7, 9] ≤ 2 ^ 53 ∧ (List.map (fun n : ℤ => (n - 5) ^ 2) [2, 4, 4, 4, 5, 5, 7, 9]).sum ≤ 2 ^ 53 := by
  norm_num [absTotal]

example : spread [2, 4, 4, 4, 5, 5, 7, 9] = 4 := by norm_num [spread, spreadFrom, average]

example : Integers [.fin 7, .fin 7, .fin 7] (List.replicate 3 7) :=
  .cons ⟨by norm_num, 7, 0, by norm_num, by norm_num, by norm_num, by norm_num⟩ (by norm_num [HasValue]) (.cons ⟨by norm_num, 7, 0, by norm_num, by norm_num, by norm_num, by norm_num⟩ (by norm_num [HasValue])
    (.cons ⟨by norm_num, 7, 0, by norm_num, by norm_num, by norm_num, by norm_num⟩ (by norm_num [HasValue]) .nil))
