import Verif.Props.VarianceError
/-! C98: averages and products of doubles that are not integers. -/

open Lib Spec

/-- C98, averages: a finite average of finite numbers is the exact one up to a part of the mean magnitude that grows by one in `2^53` with every number, and half of the least positive double. -/
theorem C98_average_error (X : Ext) (vs ls : List Value) (hl : LeavesOf vs ls) (qs : List ℚ) (hq : Values (amounts ls) qs) (hne : qs ≠ []) (hb : qs.length ≤ 2 ^ 53) (x : F64) (v : ℚ)
    (hx : fn X c!"AVG" vs = .ok (.num x)) (hv : HasValue x v) :
    |v - average qs| ≤ ((1 + 1 / 2 ^ 53) ^ qs.length - 1) * (absSum qs / qs.length) + tiny := by
  have hlen := total_value hq
  have hpos : 0 < qs.length := List.length_pos_iff.2 hne
  have hne' : amounts ls ≠ [] := by intro h; rw [h] at hlen; simp at hlen; omega
  rw [(C38_aggregates X vs ls hl).2.1, if_neg hne', hlen, F64.ofNat_eq hpos hb] at hx
  cases hx
  obtain ⟨t, ht⟩ := F64.value_of_finite (F64.finite_of_div (F64.hasValue_finite hv))
  have hn : (0 : ℚ) < qs.length := by exact_mod_cast hpos
  have a1 := C98_sum_error X vs ls hl qs hq _ t (C38_aggregates X vs ls hl).1 ht
  have a2 := F64.close_any (F64.div_roundsTo ht (show HasValue (.fin (qs.length : ℚ)) (qs.length : ℚ) from rfl) hn.ne') hv
  have hP : (1 : ℚ) ≤ (1 + 1 / 2 ^ 53) ^ (qs.length - 1) := one_le_pow₀ (by norm_num)
  have hA : |qs.sum| ≤ absSum qs := by
    clear * -
    induction qs with
    | nil => simp [absSum]
    | cons q qs ih =>
      simp only [List.sum_cons, absSum, List.map_cons] at ih ⊢
      exact (abs_add_le _ _).trans (by linarith)
  have hu : (0 : ℚ) ≤ 1 / 2 ^ 53 := by norm_num
  have e : ∀ a : ℚ, a ^ qs.length = a ^ (qs.length - 1) * a := fun a => by rw [← pow_succ]; congr 1; omega
  rw [e]
  unfold average
  generalize (1 + 1 / 2 ^ 53 : ℚ) ^ (qs.length - 1) = P at *
  generalize (1 / 2 ^ 53 : ℚ) = u at *
  generalize absSum qs = A at *
  generalize (qs.length : ℚ) = n at *
  generalize qs.sum = S at *
  have b1 : |t / n - S / n| ≤ (P - 1) * (A / n) := by
    rw [← sub_div, abs_div, abs_of_pos hn, div_le_iff₀ hn]
    refine a1.trans (le_of_eq ?_)
    field_simp
  have b2 : |t / n| ≤ P * (A / n) := by
    have h1 : |S / n| ≤ A / n := by rw [abs_div, abs_of_pos hn]; exact div_le_div_of_nonneg_right hA hn.le
    have := abs_add_le (t / n - S / n) (S / n)
    simp only [sub_add_cancel] at this
    linarith
  have b3 := mul_le_mul_of_nonneg_right b2 hu
  have := abs_add_le (v - t / n) (t / n - S / n)
  simp only [sub_add_sub_cancel] at this
  nlinarith

namespace Spec

/-- Every product of a beginning of the list, times `a`, is at least `2^-1021` in magnitude. -/
def NotTiny (a : ℚ) : List ℚ → Prop
  | [] => True
  | q :: qs => 2 ^ (-1021 : ℤ) ≤ |a * q| ∧ NotTiny (a * q) qs

/-- `v` is `q` after `n` roundings: each multiplies by a number within `2^-53` of one. -/
def After (n : ℕ) (q v : ℚ) : Prop := ∃ r, v = q * r ∧ (1 - 1 / 2 ^ 53) ^ n ≤ r ∧ r ≤ (1 + 1 / 2 ^ 53) ^ n

end Spec

theorem after_step {n : ℕ} {q v w z : ℚ} (h : After n q v) (hz : |z - v * w| ≤ |v * w| * (1 / 2 ^ 53)) : After (n + 1) (q * w) z := by
  obtain ⟨r, rfl, h1, h2⟩ := h
  have hr : 0 ≤ r := (pow_nonneg (by norm_num) n).trans h1
  by_cases h0 : q * r * w = 0
  · rw [h0, abs_zero, zero_mul, sub_zero] at hz
    have hz0 : z = 0 := abs_nonpos_iff.1 hz
    have hq : q * w = 0 := by
      have : 0 < r := lt_of_lt_of_le (pow_pos (by norm_num) n) h1
      rcases mul_eq_zero.1 h0 with h | h
      · rcases mul_eq_zero.1 h with h | h
        · rw [h, zero_mul]
        · exact absurd h this.ne'
      · rw [h, mul_zero]
    refine ⟨1, by rw [hz0, hq, zero_mul], ?_, ?_⟩
    · exact pow_le_one₀ (by norm_num) (by norm_num)
    · exact one_le_pow₀ (by norm_num)
  · refine ⟨r * (z / (q * r * w)), ?_, ?_, ?_⟩
    · have : q * w * (r * (z / (q * r * w))) = (q * r * w) * (z / (q * r * w)) := by ring
      rw [this, mul_div_cancel₀ _ h0]
    all_goals
      have hk : |z / (q * r * w) - 1| ≤ 1 / 2 ^ 53 := by
        rw [show z / (q * r * w) - 1 = (z - q * r * w) / (q * r * w) by rw [sub_div, div_self h0], abs_div, div_le_iff₀ (abs_pos.2 h0)]
        linarith
      rw [abs_le] at hk
      rw [pow_succ]
    · exact mul_le_mul h1 (by linarith [hk.1]) (by norm_num) hr
    · exact mul_le_mul h2 (by linarith [hk.2]) (by linarith [hk.1, show (1 / 2 ^ 53 : ℚ) ≤ 1 by norm_num]) (pow_nonneg (by norm_num) n)

theorem F64.fold_product_error {xs : List F64} {qs : List ℚ} (h : Values xs qs) (acc : F64) (a b : ℚ) (n : ℕ) (ha : HasValue acc b) (hab : After n a b) (hn : n + qs.length ≤ 2 ^ 52)
    (ht : NotTiny a qs) (v : ℚ) (hv : HasValue (xs.foldl F64.mul acc) v) : After (n + qs.length) (a * qs.prod) v := by
  induction h generalizing acc a b n with
  | nil =>
    have : v = b := F64.hasValue_unique hv ha
    simpa [this] using hab
  | @cons x q xs qs hd hq hr ih =>
    simp only [List.length_cons] at hn ⊢
    rw [List.foldl_cons] at hv
    have fin : (F64.mul acc x).isFinite = true := by
      by_contra hc
      have key : ∀ (xs : List F64) (y : F64), y.isFinite = false → (xs.foldl F64.mul y).isFinite = false := by
        intro xs
        induction xs with
        | nil => exact fun _ h => h
        | cons z zs ih =>
          intro y hy
          refine ih _ ?_
          cases y <;> cases z <;> simp_all [F64.mul, F64.isFinite]
      have := key xs _ (Bool.eq_false_iff.2 hc)
      rw [F64.hasValue_finite hv] at this
      cases this
    obtain ⟨c, hc⟩ := F64.value_of_finite fin
    have hbig : (2 : ℚ) ^ (-1022 : ℤ) ≤ |b * q| := by
      obtain ⟨r, rfl, h1, -⟩ := hab
      have hr : (1 : ℚ) / 2 ≤ r := by
        have hb := one_add_mul_le_pow (a := (-(1 / 2 ^ 53) : ℚ)) (by norm_num) n
        rw [← sub_eq_add_neg] at hb
        have hn' : (n : ℚ) ≤ 2 ^ 52 := by exact_mod_cast (by omega : n ≤ 2 ^ 52)
        have : (n : ℚ) * (1 / 2 ^ 53) ≤ 1 / 2 := by
          calc _ ≤ (2 ^ 52 : ℚ) * (1 / 2 ^ 53) := mul_le_mul_of_nonneg_right hn' (by norm_num)
            _ = _ := by norm_num
        linarith
      have e : a * r * q = (a * q) * r := by ring
      rw [e, abs_mul, abs_of_nonneg (a := r) (by linarith)]
      calc (2 : ℚ) ^ (-1022 : ℤ) = 2 ^ (-1021 : ℤ) * (1 / 2) := by
            rw [show (1 / 2 : ℚ) = 2 ^ (-1 : ℤ) by norm_num, F64.two_zpow_mul]; norm_num
        _ ≤ _ := mul_le_mul ht.1 hr (by norm_num) (abs_nonneg _)
    have := ih (F64.mul acc x) (a * q) c (n + 1) hc (after_step hab (F64.close_normal (F64.mul_roundsTo ha hq) hc hbig)) (by omega) ht.2 hv
    rw [List.prod_cons, ← mul_assoc, show n + (qs.length + 1) = n + 1 + qs.length by omega]
    exact this

/-- C98, products: a finite product of finite numbers is the exact product after as many roundings as there are numbers, as long as no product of the first few is below `2^-1021` in magnitude. -/
theorem C98_product_error (X : Ext) (vs ls : List Value) (hl : LeavesOf vs ls) (qs : List ℚ) (hq : Values (amounts ls) qs) (hb : qs.length ≤ 2 ^ 52) (ht : NotTiny 1 qs) (x : F64) (v : ℚ)
    (hx : fn X c!"PRODUCT" vs = .ok (.num x)) (hv : HasValue x v) : After qs.length qs.prod v := by
  rw [(C84_product X vs ls hl).1] at hx
  cases hx
  have := F64.fold_product_error hq (.fin 1) 1 1 0 rfl ⟨1, by ring, by norm_num, by norm_num⟩ (by omega) ht v hv
  simpa using this

example : NotTiny 1 [3, 1 / 4] ∧ Values [.fin 3, .fin (1 / 4)] [3, 1 / 4] := by
  refine ⟨⟨?_, ?_, trivial⟩,
    .cons ⟨by norm_num, 3, 0, by norm_num, by norm_num, by norm_num, by norm_num⟩ rfl (.cons ⟨by norm_num, 1, -2, by norm_num, by norm_num, by norm_num, by norm_num⟩ rfl .nil)⟩
  · exact (zpow_le_one_of_nonpos₀ (by norm_num) (by norm_num)).trans (by norm_num)
  · refine (zpow_le_zpow_right₀ (a := (2 : ℚ)) (by norm_num) (show (-1021 : ℤ) ≤ -1 by norm_num)).trans ?_
    rw [abs_of_pos (by norm_num)]
    norm_num
