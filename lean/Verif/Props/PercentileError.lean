import Verif.Props.VarianceError
import Verif.Props.OrderStats
/-! C40: how far percentiles are from the exact ones. -/

open Lib Spec

namespace Spec

/-- The height at `r` of the broken line through the points `(0, q₀)`, `(1, q₁)`, ... -/
def lineAt (qs : List ℚ) (r : ℚ) : ℚ := (1 - (r - ⌊r⌋₊)) * qs.getD ⌊r⌋₊ 0 + (r - ⌊r⌋₊) * qs.getD (⌊r⌋₊ + 1) 0

end Spec

theorem values_toRat {xs : List F64} {qs : List ℚ} (h : Values xs qs) : qs = xs.map F64.toRat ∧ ∀ x ∈ xs, IsDouble x ∧ x.isFinite = true := by
  induction h with
  | nil => simp
  | @cons x q xs qs hd hq _ ih =>
    refine ⟨?_, ?_⟩
    · rw [List.map_cons, ← ih.1]
      congr 1
      cases x with
      | fin w => exact (show w = q from hq).symm
      | zero s => exact hq
      | nan => exact hq.elim
      | inf _ => exact hq.elim
    · intro y hy
      rcases List.mem_cons.1 hy with rfl | hy
      · exact ⟨hd, F64.hasValue_finite hq⟩
      · exact ih.2 y hy

theorem toRat_value {x : F64} (h : x.isFinite = true) : HasValue x x.toRat := by
  cases x <;> first | rfl | (simp [F64.isFinite] at h)

theorem finite_le {a b : F64} (h : F64.fle a b = true) (ha : a.isFinite = true) (hb : b.isFinite = true) : a.toRat ≤ b.toRat := by
  cases a <;> cases b <;> first | (exact of_decide_eq_true h) | (simp [F64.isFinite] at ha hb) | (simp [F64.toRat])

namespace F64

theorem finite_of_mul {x y : F64} (h : (mul x y).isFinite = true) : y.isFinite = true := by
  cases x <;> cases y <;> first | rfl | (simp [mul, isFinite] at h)

/-- The fraction of a double is a double. -/
theorem fraction_bin64 {r : ℚ} (hr : IsBin64 r) (k : ℕ) (h1 : (k : ℚ) < r) (h2 : r < k + 1) : IsBin64 (r - k) := by
  obtain ⟨m, e, hm, he, he2, rfl⟩ := hr
  by_cases h0 : 0 ≤ e
  · exfalso
    obtain ⟨n, rfl⟩ := Int.eq_ofNat_of_zero_le h0
    have e1 : (m : ℚ) * 2 ^ ((n : ℕ) : ℤ) = ((m * 2 ^ n : ℤ) : ℚ) := by push_cast; rw [zpow_natCast]
    rw [e1] at h1 h2
    have a1 : (k : ℤ) < m * 2 ^ n := by exact_mod_cast h1
    have a2 : m * 2 ^ n < (k : ℤ) + 1 := by exact_mod_cast h2
    omega
  · obtain ⟨n, hn⟩ := Int.eq_ofNat_of_zero_le (show 0 ≤ -e by omega)
    have he' : e = -((n : ℕ) : ℤ) := by omega
    have hp : (0 : ℚ) < 2 ^ e := pow2_pos _
    have e1 : (m : ℚ) * 2 ^ e - k = ((m - k * 2 ^ n : ℤ) : ℚ) * 2 ^ e := by
      push_cast
      rw [sub_mul, mul_assoc, he', zpow_neg, zpow_natCast, mul_inv_cancel₀ (by positivity), mul_one]
    refine ⟨m - k * 2 ^ n, e, ?_, he, he2, e1⟩
    have a1 : (0 : ℚ) < ((m - k * 2 ^ n : ℤ) : ℚ) := by
      have : 0 < ((m - k * 2 ^ n : ℤ) : ℚ) * 2 ^ e := by rw [← e1]; linarith
      exact (pos_iff_pos_of_mul_pos this).2 hp
    have a2 : 0 < m - k * 2 ^ n := by exact_mod_cast a1
    have a3 : (0 : ℤ) ≤ k * 2 ^ n := by positivity
    rw [abs_of_pos a2]
    have := le_abs_self m
    omega

/-- The mean of two numbers weighted with `1 - w` and `w`, computed in doubles. -/
theorem weighted_close {a b : F64} {p q w v : ℚ} (ha : IsDouble a) (hb : IsDouble b) (hp : HasValue a p) (hq : HasValue b q) (hw : IsBin64 w) (h0 : 0 < w) (h1 : w < 1)
    (hv : HasValue (add (mul a (sub (.fin 1) (.fin w))) (mul b (.fin w))) v) {M : ℚ} (hpM : |p| ≤ M) (hqM : |q| ≤ M) :
    |v - ((1 - w) * p + w * q)| ≤ ((1 + 1 / 2 ^ 53) ^ 3 - 1) * M + 2 * (1 + 1 / 2 ^ 53) * tiny := by
  have fB := finite_of_add_right (hasValue_finite hv)
  have fA : (mul a (sub (.fin 1) (.fin w))).isFinite = true := by
    have := hasValue_finite hv
    rw [add_comm'] at this
    exact finite_of_add_right this
  obtain ⟨A, hA⟩ := value_of_finite fA
  obtain ⟨B, hB⟩ := value_of_finite fB
  obtain ⟨c, hc⟩ := value_of_finite (finite_of_mul fA)
  have one : IsBin64 (1 : ℚ) := by simpa using isBin64_int 1 (by norm_num)
  have c1 : |c - (1 - w)| ≤ (1 - w) * (1 / 2 ^ 53) := by
    have := sum_close one (isBin64_neg hw) (by
      have := sub_roundsTo (x := .fin 1) (y := .fin w) ⟨one_ne_zero, one⟩ ⟨h0.ne', hw⟩ rfl rfl
      rwa [sub_eq_add_neg] at this) hc
    rwa [← sub_eq_add_neg, abs_of_pos (by linarith : (0 : ℚ) < 1 - w)] at this
  have c2 := close_any (mul_roundsTo hp hc) hA
  have c3 := close_any (mul_roundsTo hq (show HasValue (.fin w) w from rfl)) hB
  have c4 := sum_close (hasValue_bin64 hA (mul_isDouble _ _)) (hasValue_bin64 hB (mul_isDouble _ _)) (add_roundsTo (mul_isDouble _ _) (mul_isDouble _ _) hA hB) hv
  have hu : (0 : ℚ) < 1 / 2 ^ 53 := by norm_num
  have ht : 0 < tiny := pow2_pos _
  have hM : 0 ≤ M := (abs_nonneg _).trans hpM
  generalize (1 / 2 ^ 53 : ℚ) = u at *
  generalize tiny = η at *
  have cpos : |c| ≤ (1 - w) * (1 + u) := by
    have := abs_add_le (c - (1 - w)) (1 - w)
    simp only [sub_add_cancel] at this
    rw [abs_of_pos (by linarith : (0 : ℚ) < 1 - w)] at this
    linarith
  rw [abs_mul] at c2 c3
  rw [abs_of_pos h0] at c3
  have w1 : (0 : ℚ) < 1 - w := by linarith
  -- the first product
  have p1 : |p| * |c| ≤ M * ((1 - w) * (1 + u)) := mul_le_mul hpM cpos (abs_nonneg _) hM
  have d1 : |A - (1 - w) * p| ≤ (1 - w) * M * ((1 + u) ^ 2 - 1) + η := by
    have t1 := abs_add_le (A - p * c) (p * (c - (1 - w)))
    rw [show A - p * c + p * (c - (1 - w)) = A - (1 - w) * p by ring, abs_mul p] at t1
    have t2 : |p| * |c - (1 - w)| ≤ M * ((1 - w) * u) := mul_le_mul hpM c1 (abs_nonneg _) hM
    have t3 := mul_le_mul_of_nonneg_right p1 hu.le
    calc _ ≤ (M * ((1 - w) * (1 + u)) * u + η) + M * ((1 - w) * u) := by linarith
      _ = _ := by ring
  have d2 : |B - w * q| ≤ w * M * ((1 + u) ^ 2 - 1) + η := by
    have t1 : |q| * w ≤ M * w := mul_le_mul_of_nonneg_right hqM h0.le
    have t2 := mul_le_mul_of_nonneg_right t1 hu.le
    have t3 : 0 ≤ w * M * (u + u ^ 2) := by positivity
    rw [mul_comm w q]
    calc _ ≤ M * w * u + η := by linarith
      _ ≤ M * w * u + η + w * M * (u + u ^ 2) := by linarith
      _ = _ := by ring
  have d3 : |A + B - ((1 - w) * p + w * q)| ≤ M * ((1 + u) ^ 2 - 1) + 2 * η := by
    have t1 := abs_add_le (A - (1 - w) * p) (B - w * q)
    rw [show A - (1 - w) * p + (B - w * q) = A + B - ((1 - w) * p + w * q) by ring] at t1
    calc _ ≤ _ := t1
      _ ≤ ((1 - w) * M * ((1 + u) ^ 2 - 1) + η) + (w * M * ((1 + u) ^ 2 - 1) + η) := add_le_add d1 d2
      _ = _ := by ring
  have d4 : |(1 - w) * p + w * q| ≤ M := by
    have t1 := abs_add_le ((1 - w) * p) (w * q)
    rw [abs_mul, abs_mul, abs_of_pos w1, abs_of_pos h0] at t1
    have t2 := mul_le_mul_of_nonneg_left hpM w1.le
    have t3 := mul_le_mul_of_nonneg_left hqM h0.le
    linarith
  have d5 : |A + B| ≤ M * (1 + u) ^ 2 + 2 * η := by
    have := abs_add_le (A + B - ((1 - w) * p + w * q)) ((1 - w) * p + w * q)
    simp only [sub_add_cancel] at this
    linarith
  have d6 := mul_le_mul_of_nonneg_right d5 hu.le
  have := abs_add_le (v - (A + B)) (A + B - ((1 - w) * p + w * q))
  rw [sub_add_sub_cancel] at this
  calc _ ≤ _ := this
    _ ≤ (M * (1 + u) ^ 2 + 2 * η) * u + (M * ((1 + u) ^ 2 - 1) + 2 * η) := by linarith
    _ = _ := by ring

end F64

/-- **C40.** How exact a percentile is: up to three parts in `2^53` of the largest magnitude it is the height, at the rank, of the broken line through the numbers in order; the rank is `p · (n - 1)` up to
one part in `2^53`. So it leaves the range of the numbers by no more than that. -/
theorem C40_interpolation_partial (X : Ext) (vs ls : List Value) (hl : LeavesOf vs ls) (qs : List ℚ) (hq : Values (amounts ls) qs) (hne : qs ≠ []) (hfit : qs.length < 2 ^ 53)
    (p : F64) (t : ℚ) (hp : HasValue p t) (h0 : 0 ≤ t) (h1 : t ≤ 1) (x : F64) (v : ℚ) (hx : fn X c!"PERCENTILE_INC" (vs ++ [.num p]) = .ok (.num x)) (hv : HasValue x v) (M : ℚ) (hM : ∀ q ∈ qs, |q| ≤ M) :
    ∃ ss r, ss.Perm qs ∧ ss.Pairwise (· ≤ ·) ∧ 0 ≤ r ∧ r ≤ ((qs.length - 1 : ℕ) : ℚ) ∧ |r - t * (qs.length - 1 : ℕ)| ≤ t * (qs.length - 1 : ℕ) * (1 / 2 ^ 53) + tiny ∧
      |v - lineAt ss r| ≤ ((1 + 1 / 2 ^ 53) ^ 3 - 1) * M + 2 * (1 + 1 / 2 ^ 53) * tiny ∧
      ∀ lo hi, (∀ q ∈ qs, lo ≤ q ∧ q ≤ hi) →
        lo - (((1 + 1 / 2 ^ 53) ^ 3 - 1) * M + 2 * (1 + 1 / 2 ^ 53) * tiny) ≤ v ∧ v ≤ hi + (((1 + 1 / 2 ^ 53) ^ 3 - 1) * M + 2 * (1 + 1 / 2 ^ 53) * tiny) := by
  have hlen := total_value hq
  obtain ⟨e, hfin⟩ := values_toRat hq
  have hne' : amounts ls ≠ [] := by intro h; rw [h] at hlen; simp at hlen; exact hne (List.length_eq_zero_iff.1 hlen.symm)
  have hnan : F64.nan ∉ amounts ls := fun h => by have := (hfin _ h).2; simp [F64.isFinite] at this
  have f0 : F64.fle (.zero false) p = true := by
    cases p with
    | fin w => have : w = t := hp; exact decide_eq_true (by rw [this]; exact h0)
    | zero s => rfl
    | nan => exact hp.elim
    | inf _ => exact hp.elim
  have f1 : F64.fle p (.fin 1) = true := by
    cases p with
    | fin w => have : w = t := hp; exact decide_eq_true (by rw [this]; exact h1)
    | zero s => exact decide_eq_true (zero_le_one (α := ℚ))
    | nan => exact hp.elim
    | inf _ => exact hp.elim
  obtain ⟨s, x', s1, s2, s3, k, s4⟩ := C40_percentile_partial X vs ls p hl hne' hnan (by omega) f0 f1
  rw [hx] at s3
  cases s3
  have el : F64.ofNat ((amounts ls).length - 1) = F64.ofIntExact (((amounts ls).length - 1 : ℕ) : ℤ) :=
    F64.ofInt_exact _ (by rw [abs_of_nonneg (by omega)]; exact_mod_cast (by omega : (amounts ls).length - 1 ≤ 2 ^ 53))
  obtain ⟨R, hR0, hRm, hRe, hcase⟩ := rank_range p ((amounts ls).length - 1) (by omega) f0 f1
  have hval : HasValue (F64.ofNat ((amounts ls).length - 1)) ((qs.length - 1 : ℕ) : ℚ) := by
    rw [el, hlen]
    unfold F64.ofIntExact
    split
    · rename_i h; have : qs.length - 1 = 0 := by omega
      rw [this]; simp [HasValue]
    · simp [HasValue]
  have hrank := F64.mul_roundsTo hp hval
  rw [el] at s4 hrank
  have hfinR : (F64.mul p (F64.ofIntExact (((amounts ls).length - 1 : ℕ) : ℤ))).isFinite = true := by
    rcases hcase with ⟨s, h⟩ | h <;> rw [h] <;> rfl
  have hRv : HasValue (F64.mul p (F64.ofIntExact (((amounts ls).length - 1 : ℕ) : ℤ))) R := by have := toRat_value hfinR; rwa [hRe] at this
  rw [hRe] at s4
  have hRb : IsBin64 R := F64.hasValue_bin64 hRv (F64.mul_isDouble _ _)
  have hclose := F64.close_any hrank hRv
  rw [abs_of_nonneg (a := t * _) (by positivity)] at hclose
  have hbound : (0 : ℚ) ≤ ((1 + 1 / 2 ^ 53) ^ 3 - 1) * M + 2 * (1 + 1 / 2 ^ 53) * tiny := by
    have : 0 ≤ M := by
      obtain ⟨q, hq⟩ := List.exists_mem_of_ne_nil _ hne
      exact (abs_nonneg q).trans (hM q hq)
    have ht : 0 < tiny := F64.pow2_pos _
    exact add_nonneg (mul_nonneg (by norm_num) this) (by positivity)
  have perm : (s.map F64.toRat).Perm qs := by rw [e]; exact s1.map _
  have hfs : ∀ y ∈ s, IsDouble y ∧ y.isFinite = true := fun y hy => hfin y (s1.mem_iff.1 hy)
  refine ⟨s.map F64.toRat, R, perm, ?_, hR0, by rw [hlen] at hRm; exact hRm, hclose, ?_⟩
  · rw [List.pairwise_map]
    exact s2.imp_of_mem fun ha hb h => finite_le h (hfs _ ha).2 (hfs _ hb).2
  -- the two numbers beside the rank
  have key : ∃ a b w : ℚ, 0 ≤ w ∧ w ≤ 1 ∧ a ∈ qs ∧ b ∈ qs ∧ lineAt (s.map F64.toRat) R = (1 - w) * a + w * b ∧
      |v - ((1 - w) * a + w * b)| ≤ ((1 + 1 / 2 ^ 53) ^ 3 - 1) * M + 2 * (1 + 1 / 2 ^ 53) * tiny := by
    rcases s4 with ⟨r1, r2⟩ | ⟨r1, r2, a, b, r3, r4, r5⟩
    · have hm : x ∈ s := List.mem_of_getElem? r2
      have hxv : v = x.toRat := F64.hasValue_unique hv (toRat_value (hfs x hm).2)
      refine ⟨x.toRat, x.toRat, 0, le_refl _, zero_le_one, perm.mem_iff.1 (List.mem_map_of_mem hm), perm.mem_iff.1 (List.mem_map_of_mem hm), ?_, ?_⟩
      · unfold lineAt
        have : ⌊R⌋₊ = k := by rw [r1]; exact Nat.floor_natCast k
        rw [this, r1, List.getD_eq_getElem?_getD, List.getElem?_map, r2]
        simp
      · rw [hxv]
        simpa using hbound
    · have ma : a ∈ s := List.mem_of_getElem? r3
      have mb : b ∈ s := List.mem_of_getElem? r4
      have hw : IsBin64 (R - k) := F64.fraction_bin64 hRb k r1 r2
      rw [F64.round_exact hw (by linarith)] at r5
      rw [r5] at hv
      refine ⟨a.toRat, b.toRat, R - k, by linarith, by linarith, perm.mem_iff.1 (List.mem_map_of_mem ma), perm.mem_iff.1 (List.mem_map_of_mem mb), ?_, ?_⟩
      · unfold lineAt
        have : ⌊R⌋₊ = k := (Nat.floor_eq_iff hR0).2 ⟨r1.le, r2⟩
        rw [this, List.getD_eq_getElem?_getD, List.getD_eq_getElem?_getD, List.getElem?_map, List.getElem?_map, r3, r4]
        simp
      · exact F64.weighted_close (hfs a ma).1 (hfs b mb).1 (toRat_value (hfs a ma).2) (toRat_value (hfs b mb).2) hw (by linarith) (by linarith) hv
          (hM _ (perm.mem_iff.1 (List.mem_map_of_mem ma))) (hM _ (perm.mem_iff.1 (List.mem_map_of_mem mb)))
  obtain ⟨a, b, w, w0, w1, ma, mb, hline, hc⟩ := key
  rw [hline]
  refine ⟨hc, fun lo hi hb => ?_⟩
  have ha := hb a ma
  have hb' := hb b mb
  have w1' : 0 ≤ 1 - w := by linarith
  have l1 := mul_le_mul_of_nonneg_left ha.1 w1'
  have l2 := mul_le_mul_of_nonneg_left hb'.1 w0
  have u1 := mul_le_mul_of_nonneg_left ha.2 w1'
  have u2 := mul_le_mul_of_nonneg_left hb'.2 w0
  rw [abs_le] at hc
  constructor <;> linarith [hc.1, hc.2]

/-- A concrete case: the numbers 3, 1/4 and the percentile 1/2. -/
example (X : Ext) : Values [.fin 3, .fin (1 / 4)] [3, 1 / 4] ∧ fn X c!"PERCENTILE_INC" ([.num (.fin 3), .num (.fin (1 / 4))] ++ [.num (.fin (1 / 2))]) = .ok (.num (.fin (13 / 8))) ∧
    lineAt [1 / 4, 3] (1 / 2) = 13 / 8 :=
  ⟨.cons ⟨by norm_num, 3, 0, by norm_num, by norm_num, by norm_num, by norm_num⟩ rfl (.cons ⟨by norm_num, 1, -2, by norm_num, by norm_num, by norm_num, by norm_num⟩ rfl .nil),
    by kernel_rfl, by have : ⌊(1 / 2 : ℚ)⌋₊ = 0 := by norm_num
                      unfold lineAt; rw [this]; norm_num⟩
