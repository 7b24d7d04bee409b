import Verif.Props.ArithOps
import Verif.Props.Powers
import Mathlib.Algebra.Order.BigOperators.Group.List
import Mathlib.Tactic.Linarith
import Mathlib.Tactic.Ring
/-! C98: how far sums and products of doubles are from the exact ones. -/

open Lib Spec

namespace Spec

/-- The doubles `xs` are finite and have the values `qs`. -/
inductive Values : List F64 → List ℚ → Prop
  | nil : Values [] []
  | cons {x q xs qs} : IsDouble x → HasValue x q → Values xs qs → Values (x :: xs) (q :: qs)

/-- The sum of the magnitudes. -/
def absSum (qs : List ℚ) : ℚ := (qs.map (fun q => |q|)).sum

end Spec

namespace F64

/-- Rounding a number outside the subnormal range moves it by at most one part in `2^53`. -/
theorem rounded_close {q v : ℚ} (h : IsRounded q (fin v)) (hq : (2 : ℚ) ^ (-1022 : ℤ) ≤ |q|) : |v - q| ≤ |q| * (1 / 2 ^ 53) := by
  obtain ⟨-, -, hlt, hnear, -⟩ := h
  have hpos : 0 < |q| := lt_of_lt_of_le (pow2_pos _) hq
  have d := data |q| hpos
  have hno : ¬ overflowAt ≤ (d.n : ℚ) * d.u := fun hc => absurd (d.overflow_iff.1 hc) (not_le.2 hlt)
  obtain ⟨m, e, h1, h2, h3, h4, -, -⟩ := d.canon hno
  have hE : (2 : ℚ) ^ d.E ≤ |q| := by
    by_cases hE : d.E = -1022
    · rw [hE]; exact hq
    · exact d.hge hE
  have hd : |(|q| - d.n * d.u)| ≤ |q| * (1 / 2 ^ 53) := by
    rw [d.dist, d.hn]
    have half := (roundEven_spec (|q| / d.u)).1
    calc _ ≤ 1 / 2 * d.u := mul_le_mul_of_nonneg_right half d.hup.le
      _ = 2 ^ d.E * (1 / 2 ^ 53) := by
        rw [d.hu]
        have : (2 : ℚ) ^ (d.E - 52) = 2 ^ d.E * 2 ^ (-52 : ℤ) := by rw [two_zpow_mul]; congr 1
        rw [this]; norm_num; ring
      _ ≤ _ := mul_le_mul_of_nonneg_right hE (by norm_num)
  have hw : IsBin64 (d.n * d.u) := ⟨m, e, h1, h2, h3, h4⟩
  rw [abs_sub_comm]
  generalize (d.n : ℚ) * d.u = t at hd hw
  clear h4 hE hno d
  rcases abs_choice q with hc | hc
  · exact (hnear _ hw).trans (by rwa [hc] at hd ⊢)
  · refine (hnear _ (isBin64_neg hw)).trans ?_
    have e1 : |q - -t| = |(|q| - t)| := by rw [hc, ← abs_neg]; congr 1; ring
    rw [e1]; exact hd

theorem hasValue_unique {x : F64} {p q : ℚ} (hp : HasValue x p) (hq : HasValue x q) : p = q := by
  cases x with
  | fin w => exact (show w = p from hp).symm.trans (show w = q from hq)
  | zero s => exact (show p = 0 from hp).trans (show q = 0 from hq).symm
  | nan => exact hp.elim
  | inf _ => exact hp.elim

/-- Doubles are multiples of the least positive double. -/
theorem multiple {q : ℚ} (h : IsBin64 q) : ∃ k : ℤ, q = k * 2 ^ (-1074 : ℤ) := by
  obtain ⟨m, e, -, h2, -, rfl⟩ := h
  obtain ⟨n, hn⟩ := Int.eq_ofNat_of_zero_le (show 0 ≤ e + 1074 by omega)
  refine ⟨m * 2 ^ n, ?_⟩
  push_cast
  rw [mul_assoc, ← zpow_natCast, two_zpow_mul]
  congr 2; omega

/-- So a sum of two doubles is rounded by at most one part in `2^53`, however small. -/
theorem sum_close {p q : ℚ} {z : F64} {v : ℚ} (hp : IsBin64 p) (hq : IsBin64 q) (h : RoundsTo (p + q) z) (hv : HasValue z v) :
    |v - (p + q)| ≤ |p + q| * (1 / 2 ^ 53) := by
  have hnn : 0 ≤ |p + q| * (1 / 2 ^ 53) := mul_nonneg (abs_nonneg _) (by norm_num)
  by_cases hs : (2 : ℚ) ^ (-1022 : ℤ) ≤ |p + q|
  · have h0 : p + q ≠ 0 := by
      intro h0; rw [h0, abs_zero] at hs; exact absurd hs (not_le.2 (pow2_pos _))
    unfold RoundsTo at h
    rw [if_neg h0] at h
    cases z with
    | fin w => have hv : w = v := hv; subst hv; exact rounded_close h hs
    | zero s =>
      exfalso
      obtain ⟨hz, -⟩ := h
      have hpos : 0 < |p + q| := lt_of_lt_of_le (pow2_pos _) hs
      have hw : IsBin64 (2 ^ (-1022 : ℤ)) := ⟨1, -1022, by norm_num, by norm_num, by norm_num, by norm_num⟩
      rcases abs_choice (p + q) with hc | hc
      · have := hz _ hw
        rw [hc] at this hs
        rw [abs_of_nonneg (by linarith)] at this
        have := pow2_pos (-1022)
        linarith
      · have := hz _ (isBin64_neg hw)
        rw [hc] at this hs
        rw [abs_of_nonpos (by linarith)] at this
        have := pow2_pos (-1022)
        linarith
    | nan => exact hv.elim
    | inf _ => exact hv.elim
  · obtain ⟨a, rfl⟩ := multiple hp
    obtain ⟨b, rfl⟩ := multiple hq
    have hb : IsBin64 ((a : ℚ) * 2 ^ (-1074 : ℤ) + b * 2 ^ (-1074 : ℤ)) := by
      refine ⟨a + b, -1074, ?_, le_refl _, by norm_num, by push_cast; ring⟩
      rw [not_le, ← add_mul, abs_mul, abs_of_pos (pow2_pos _)] at hs
      have h2 : (2 : ℚ) ^ (-1022 : ℤ) = 2 ^ (52 : ℤ) * 2 ^ (-1074 : ℤ) := by rw [two_zpow_mul]; norm_num
      rw [h2] at hs
      have h3 := lt_of_mul_lt_mul_right hs (pow2_pos _).le
      rw [two52] at h3
      have h4 : |a + b| < 2 ^ 52 := by exact_mod_cast h3
      omega
    have := (roundsTo_exact h hb).1
    rw [hasValue_unique hv this, sub_self, abs_zero]; exact hnn

theorem add_not_finite {x y : F64} (h : x.isFinite = false) : (add x y).isFinite = false := by
  cases x <;> cases y <;> first | exact Bool.noConfusion h | rfl | (simp only [add]; split <;> rfl)

theorem foldl_not_finite (xs : List F64) {x : F64} (h : x.isFinite = false) : (xs.foldl add x).isFinite = false := by
  induction xs generalizing x with
  | nil => exact h
  | cons y ys ih => exact ih (add_not_finite h)

theorem hasValue_finite {x : F64} {q : ℚ} (h : HasValue x q) : x.isFinite = true := by
  cases x <;> first | rfl | exact h.elim

theorem value_of_finite {x : F64} (h : x.isFinite = true) : ∃ q, HasValue x q := by
  cases x with
  | fin p => exact ⟨p, rfl⟩
  | zero s => exact ⟨0, rfl⟩
  | nan => cases h
  | inf _ => cases h

theorem hasValue_bin64 {x : F64} {q : ℚ} (h : HasValue x q) (hd : IsDouble x) : IsBin64 q := by
  cases x with
  | fin p => have h : p = q := h; subst h; exact hd.2
  | zero s => have h : q = 0 := h; subst h; exact ⟨0, 0, by norm_num, by norm_num, by norm_num, by norm_num⟩
  | nan => exact h.elim
  | inf _ => exact h.elim

theorem fold_error {xs : List F64} {qs : List ℚ} (hx : Values xs qs) (acc : F64) (a v : ℚ) (hd : IsDouble acc) (ha : HasValue acc a)
    (hv : HasValue (xs.foldl add acc) v) :
    |v - (a + qs.sum)| ≤ ((1 + 1 / 2 ^ 53) ^ xs.length - 1) * (|a| + absSum qs) := by
  induction hx generalizing acc a with
  | nil =>
    have hva : v = a := hasValue_unique hv ha
    simp [hva]
  | @cons x q xs qs hxd hxq hrest ih =>
    rw [List.foldl_cons] at hv
    have hfin : (add acc x).isFinite = true := by
      by_contra hc
      have := foldl_not_finite xs (Bool.eq_false_iff.2 hc)
      rw [hasValue_finite hv] at this; cases this
    obtain ⟨a', ha'⟩ := value_of_finite hfin
    have h1 := ih _ a' (add_isDouble hd hxd) ha' hv
    have h2 := sum_close (hasValue_bin64 ha hd) (hasValue_bin64 hxq hxd) (add_roundsTo hd hxd ha hxq) ha'
    generalize hA : |a| + |q| = A
    generalize hR : absSum qs = R
    have hRnn : 0 ≤ R := by
      rw [← hR]; unfold absSum
      exact List.sum_nonneg (by simp)
    have haq : |a + q| ≤ A := by rw [← hA]; exact abs_add_le a q
    have hu : (0 : ℚ) ≤ 1 / 2 ^ 53 := by norm_num
    have hpow : (1 : ℚ) ≤ (1 + 1 / 2 ^ 53) ^ xs.length := one_le_pow₀ (by norm_num)
    have hsum : absSum (q :: qs) = |q| + R := by simp [absSum, ← hR]
    rw [hsum, List.sum_cons, List.length_cons, pow_succ, ← add_assoc |a|, hA]
    rw [hR] at h1
    generalize (1 + 1 / 2 ^ 53 : ℚ) ^ xs.length = P at *
    generalize (1 / 2 ^ 53 : ℚ) = u at *
    have ha'A : |a'| ≤ A + A * u := by
      have : |a'| ≤ |a' - (a + q)| + |a + q| := by
        have := abs_add_le (a' - (a + q)) (a + q); simpa using this
      nlinarith
    calc |v - (a + (q + qs.sum))| ≤ |v - (a' + qs.sum)| + |a' - (a + q)| := by
          have := abs_add_le (v - (a' + qs.sum)) (a' - (a + q))
          refine le_trans (le_of_eq ?_) this
          congr 1; ring
      _ ≤ (P - 1) * (A + A * u + R) + A * u := by
          refine add_le_add (h1.trans (mul_le_mul_of_nonneg_left (by linarith) (by linarith))) (h2.trans (mul_le_mul_of_nonneg_right haq hu))
      _ ≤ (P * (1 + u) - 1) * (A + R) := by nlinarith [mul_nonneg (mul_nonneg (le_trans zero_le_one hpow) hu) hRnn]

end F64

theorem Spec.total_value {xs : List F64} {qs : List ℚ} (h : Values xs qs) : xs.length = qs.length := by
  induction h with
  | nil => rfl
  | cons _ _ _ ih => simp [ih]

/-- C98. If `SUM` of finite doubles, nested in any way, is finite, it is the exact sum up to a part of the sum of the magnitudes that grows
by one in `2^53` with every addition. -/
theorem C98_sum_error (X : Ext) (vs ls : List Value) (hl : LeavesOf vs ls) (qs : List ℚ) (hq : Values (amounts ls) qs) (s : F64) (v : ℚ)
    (hs : fn X c!"SUM" vs = .ok (.num s)) (hv : HasValue s v) :
    |v - qs.sum| ≤ ((1 + 1 / 2 ^ 53) ^ (qs.length - 1) - 1) * absSum qs := by
  rw [(C38_aggregates X vs ls hl).1] at hs
  cases hs
  unfold total at hv
  generalize amounts ls = xs at *
  cases hq with
  | nil => have hv : v = 0 := hv; simp [hv, absSum]
  | @cons x q xs qs hd hx hrest =>
    rw [List.foldl_cons] at hv
    have h0 : F64.add (.zero false) x = x ∨ HasValue (F64.add (.zero false) x) 0 ∧ q = 0 := by
      cases x with
      | zero t => exact .inr ⟨rfl, hx⟩
      | nan => exact hx.elim
      | inf _ => exact hx.elim
      | fin p => exact .inl rfl
    have hval : HasValue (F64.add (.zero false) x) q := by
      rcases h0 with h0 | ⟨h0, rfl⟩
      · rw [h0]; exact hx
      · exact h0
    have := F64.fold_error hrest _ q v (F64.add_isDouble (x := .zero false) trivial hd) hval hv
    simpa [absSum, total_value hrest] using this

/-- A concrete case of C98: three doubles and their values. -/
example : LeavesOf [.num (.fin 3), .arr [.num (.fin (1 / 2)), .cur (.zero false)]] [.num (.fin 3), .num (.fin (1 / 2)), .cur (.zero false)] ∧
    Values [.fin 3, .fin (1 / 2), .zero false] [3, 1 / 2, 0] := by
  refine ⟨.leaf (by simp) (.nested (l₁ := [.num (.fin (1 / 2)), .cur (.zero false)]) (l₂ := []) (.leaf (by simp) (.leaf (by simp) .nil)) .nil), ?_⟩
  refine .cons ⟨by norm_num, 3, 0, by norm_num, by norm_num, by norm_num, by norm_num⟩ rfl
    (.cons ⟨by norm_num, 1, -1, by norm_num, by norm_num, by norm_num, by norm_num⟩ rfl (.cons trivial rfl .nil))

/-! ### Integers -/

namespace Spec

/-- The doubles `xs` are the integers `ns`. -/
def Integers (xs : List F64) (ns : List ℤ) : Prop := Values xs (ns.map (fun n : ℤ => (n : ℚ)))

/-- The sum of the magnitudes. -/
def absTotal (ns : List ℤ) : ℤ := (ns.map (fun n => |n|)).sum

end Spec

theorem Spec.absTotal_nonneg (ns : List ℤ) : 0 ≤ absTotal ns := List.sum_nonneg (by simp)

theorem F64.fold_integers {xs : List F64} {ns : List ℤ} (h : Integers xs ns) (acc : F64) (a : ℤ) (hd : IsDouble acc) (ha : HasValue acc a)
    (hb : |a| + absTotal ns ≤ 2 ^ 53) : HasValue (xs.foldl F64.add acc) ((a + ns.sum : ℤ) : ℚ) ∧ IsDouble (xs.foldl F64.add acc) := by
  induction ns generalizing xs acc a with
  | nil => cases h; simpa using ⟨ha, hd⟩
  | cons n ns ih =>
    cases h with
    | @cons x _ xs _ hxd hx hr =>
      have hs : absTotal (n :: ns) = |n| + absTotal ns := by simp [absTotal]
      rw [hs] at hb
      have h1 := abs_add_le a n
      have h0 := absTotal_nonneg ns
      have hr64 := F64.add_roundsTo hd hxd ha hx
      have hbin : IsBin64 ((a : ℚ) + n) := by exact_mod_cast F64.isBin64_int (a + n) (by omega)
      obtain ⟨k1, k2⟩ := F64.roundsTo_exact hr64 hbin
      have := ih hr (F64.add acc x) (a + n) k2 (by push_cast; exact k1) (by omega)
      rw [List.foldl_cons, List.sum_cons, ← add_assoc]
      exact this

/-- C98, integers: a `SUM` of integers whose magnitudes add up to at most `2^53` is exact, whatever their order and nesting. -/
theorem C98_integers (X : Ext) (vs ls : List Value) (hl : LeavesOf vs ls) (ns : List ℤ) (h : Integers (amounts ls) ns)
    (hb : absTotal ns ≤ 2 ^ 53) : ∃ s, fn X c!"SUM" vs = .ok (.num s) ∧ HasValue s (ns.sum : ℤ) := by
  refine ⟨_, (C38_aggregates X vs ls hl).1, ?_⟩
  have := (F64.fold_integers h (.zero false) 0 trivial rfl (by simpa using hb)).1
  rwa [Int.zero_add] at this

/-- In particular rearranging them does not change the sum. -/
theorem C98_order (X : Ext) (vs ws ls ms : List Value) (hl : LeavesOf vs ls) (hm : LeavesOf ws ms) (hp : ls.Perm ms) (ns : List ℤ)
    (h : Integers (amounts ls) ns) (hb : absTotal ns ≤ 2 ^ 53) :
    ∃ s t v, fn X c!"SUM" vs = .ok (.num s) ∧ fn X c!"SUM" ws = .ok (.num t) ∧ HasValue s v ∧ HasValue t v := by
  have hpa : (amounts ls).Perm (amounts ms) := by
    clear hl hm h hb
    induction hp with
    | nil => exact .nil
    | cons v _ ih => cases v <;> simp [amounts, ih]
    | swap v w l => cases v <;> cases w <;> first | exact .swap _ _ _ | exact .refl _
    | trans _ _ ih1 ih2 => exact ih1.trans ih2
  have key : ∃ ns', Integers (amounts ms) ns' ∧ ns.Perm ns' := by
    generalize amounts ls = xs at *
    generalize amounts ms = ys at *
    clear hl hm hp hb
    induction hpa generalizing ns with
    | nil => exact ⟨ns, h, .refl _⟩
    | cons x _ ih =>
      cases ns with
      | nil => cases h
      | cons n ns =>
        cases h with
        | cons h1 h2 h3 =>
          obtain ⟨ns', k1, k2⟩ := ih ns h3
          exact ⟨n :: ns', .cons h1 h2 k1, k2.cons n⟩
    | swap x y l =>
      cases ns with
      | nil => cases h
      | cons n ns =>
        cases ns with
        | nil => cases h with | cons _ _ h3 => cases h3
        | cons m ns =>
          cases h with
          | cons h1 h2 h3 =>
            cases h3 with
            | cons h4 h5 h6 => exact ⟨m :: n :: ns, .cons h4 h5 (.cons h1 h2 h6), .swap _ _ _⟩
    | trans _ _ ih1 ih2 =>
      obtain ⟨ns1, k1, k2⟩ := ih1 ns h
      obtain ⟨ns2, j1, j2⟩ := ih2 ns1 k1
      exact ⟨ns2, j1, k2.trans j2⟩
  obtain ⟨ns', k1, k2⟩ := key
  obtain ⟨s, s1, s2⟩ := C98_integers X vs ls hl ns h hb
  obtain ⟨t, t1, t2⟩ := C98_integers X ws ms hm ns' k1 (by rw [show absTotal ns' = absTotal ns from (k2.map _).sum_eq.symm]; exact hb)
  exact ⟨s, t, _, s1, t1, s2, by rw [k2.sum_eq]; exact t2⟩

/-- Of larger numbers the order matters, so the bound is the right one: beyond `2^53` every second integer is missing. -/
theorem C98_order_matters (X : Ext) :
    evaluate X c!"SUM(9007199254740992, 1, 1)" = .ok (.num (.fin 9007199254740992)) ∧
    evaluate X c!"SUM(1, 1, 9007199254740992)" = .ok (.num (.fin 9007199254740994)) := ⟨by kernel_rfl, by kernel_rfl⟩

/-- C98, averages: of such integers, `AVG` is the exact average correctly rounded. -/
theorem C98_average (X : Ext) (vs ls : List Value) (hl : LeavesOf vs ls) (ns : List ℤ) (h : Integers (amounts ls) ns)
    (hb : absTotal ns ≤ 2 ^ 53) (hn : ns ≠ []) (hc : ns.length ≤ 2 ^ 53) :
    ∃ s, fn X c!"AVG" vs = .ok (.num s) ∧ RoundsTo (ns.sum / ns.length) s := by
  have hlen : (amounts ls).length = ns.length := by have := total_value h; simpa using this
  have hne : amounts ls ≠ [] := by intro e; rw [e] at hlen; exact hn (List.length_eq_zero_iff.1 hlen.symm)
  refine ⟨_, (C38_aggregates X vs ls hl).2.1, ?_⟩
  rw [if_neg hne, hlen]
  have h1 := (F64.fold_integers h (.zero false) 0 trivial rfl (by simpa using hb)).1
  rw [Int.zero_add] at h1
  have hpos : 0 < ns.length := List.length_pos_iff.2 hn
  refine F64.div_roundsTo h1 ?_ (by exact_mod_cast hpos.ne')
  have : F64.ofNat ns.length = .fin (ns.length : ℚ) := by
    have hb := F64.isBin64_int (ns.length : ℤ) (by rw [abs_of_nonneg (by positivity)]; exact_mod_cast hc)
    exact F64.round_exact (by exact_mod_cast hb) (by exact_mod_cast hpos.ne') false
  rw [this]; rfl

/-- A concrete case: three integers. -/
example : Integers [.fin 3, .fin 4, .zero false] [3, 4, 0] ∧ absTotal [3, 4, 0] ≤ 2 ^ 53 := by
  refine ⟨.cons ⟨by norm_num, 3, 0, by norm_num, by norm_num, by norm_num, by norm_num⟩ (by norm_num [HasValue])
    (.cons ⟨by norm_num, 4, 0, by norm_num, by norm_num, by norm_num, by norm_num⟩ (by norm_num [HasValue]) (.cons trivial (by norm_num [HasValue]) .nil)), by norm_num [absTotal]⟩

namespace Spec

/-- Every product of a beginning of the list, times `a`, is at most `2^53` in magnitude. -/
def SmallProducts (a : ℤ) : List ℤ → Prop
  | [] => True
  | n :: ns => |a * n| ≤ 2 ^ 53 ∧ SmallProducts (a * n) ns

end Spec

theorem F64.fold_products {xs : List F64} {ns : List ℤ} (h : Integers xs ns) (acc : F64) (a : ℤ) (ha : HasValue acc a)
    (hb : SmallProducts a ns) : HasValue (xs.foldl F64.mul acc) ((a * ns.prod : ℤ) : ℚ) := by
  induction ns generalizing xs acc a with
  | nil => cases h; simpa using ha
  | cons n ns ih =>
    cases h with
    | @cons x _ xs _ hxd hx hr =>
      have hbin : IsBin64 ((a : ℚ) * n) := by exact_mod_cast F64.isBin64_int (a * n) hb.1
      obtain ⟨k1, k2⟩ := F64.roundsTo_exact (F64.mul_roundsTo ha hx) hbin
      have := ih hr (F64.mul acc x) (a * n) (by push_cast; exact k1) hb.2
      rw [List.foldl_cons, List.prod_cons, ← mul_assoc]
      exact this

/-- C98, products: a `PRODUCT` of integers is exact as long as no product of the first few exceeds `2^53`. -/
theorem C98_product (X : Ext) (vs ls : List Value) (hl : LeavesOf vs ls) (ns : List ℤ) (h : Integers (amounts ls) ns)
    (hb : SmallProducts 1 ns) : ∃ s, fn X c!"PRODUCT" vs = .ok (.num s) ∧ HasValue s (ns.prod : ℤ) := by
  refine ⟨_, (C84_product X vs ls hl).1, ?_⟩
  have := F64.fold_products h (.fin 1) 1 (by norm_num [HasValue]) hb
  rwa [Int.one_mul] at this

example : SmallProducts 1 [3, 4, 5] ∧ [3, 4, 5].prod = (60 : ℤ) := by norm_num [SmallProducts]
