import Verif.Spec.Call
import Verif.Lemmas.Double
import Verif.Props.Conversions
import Mathlib.Algebra.Order.Floor.Ring
import Mathlib.Algebra.Order.Round
import Mathlib.Tactic.Linarith
import Mathlib.Tactic.FieldSimp
/-! Rounding to integers, absolute value and remainder. -/

open Lib

namespace Spec

/-- The number `x` is finite and its value is `q` (the sign of a zero does not count). -/
def HasValue : F64 → ℚ → Prop
  | .fin p, q => p = q
  | .zero _, q => q = 0
  | _, _ => False

/-- `i` is the integer nearest to `q`; of two equally near ones, the one farther from zero. -/
def IsNearest (q : ℚ) (i : ℤ) : Prop := |q - i| ≤ 1 / 2 ∧ (|q - i| = 1 / 2 → |q| < |(i : ℚ)|)

/-- The value of `:a % :b`. -/
def percent (X : Ext) (a b : Value) : Res Value :=
  evalVars X (.binary (.var c!"a") .mod (.var c!"b")) ((Env.empty.insert c!"a" a).insert c!"b" b)

end Spec

open Spec

namespace F64

theorem hasValue_ofRounded (s : Bool) (i : ℤ) : HasValue (ofRounded s i) i := by
  unfold ofRounded
  split
  · rename_i h; simp [HasValue, h]
  · rfl

theorem ofRounded_isDouble (s : Bool) {i : ℤ} (h : IsBin64 (i : ℚ)) : IsDouble (ofRounded s i) := by
  unfold ofRounded
  split
  · trivial
  · rename_i h0; exact ⟨by exact_mod_cast h0, h⟩

/-- Every integer within one of the integer part of a binary64 number that is not an integer is a binary64 number. -/
theorem isBin64_near {q : ℚ} (h : IsBin64 q) (i : ℤ) (hi : |q - i| < 1) : IsBin64 (i : ℚ) := by
  obtain ⟨m, e, h1, h2, h3, rfl⟩ := h
  by_cases he : 0 ≤ e
  · obtain ⟨n, rfl⟩ := Int.eq_ofNat_of_zero_le he
    have hz : (m : ℚ) * 2 ^ (n : ℤ) = ((m * 2 ^ n : ℤ) : ℚ) := by push_cast; rw [zpow_natCast]
    have hz' : m * 2 ^ n = i := by
      rw [hz] at hi
      have : |m * 2 ^ n - i| < 1 := by exact_mod_cast hi
      have := Int.abs_lt_one_iff.1 this
      omega
    exact ⟨m, n, h1, h2, h3, by rw [← hz']; push_cast; rw [zpow_natCast]⟩
  · refine isBin64_int _ ?_
    have hpow : (2 : ℚ) ^ e ≤ 1 / 2 := by
      calc (2 : ℚ) ^ e ≤ 2 ^ (-1 : ℤ) := zpow_le_zpow_right₀ (by norm_num) (by omega)
        _ = 1 / 2 := by norm_num
    have hb : |(m : ℚ) * 2 ^ e| ≤ 2 ^ 52 := by
      rw [abs_mul, abs_of_pos (pow2_pos e)]
      have hm : |(m : ℚ)| ≤ 2 ^ 53 := by exact_mod_cast h1.le
      calc |(m : ℚ)| * 2 ^ e ≤ 2 ^ 53 * (1 / 2) := mul_le_mul hm hpow (pow2_pos e).le (by norm_num)
        _ = 2 ^ 52 := by norm_num
    generalize (m : ℚ) * 2 ^ e = q at *
    have : |(i : ℚ)| ≤ 2 ^ 53 := by
      rw [abs_le] at hb ⊢; rw [abs_lt] at hi
      constructor <;> linarith [hb.1, hb.2, hi.1, hi.2]
    exact_mod_cast this

theorem floor_value {x : F64} {q : ℚ} (h : HasValue x q) : HasValue x.floor (⌊q⌋ : ℤ) := by
  cases x with
  | fin p => cases h; exact hasValue_ofRounded _ _
  | zero s => cases h; simp [floor, HasValue]
  | nan => exact h.elim
  | inf s => exact h.elim

theorem rat_ceil (p : ℚ) : p.ceil = ⌈p⌉ := by rw [Rat.ceil_eq_neg_floor_neg]; have : (-p).floor = ⌊-p⌋ := rfl; rw [this, Int.floor_neg]; omega

theorem ceil_value {x : F64} {q : ℚ} (h : HasValue x q) : HasValue x.ceil (⌈q⌉ : ℤ) := by
  cases x with
  | fin p =>
    have h : p = q := h
    subst h
    rw [← rat_ceil]; exact hasValue_ofRounded _ _
  | zero s => have h : q = 0 := h; subst h; simp [ceil, HasValue]
  | nan => exact h.elim
  | inf s => exact h.elim

theorem trunc_value {x : F64} {q : ℚ} {i : ℤ} (h : HasValue x q) (hi : IsTrunc q i) : HasValue x.trunc i := by
  have := isTrunc_unique hi
  cases x with
  | fin p => have h : p = q := h; subst h; rw [← this]; exact hasValue_ofRounded _ _
  | zero s => have h : q = 0 := h; subst h; rw [← this]; rfl
  | nan => exact h.elim
  | inf s => exact h.elim

theorem abs_value {x : F64} {q : ℚ} (h : HasValue x q) : HasValue x.abs |q| := by
  cases x with
  | fin p =>
    have h : p = q := h
    subst h
    show (if p < 0 then -p else p) = |p|
    split
    · rename_i h; rw [abs_of_neg h]
    · rename_i h; rw [abs_of_nonneg (not_lt.1 h)]
  | zero s => have h : q = 0 := h; subst h; simp [F64.abs, HasValue]
  | nan => exact h.elim
  | inf s => exact h.elim

/-- The integer `roundHalfAway` gives. -/
def nearest (q : ℚ) : ℤ := if q < 0 then -((-q + 1/2).floor) else (q + 1/2).floor

theorem nearest_spec (q : ℚ) : IsNearest q (nearest q) := by
  unfold nearest
  by_cases h : q < 0
  · rw [if_pos h]
    have h1 := Int.floor_le (-q + 1/2)
    have h2 := Int.lt_floor_add_one (-q + 1/2)
    have h0 : (0 : ℤ) ≤ ⌊-q + 1/2⌋ := Int.floor_nonneg.2 (by linarith)
    have h0' : (0 : ℚ) ≤ ((⌊-q + 1/2⌋ : ℤ) : ℚ) := by exact_mod_cast h0
    change |q - ((-⌊-q + 1/2⌋ : ℤ) : ℚ)| ≤ 1 / 2 ∧ (|q - ((-⌊-q + 1/2⌋ : ℤ) : ℚ)| = 1 / 2 → |q| < |((-⌊-q + 1/2⌋ : ℤ) : ℚ)|)
    generalize (⌊-q + 1/2⌋ : ℤ) = k at *
    push_cast
    constructor
    · rw [abs_le]; constructor <;> linarith
    · intro hh
      rw [abs_neg, abs_of_nonneg h0', abs_of_neg h]
      rcases abs_choice (q - -(k : ℚ)) with e | e <;> rw [e] at hh <;> linarith
  · rw [if_neg h]
    have h := not_lt.1 h
    have h1 := Int.floor_le (q + 1/2)
    have h2 := Int.lt_floor_add_one (q + 1/2)
    have h0 : (0 : ℤ) ≤ ⌊q + 1/2⌋ := Int.floor_nonneg.2 (by linarith)
    have h0' : (0 : ℚ) ≤ ((⌊q + 1/2⌋ : ℤ) : ℚ) := by exact_mod_cast h0
    change |q - ((⌊q + 1/2⌋ : ℤ) : ℚ)| ≤ 1 / 2 ∧ (|q - ((⌊q + 1/2⌋ : ℤ) : ℚ)| = 1 / 2 → |q| < |((⌊q + 1/2⌋ : ℤ) : ℚ)|)
    generalize (⌊q + 1/2⌋ : ℤ) = k at *
    constructor
    · rw [abs_le]; constructor <;> linarith
    · intro hh
      rw [abs_of_nonneg h0', abs_of_nonneg h]
      rcases abs_choice (q - (k : ℚ)) with e | e <;> rw [e] at hh <;> linarith

theorem nearest_zero : nearest 0 = 0 := by decide +kernel

theorem nearest_value {x : F64} {q : ℚ} (h : HasValue x q) : HasValue x.roundHalfAway (nearest q) := by
  cases x with
  | fin p => have h : p = q := h; subst h; exact hasValue_ofRounded _ _
  | zero s => have h : q = 0 := h; subst h; rw [nearest_zero]; rfl
  | nan => exact h.elim
  | inf s => exact h.elim

theorem floor_isDouble {x : F64} (h : IsDouble x) : IsDouble x.floor := by
  cases x with
  | fin p =>
    refine ofRounded_isDouble _ (isBin64_near h.2 _ ?_)
    have h1 := Int.floor_le p
    have h2 := Int.lt_floor_add_one p
    show |p - (⌊p⌋ : ℤ)| < 1
    rw [abs_lt]; constructor <;> linarith
  | _ => trivial

theorem ceil_isDouble {x : F64} (h : IsDouble x) : IsDouble x.ceil := by
  cases x with
  | fin p =>
    refine ofRounded_isDouble _ (isBin64_near h.2 _ ?_)
    rw [rat_ceil]
    have h1 := Int.le_ceil p
    have h2 := Int.ceil_lt_add_one p
    rw [abs_lt]; constructor <;> linarith
  | _ => trivial

theorem nearest_isDouble {x : F64} (h : IsDouble x) : IsDouble x.roundHalfAway := by
  cases x with
  | fin p =>
    refine ofRounded_isDouble _ (isBin64_near h.2 _ ?_)
    exact lt_of_le_of_lt (nearest_spec p).1 (by norm_num)
  | _ => trivial

theorem trunc_isDouble {x : F64} (h : IsDouble x) : IsDouble x.trunc := by
  cases x with
  | fin p => exact ofRounded_isDouble _ (isBin64_trunc h.2)
  | _ => trivial

theorem abs_isDouble {x : F64} (h : IsDouble x) : IsDouble x.abs := by
  cases x with
  | fin p =>
    show IsDouble (.fin (if p < 0 then -p else p))
    split
    · exact ⟨by simpa using h.1, isBin64_neg h.2⟩
    · exact h
  | _ => trivial

/-- Multiplying and dividing by one changes no double. -/
theorem mul_one_double {x : F64} (h : IsDouble x) : mul x (.fin 1) = x := by
  cases x with
  | fin p => show round (p * 1) _ = _; rw [mul_one]; exact round_exact h.2 h.1 _
  | nan => rfl
  | inf s => cases s <;> rfl
  | zero s => cases s <;> rfl

theorem div_one_double {x : F64} (h : IsDouble x) : div x (.fin 1) = x := by
  cases x with
  | fin p => show round (p / 1) _ = _; rw [div_one]; exact round_exact h.2 h.1 _
  | nan => rfl
  | inf s => cases s <;> rfl
  | zero s => cases s <;> rfl

theorem isBin64_of {x : F64} {q : ℚ} (h : HasValue x q) (hd : IsDouble x) : IsBin64 q := by
  cases x with
  | fin p => have h : p = q := h; subst h; exact hd.2
  | zero s => have h : q = 0 := h; subst h; exact isBin64_zero
  | nan => exact h.elim
  | inf s => exact h.elim

/-- The remainder is exact: no rounding is needed. -/
theorem isBin64_rem {p q r : ℚ} (hp : IsBin64 p) (hq : IsBin64 q) (k : ℤ) (hr : r = p - q * k) (hrp : |r| ≤ |p|) (hrq : |r| < |q|) :
    IsBin64 r := by
  obtain ⟨m, e, h1, h2, h3, rfl⟩ := hp
  obtain ⟨n, f, g1, g2, g3, rfl⟩ := hq
  have key : ∀ (a b : ℤ), b ≤ a → ∃ c : ℤ, (2 : ℚ) ^ a = c * 2 ^ b := by
    intro a b hab
    obtain ⟨c, hc⟩ := Int.eq_ofNat_of_zero_le (by omega : 0 ≤ a - b)
    refine ⟨2 ^ c, ?_⟩
    rw [show a = (c : ℤ) + b by omega, zpow_add₀ (by norm_num)]; push_cast; rw [zpow_natCast]
  have bound : ∀ (x y : ℤ) (b : ℤ), |(x : ℚ) * 2 ^ b| ≤ |(y : ℚ) * 2 ^ b| → |y| < 2 ^ 53 → |x| < 2 ^ 53 := by
    intro x y b h hy
    rw [abs_mul, abs_mul] at h
    have : |(x : ℚ)| ≤ |(y : ℚ)| := le_of_mul_le_mul_right h (abs_pos.2 (pow2_pos b).ne')
    exact lt_of_le_of_lt (by exact_mod_cast this) hy
  rcases le_total e f with hef | hef
  · obtain ⟨c, hc⟩ := key f e hef
    have hx : r = ((m - n * c * k : ℤ) : ℚ) * 2 ^ e := by rw [hr, hc]; push_cast; ring
    exact ⟨m - n * c * k, e, bound _ m e (by rw [← hx]; exact hrp) h1, h2, h3, hx⟩
  · obtain ⟨c, hc⟩ := key e f hef
    have hx : r = ((m * c - n * k : ℤ) : ℚ) * 2 ^ f := by rw [hr, hc]; push_cast; ring
    exact ⟨m * c - n * k, f, bound _ n f (by rw [← hx]; exact hrq.le) g1, g2, g3, hx⟩

end F64

/-! ### C74 -/

/-- `FLOOR` and `INT` give the greatest integer below, `CEIL` and `CEILING` the least integer above, `ABS` the
absolute value, in function and method form; the results are exact. -/
theorem C74_floor_ceil_abs (X : Ext) (x : F64) (q : ℚ) (h : HasValue x q) :
    (∃ y, HasValue y (⌊q⌋ : ℤ) ∧ (IsDouble x → IsDouble y) ∧ fn X c!"FLOOR" [.num x] = .ok (.num y) ∧ fn X c!"INT" [.num x] = .ok (.num y) ∧
      meth0 X (.num x) c!"floor" = .ok (.num y)) ∧
    (∃ y, HasValue y (⌈q⌉ : ℤ) ∧ (IsDouble x → IsDouble y) ∧ fn X c!"CEIL" [.num x] = .ok (.num y) ∧ fn X c!"CEILING" [.num x] = .ok (.num y) ∧
      meth0 X (.num x) c!"ceil" = .ok (.num y) ∧ meth0 X (.num x) c!"ceiling" = .ok (.num y)) ∧
    ∃ y, HasValue y |q| ∧ (IsDouble x → IsDouble y) ∧ fn X c!"ABS" [.num x] = .ok (.num y) ∧ meth0 X (.num x) c!"abs" = .ok (.num y) := by
  refine ⟨⟨x.floor, F64.floor_value h, F64.floor_isDouble, ?_, ?_, ?_⟩, ⟨x.ceil, F64.ceil_value h, F64.ceil_isDouble, ?_, ?_, ?_, ?_⟩,
    ⟨x.abs, F64.abs_value h, F64.abs_isDouble, ?_, ?_⟩⟩
  all_goals first
    | (rw [fn_eq X _ _ (by decide)]; rfl)
    | (rw [meth0_eq]; kernel_rfl)

/-- `x.round()` and `ROUND(x)`, `ROUND(x, d)` for `d` not positive, give the nearest integer, halves away from zero
(`10f64.powi(0)` being 1); `x.int()` drops the fraction. -/
theorem C74_round_int (X : Ext) (h10 : X.pow10 0 = .fin 1) (x : F64) (hd : IsDouble x) (q : ℚ) (h : HasValue x q) :
    (∃ y i, IsNearest q i ∧ HasValue y i ∧ IsDouble y ∧ meth0 X (.num x) c!"round" = .ok (.num y) ∧ fn X c!"ROUND" [.num x] = .ok (.num y) ∧
      ∀ d t, TruncatesTo d t → t ≤ 0 → fn X c!"ROUND" [.num x, .num d] = .ok (.num y)) ∧
    ∃ y i, IsTrunc q i ∧ HasValue y i ∧ IsDouble y ∧ meth0 X (.num x) c!"int" = .ok (.num y) := by
  have hr : F64.div (F64.mul x (X.pow10 0)).roundHalfAway (X.pow10 0) = x.roundHalfAway := by
    rw [h10, F64.mul_one_double hd, F64.div_one_double (F64.nearest_isDouble hd)]
  refine ⟨⟨x.roundHalfAway, F64.nearest q, F64.nearest_spec q, F64.nearest_value h, F64.nearest_isDouble hd, ?_, ?_, ?_⟩,
    ⟨x.trunc, F64.truncRat q, isTrunc_truncRat q, F64.trunc_value h (isTrunc_truncRat q), F64.trunc_isDouble hd, ?_⟩⟩
  · rw [meth0_eq]; kernel_rfl
  · rw [fn_eq X _ _ (by decide), ← hr]; rfl
  · intro d t hdt ht
    rw [fn_eq X _ _ (by decide), ← hr]
    show Except.ok (Value.num (F64.div (F64.mul x (X.pow10 (max d.toI32 0))).roundHalfAway (X.pow10 (max d.toI32 0)))) = _
    have : max d.toI32 0 = 0 := by
      refine max_eq_right ?_
      cases d with
      | nan => exact hdt.elim
      | inf s => exact hdt.elim
      | zero s => exact le_refl _
      | fin p =>
        have := isTrunc_unique hdt
        simp only [F64.toI32, F64.toIntSat, this, F64.i32Min, F64.i32Max]
        split <;> [omega; split <;> omega]
    rw [this]
  · rw [meth0_eq]; kernel_rfl

/-- With a positive number of decimals the function and the method compute the same. -/
theorem C74_round_forms_partial (X : Ext) (x d : F64) (t : ℤ) (hdt : TruncatesTo d t) (ht : 0 < t) :
    fn X c!"ROUND" [.num x, .num d] = meth1 X (.num x) c!"round" (.num d) := by
  have hp : 0 < d.toI32 := by
    cases d with
    | nan => exact hdt.elim
    | inf s => exact hdt.elim
    | zero s => have : t = 0 := hdt; omega
    | fin p =>
      have := isTrunc_unique hdt
      simp only [F64.toI32, F64.toIntSat, this, F64.i32Min, F64.i32Max]
      split <;> [omega; split <;> omega]
  rw [fn_eq X _ _ (by decide), meth1_eq]
  have e1 : execFast X c!"ROUND" [.num x, .num d] =
    Except.ok (Value.num (F64.div (F64.mul x (X.pow10 (max d.toI32 0))).roundHalfAway (X.pow10 (max d.toI32 0)))) := rfl
  have e2 : Method.exec X none ((Env.empty.insert c!"r" (.num x)).insert c!"a" (.num d)) c!"round" false (.num x) [Legacy.argOf X (.var c!"a")]
    = if d.toI32 = 0 then .ok (.num x.roundHalfAway)
      else .ok (.num (F64.div (F64.mul x (X.pow10 d.toI32)).roundHalfAway (X.pow10 d.toI32))) := by
    kernel_rfl
  rw [e1, e2, if_neg (by omega), max_eq_left hp.le]

/-- The forms do not agree everywhere: `INT(-1.5)` is -2 and `(-1.5).int()` is -1; `FLOOR("7")` is 0 and `"7".floor()` an error;
`ROUND(1234, -2)` ignores the negative decimals and the method does not (for any powers of ten other than 1 it multiplies by). -/
theorem C74_forms_differ (X : Ext) :
    fn X c!"INT" [.num (.fin (-3/2))] = .ok (.num (.fin (-2))) ∧ meth0 X (.num (.fin (-3/2))) c!"int" = .ok (.num (.fin (-1))) ∧
    fn X c!"FLOOR" [.str c!"7"] = .ok (.num (.zero false)) ∧ meth0 X (.str c!"7") c!"floor" = fail "Unknown string method: {}" [c!"floor"] ∧
    (X.pow10 0 = .fin 1 → fn X c!"ROUND" [.num (.fin 1234), .num (.fin (-2))] = .ok (.num (.fin 1234))) ∧
    (X.pow10 (-2) = F64.round (1/100) → meth1 X (.num (.fin 1234)) c!"round" (.num (.fin (-2))) = .ok (.num (.fin 1200))) := by
  refine ⟨by kernel_rfl, by kernel_rfl, by kernel_rfl, by kernel_rfl, ?_, ?_⟩
  · intro h
    rw [show fn X c!"ROUND" [.num (.fin 1234), .num (.fin (-2))] =
      .ok (.num (F64.div (F64.mul (.fin 1234) (X.pow10 0)).roundHalfAway (X.pow10 0))) by kernel_rfl, h]
    kernel_rfl
  · intro h
    rw [show meth1 X (.num (.fin 1234)) c!"round" (.num (.fin (-2))) =
      .ok (.num (F64.div (F64.mul (.fin 1234) (X.pow10 (-2))).roundHalfAway (X.pow10 (-2)))) by kernel_rfl, h]
    kernel_rfl

example : HasValue (.fin (-5/2)) (-5/2) ∧ IsDouble (.fin (-5/2)) ∧ IsNearest (-5/2) (-3) ∧ ¬ IsNearest (-5/2) (-2) ∧ IsTrunc (-5/2) (-2) :=
  ⟨rfl, ⟨by norm_num, -5, -1, by norm_num, by norm_num, by norm_num, by norm_num⟩, by norm_num [IsNearest, abs_of_neg, abs_of_pos],
    by norm_num [IsNearest, abs_of_neg, abs_of_pos], by norm_num [IsTrunc, abs_of_neg, abs_of_pos]⟩
example : TruncatesTo (.fin (5/2)) 2 := by norm_num [TruncatesTo, IsTrunc, abs_of_pos]

/-! ### C75 -/

theorem rem_spec {x y : F64} {p q : ℚ} (hx : HasValue x p) (hy : HasValue y q) (hq : q ≠ 0) :
    ∃ (r : ℚ) (k : ℤ), HasValue (F64.rem x y) r ∧ p = q * k + r ∧ |r| < |q| ∧ 0 ≤ r * p := by
  have main : ∀ p q : ℚ, q ≠ 0 → ∃ (r : ℚ) (k : ℤ), r = p - q * F64.truncRat (p / q) ∧ p = q * k + r ∧ |r| < |q| ∧ 0 ≤ r * p := by
    intro p q hq
    obtain ⟨h1, h2, h3⟩ := isTrunc_truncRat (p / q)
    refine ⟨_, F64.truncRat (p / q), rfl, by ring, ?_, ?_⟩
    all_goals
      generalize (F64.truncRat (p / q) : ℤ) = t at *
      generalize hz : p / q = z at *
      have hp : p = z * q := by rw [← hz]; field_simp
      subst hp
    · have : z * q - q * (t : ℚ) = (z - t) * q := by ring
      rw [this, abs_mul]
      have : |z - t| < 1 := by
        rcases abs_cases (t : ℚ) with ⟨e, e'⟩ | ⟨e, e'⟩ <;> rcases abs_cases z with ⟨g, g'⟩ | ⟨g, g'⟩ <;> rw [e, g] at h1 h2 <;> rw [abs_lt] <;>
          constructor <;> nlinarith
      have hq' : 0 < |q| := abs_pos.2 hq
      nlinarith
    · have : (z * q - q * (t : ℚ)) * (z * q) = (z - t) * z * (q * q) := by ring
      rw [this]
      refine mul_nonneg ?_ (mul_self_nonneg q)
      rcases abs_cases (t : ℚ) with ⟨e, e'⟩ | ⟨e, e'⟩ <;> rcases abs_cases z with ⟨g, g'⟩ | ⟨g, g'⟩ <;> rw [e, g] at h1 h2 <;> nlinarith
  cases y with
  | nan => exact hy.elim
  | inf s => exact hy.elim
  | zero s => exact absurd hy hq
  | fin q' =>
    have hy : q' = q := hy
    subst hy
    cases x with
    | nan => exact hx.elim
    | inf s => exact hx.elim
    | zero s => have hx : p = 0 := hx; subst hx; exact ⟨0, 0, rfl, by simp, by simpa using hq, by simp⟩
    | fin p' =>
      have hx : p' = p := hx
      subst hx
      obtain ⟨r, k, h1, h2⟩ := main p' q' hq
      refine ⟨r, k, ?_, h2⟩
      rw [h1]
      simp only [F64.rem]
      split
      · rename_i h; simp [HasValue, h]
      · rfl

/-- `MOD(a, b)` and `a % b` are the exact remainder of the division whose quotient is truncated: `a = b·k + r`, `r` smaller than `b` in
magnitude and of the sign of `a`; no rounding occurs. -/
theorem C75_remainder (X : Ext) (x y : F64) (p q : ℚ) (hx : HasValue x p) (hy : HasValue y q) (hq : q ≠ 0) :
    ∃ z r, ∃ k : ℤ, fn X c!"MOD" [.num x, .num y] = .ok (.num z) ∧ percent X (.num x) (.num y) = .ok (.num z) ∧
      HasValue z r ∧ p = q * k + r ∧ |r| < |q| ∧ 0 ≤ r * p ∧ (IsDouble x → IsDouble y → IsDouble z) := by
  obtain ⟨r, k, h1, h2, h3, h4⟩ := rem_spec hx hy hq
  refine ⟨F64.rem x y, r, k, by rw [fn_eq X _ _ (by decide)]; rfl, by kernel_rfl, h1, h2, h3, h4, ?_⟩
  intro dx dy
  have hrp : |r| ≤ |p| := by
    by_contra hc
    have hc := not_le.1 hc
    have hr0 : r ≠ 0 := by rintro rfl; simp at hc; exact absurd hc (not_lt.2 (abs_nonneg p))
    have hk : k ≠ 0 := by rintro rfl; apply absurd hc; rw [h2]; simp
    have hk1 : (1 : ℚ) ≤ |(k : ℚ)| := by exact_mod_cast Int.one_le_abs hk
    have e : q * k = p - r := by linarith
    have e1 : |q| ≤ |p - r| := by rw [← e, abs_mul]; nlinarith [abs_nonneg q]
    rcases abs_cases p with ⟨a, a'⟩ | ⟨a, a'⟩ <;> rcases abs_cases r with ⟨b, b'⟩ | ⟨b, b'⟩ <;> rcases abs_cases (p - r) with ⟨c, c'⟩ | ⟨c, c'⟩ <;>
      rw [a, b] at hc <;> rw [b] at h3 <;> rw [c] at e1 <;> nlinarith
  have hb := F64.isBin64_rem (F64.isBin64_of hx dx) (F64.isBin64_of hy dy) k (by linarith : r = p - q * k) hrp h3
  revert h1
  cases x <;> cases y <;> simp only [F64.rem] <;> intro h1 <;> try trivial
  split
  · trivial
  · rename_i hne
    rw [if_neg hne] at h1
    exact ⟨hne, by rw [show _ = r from h1]; exact hb⟩

/-- Outside the finite numbers: a zero divisor or an infinite dividend gives NaN, an infinite divisor leaves the dividend. -/
theorem C75_special (X : Ext) (x : F64) :
    (∀ s, fn X c!"MOD" [.num x, .num (.zero s)] = .ok (.num .nan)) ∧
    (∀ s y, fn X c!"MOD" [.num (.inf s), .num y] = .ok (.num .nan)) ∧
    (∀ s, x.isFinite = true → fn X c!"MOD" [.num x, .num (.inf s)] = .ok (.num x)) := by
  refine ⟨fun s => ?_, fun s y => ?_, fun s h => ?_⟩ <;> rw [fn_eq X _ _ (by decide)]
  · show Except.ok (Value.num (F64.rem x (.zero s))) = _
    cases x <;> rfl
  · show Except.ok (Value.num (F64.rem (.inf s) y)) = _
    cases y <;> rfl
  · show Except.ok (Value.num (F64.rem x (.inf s))) = _
    cases x <;> first | rfl | simp [F64.isFinite] at h

example : HasValue (.fin (-7)) (-7) ∧ HasValue (.fin 3) 3 ∧ (3 : ℚ) ≠ 0 ∧ (-7 : ℚ) = 3 * (-2 : ℤ) + (-1) ∧ |(-1 : ℚ)| < |3| ∧ 0 ≤ (-1 : ℚ) * (-7) := by
  refine ⟨rfl, rfl, ?_⟩; norm_num
