import Verif.Spec.Call
import Mathlib.Analysis.SpecialFunctions.Pow.Real
import Mathlib.Tactic.FieldSimp
/-! C65: loans and savings. -/

open Lib

namespace Spec

/-- Exact arithmetic. -/
noncomputable def realArith : Fin'.Arith ℝ where
  add := (· + ·)
  sub := (· - ·)
  mul := (· * ·)
  div := (· / ·)
  neg := fun x => -x
  pow := fun x y => x ^ y
  one := 1
  zero := 0
  isZero := fun x => decide (x = 0)

/-- The account after `n` periods, kept period by period: interest is added at the given rate, and a payment is added at the beginning or the end of
each period. -/
def account (rate pmt : ℝ) (atBeginning : Bool) (start : ℝ) : ℕ → ℝ
  | 0 => start
  | n + 1 => if atBeginning then (account rate pmt atBeginning start n + pmt) * (1 + rate) else account rate pmt atBeginning start n * (1 + rate) + pmt

end Spec

open Spec

/-- **C65.** The functions compute the formulas `level`, `future` and `interest` in floating point; the theorems below are about the same formulas
in exact arithmetic. -/
theorem C65_formulas (X : Ext) (rate nper a b ty per : F64) (hn : F64.fle nper (.zero false) = false) (hn' : F64.flt nper (.zero false) = false)
    (hp : F64.flt per (.fin 1) = false) (hp' : F64.fgt per nper = false) :
    fn X c!"PMT" [.num rate, .num nper, .num a, .num b, .num ty] = .ok (.num (Fin'.level (Fin'.f64Arith X) rate nper a b (F64.fne ty (.zero false)))) ∧
    fn X c!"FV" [.num rate, .num nper, .num a, .num b, .num ty] = .ok (.num (Fin'.future (Fin'.f64Arith X) rate nper a b (F64.fne ty (.zero false)))) ∧
    fn X c!"IPMT" [.num rate, .num per, .num nper, .num a, .num b, .num ty] =
      .ok (.num (Fin'.interest (Fin'.f64Arith X) rate (per.toI32 - 1).toNat (F64.feq per (.fin 1)) nper a b (F64.fne ty (.zero false)))) := by
  refine ⟨?_, ?_, ?_⟩
  · rw [fn_eq X _ _ (by decide)]
    rw [show ∀ vs, execFast X c!"PMT" vs = Fin'.pmt X vs from fun _ => rfl]
    simp [Fin'.pmt, Fin'.need, Fin'.opt, argAt, Value.asNumber, Fin'.zero, hn, bind, Except.bind, pure, Except.pure]
  · rw [fn_eq X _ _ (by decide)]
    rw [show ∀ vs, execFast X c!"FV" vs = Fin'.fv X vs from fun _ => rfl]
    simp [Fin'.fv, Fin'.need, Fin'.opt, argAt, Value.asNumber, Fin'.zero, hn', bind, Except.bind, pure, Except.pure]
  · rw [fn_eq X _ _ (by decide)]
    rw [show ∀ vs, execFast X c!"IPMT" vs = Fin'.ipmt X vs from fun _ => rfl]
    simp [Fin'.ipmt, Fin'.need, Fin'.opt, argAt, Value.asNumber, Fin'.zero, Fin'.one, hn, hp, hp', bind, Except.bind, pure, Except.pure]

/-- The hypotheses of `C65_formulas`: the second of three periods. -/
example (X : Ext) (rate a b ty : F64) := C65_formulas X rate (.fin 3) a b ty (.fin 2) (by decide +kernel) (by decide +kernel) (by decide +kernel) (by decide +kernel)

theorem growth_ne_one {rate n : ℝ} (hr : -1 < rate) (h0 : rate ≠ 0) (hn : n ≠ 0) : (1 + rate) ^ n - 1 ≠ 0 := by
  intro h
  have h1 : (1 + rate) ^ n = 1 := by linarith
  have h2 : (1 + rate) ^ n = 1 ^ n := by rw [h1, Real.one_rpow]
  have := (Real.rpow_left_inj (by linarith) (by norm_num) hn).1 h2
  exact h0 (by linarith)

/-- **C65.** Paying `PMT(rate, n, pv, fv)` each period makes `FV` come out at `fv`, at any rate above -100 % and for any positive (not only
integral) term, with payments at the end or at the beginning of the periods. -/
theorem C65_pmt_fv (rate n pv fv : ℝ) (hr : -1 < rate) (hn : 0 < n) (b : Bool) :
    Fin'.future realArith rate n (Fin'.level realArith rate n pv fv b) pv b = fv := by
  unfold Fin'.future Fin'.level Fin'.payment
  by_cases h0 : rate = 0
  · subst h0
    simp only [realArith, decide_true, if_true]
    field_simp
    ring
  · have hg := growth_ne_one hr h0 (ne_of_gt hn)
    have h1 : 1 + rate ≠ 0 := by linarith
    simp only [realArith, h0, decide_false, Bool.false_eq_true, if_false]
    cases b
    · simp only [Bool.false_eq_true, if_false]
      field_simp
      ring
    · simp only [if_true]
      field_simp
      ring

/-- **C65.** `FV` is the (negated) balance of the account kept period by period. -/
theorem C65_fv_account (rate pmt pv : ℝ) (b : Bool) (n : ℕ) :
    Fin'.future realArith rate n pmt pv b = -account rate pmt b pv n := by
  unfold Fin'.future
  by_cases h0 : rate = 0
  · subst h0
    simp only [realArith, decide_true, if_true]
    have : account 0 pmt b pv n = pv + pmt * n := by
      induction n with
      | zero => simp [account]
      | succ n ih => simp only [account, ih]; split <;> push_cast <;> ring
    rw [this]; ring
  · simp only [realArith, h0, decide_false, Bool.false_eq_true, if_false, Real.rpow_natCast]
    have : account rate pmt b pv n = pv * (1 + rate) ^ n + pmt * (((1 + rate) ^ n - 1) / rate * if b then 1 + rate else 1) := by
      induction n with
      | zero => simp [account]
      | succ n ih =>
        simp only [account, ih]
        cases b <;> simp only [Bool.false_eq_true, if_false, if_true] <;> rw [pow_succ] <;> field_simp <;> ring
    rw [this]; ring

/-- **C65.** With level payments the account ends at `-fv`: a loan with `fv = 0` is paid off exactly. -/
theorem C65_paid_off (rate pv fv : ℝ) (hr : -1 < rate) (n : ℕ) (hn : 0 < n) (b : Bool) :
    account rate (Fin'.level realArith rate n pv fv b) b pv n = -fv := by
  have := C65_fv_account rate (Fin'.level realArith rate n pv fv b) pv b n
  rw [C65_pmt_fv rate n pv fv hr (by exact_mod_cast hn) b] at this
  linarith

/-- **C65.** `IPMT` is wrong from the second period on: its balance moves the wrong way by the interest of the first period, so the interest of the
second period differs from `rate` times the balance of the account (which is what it is in the first period) unless nothing is owed. -/
theorem C65_ipmt_wrong (rate pv fv : ℝ) (n : ℕ) (hr : rate ≠ 0) (hpv : pv ≠ 0) :
    Fin'.interest realArith rate 1 false n pv fv false ≠ account rate (Fin'.level realArith rate n pv fv false) false pv 1 * rate := by
  unfold Fin'.interest Fin'.level
  simp only [realArith, hr, decide_false, Bool.false_eq_true, if_false, account, Fin'.balanceLoop, Bool.false_and]
  intro h
  have := mul_right_cancel₀ hr h
  have h2 : pv * rate = 0 := by linarith
  rcases mul_eq_zero.1 h2 with h | h
  · exact hpv h
  · exact hr h

/-- The same in floating point: a loan of 3 at 100 % over 2 periods has payments of 4, and 2 are owed during the second period; but `IPMT` gives -4
for it, neither 2 nor -2. -/
theorem C65_ipmt_wrong_f64 (X : Ext) (h : X.powf (.fin 2) (.fin 2) = .fin 4) :
    fn X c!"PMT" [.num (.fin 1), .num (.fin 2), .num (.fin 3)] = .ok (.num (.fin (-4))) ∧
    fn X c!"IPMT" [.num (.fin 1), .num (.fin 2), .num (.fin 2), .num (.fin 3)] = .ok (.num (.fin (-4))) ∧
    account 1 (-4) false 3 1 = 2 ∧ account 1 (-4) false 3 2 = 0 := by
  have e : F64.add Fin'.one (.fin 1) = .fin 2 := by decide +kernel
  refine ⟨?_, ?_, by norm_num [account], by norm_num [account]⟩
  · rw [fn_eq X _ _ (by decide)]
    change (do return Value.num (Fin'.level (Fin'.f64Arith X) (.fin 1) (.fin 2) (.fin 3) (.zero false) false) : Res Value) = _
    have : Fin'.level (Fin'.f64Arith X) (.fin 1) (.fin 2) (.fin 3) (.zero false) false = .fin (-4) := by
      change F64.div (F64.neg (F64.add (F64.mul (.fin 3) (X.powf (F64.add Fin'.one (.fin 1)) (.fin 2))) (.zero false)))
        (F64.mul (F64.div (F64.sub (X.powf (F64.add Fin'.one (.fin 1)) (.fin 2)) Fin'.one) (.fin 1)) Fin'.one) = _
      rw [e, h]; decide +kernel
    rw [this]; rfl
  · rw [fn_eq X _ _ (by decide)]
    change (do return Value.num (Fin'.interest (Fin'.f64Arith X) (.fin 1) 1 false (.fin 2) (.fin 3) (.zero false) false) : Res Value) = _
    have : Fin'.interest (Fin'.f64Arith X) (.fin 1) 1 false (.fin 2) (.fin 3) (.zero false) false = .fin (-4) := by
      change F64.mul (F64.add (.fin 3) (F64.sub (F64.div (F64.neg (F64.add (F64.mul (.fin 3) (X.powf (F64.add Fin'.one (.fin 1)) (.fin 2))) (.zero false)))
        (F64.mul (F64.div (F64.sub (X.powf (F64.add Fin'.one (.fin 1)) (.fin 2)) Fin'.one) (.fin 1)) Fin'.one)) (F64.mul (.fin 3) (.fin 1)))) (.fin 1) = _
      rw [e, h]; decide +kernel
    rw [this]; rfl

/-- **C65 (partial).** In the first period `IPMT` is the interest on the amount borrowed, or nothing when paid at the beginning; at rate 0 it is
nothing in every period. -/
theorem C65_ipmt_first_partial (rate pv fv : ℝ) (n : ℕ) (pmt : ℝ) :
    Fin'.interest realArith rate 0 true n pv fv false = account rate pmt false pv 0 * rate ∧
    Fin'.interest realArith rate 0 true n pv fv true = 0 ∧
    ∀ k first b, Fin'.interest realArith 0 k first n pv fv b = 0 := by
  refine ⟨?_, ?_, ?_⟩
  · unfold Fin'.interest
    by_cases h : rate = 0
    · subst h; simp [realArith]
    · simp [realArith, h, Fin'.balanceLoop, account]
  · unfold Fin'.interest
    by_cases h : rate = 0
    · subst h; simp [realArith]
    · simp [realArith, h]
  · intros; simp [Fin'.interest, realArith]

example : (-1 : ℝ) < 1 / 10 ∧ (0 : ℝ) < 12 := by norm_num
