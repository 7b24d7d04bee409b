import Verif.Base.F64
import Mathlib.Algebra.Order.Field.Rat
import Mathlib.Algebra.Order.Field.Power
/-!
IEEE-754 binary64 and correct rounding, stated without reference to the model's rounding
algorithm.
-/

namespace Spec

/-- The finite binary64 values: `m · 2^e` with a 53-bit significand and the exponent range of the format. -/
def IsBin64 (v : ℚ) : Prop := ∃ m e : ℤ, |m| < 2 ^ 53 ∧ -1074 ≤ e ∧ e ≤ 971 ∧ v = m * 2 ^ e

/-- A binary64 value whose last significand bit is zero (in the normal form with 53 bits, or
the subnormal form with the least exponent). -/
def IsEven (v : ℚ) : Prop := ∃ m e : ℤ, |m| < 2 ^ 53 ∧ -1074 ≤ e ∧ e ≤ 971 ∧ v = m * 2 ^ e ∧
  (2 ^ 52 ≤ |m| ∨ e = -1074) ∧ 2 ∣ m

/-- `x` is the rational `q ≠ 0` rounded to nearest, ties to even, as IEEE-754 prescribes: the
nearest representable value, the even one when two are equally near; a value of magnitude at least
`2^1024 - 2^970` goes to infinity. A zero result has the sign of `q`. -/
def IsRounded (q : ℚ) : F64 → Prop
  | .nan => False
  | .inf neg => 2 ^ 1024 - 2 ^ 970 ≤ |q| ∧ (neg = true ↔ q < 0)
  | .zero neg => (∀ w, IsBin64 w → |q| ≤ |q - w|) ∧ (neg = true ↔ q < 0)
  | .fin v => v ≠ 0 ∧ IsBin64 v ∧ |q| < 2 ^ 1024 - 2 ^ 970 ∧
      (∀ w, IsBin64 w → |q - v| ≤ |q - w|) ∧
      (∀ w, IsBin64 w → |q - w| = |q - v| → w = v ∨ IsEven v)

end Spec

namespace Spec

/-- `x` is a binary64 number: the model writes zeros as `zero` and every other finite number as `fin` of its value. -/
def IsDouble : F64 → Prop
  | .fin q => q ≠ 0 ∧ IsBin64 q
  | _ => True

end Spec
