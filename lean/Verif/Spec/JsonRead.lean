import Verif.Model.JsonRead
import Verif.Spec.JsonText
import Verif.Spec.NumText
import Verif.Spec.Text
/-! The value of a JSON number, digit by digit, and what is said about the numbers that survive. -/

namespace JsonRead

open Spec JsonText NumText

/-- The exponent of a JSON number and its value. -/
inductive ExpText : Str → ℤ → Prop where
  | none : ExpText [] 0
  | plus {c : Char} {s ds : Str} : (c = 'e' ∨ c = 'E') → (s = [] ∨ s = c!"+") → JsonText.Spec.Digits ds → ExpText (c :: (s ++ ds)) (natOf ds)
  | minus {c : Char} {ds : Str} : (c = 'e' ∨ c = 'E') → JsonText.Spec.Digits ds → ExpText (c :: '-' :: ds) (-(natOf ds : ℤ))

/-- `t` is a JSON number with the digits of `m`, the last `f` of them after the point, and the exponent `x`: so its value is `m · 10^(x - f)`, with a minus sign if `neg`. -/
def Written (t : Str) (neg : Bool) (m f : ℕ) (x : ℤ) : Prop :=
  ∃ ds fs e, JsonText.Spec.IntPart ds ∧ (∀ c ∈ fs, '0' ≤ c ∧ c ≤ '9') ∧ ExpText e x ∧ natOf (ds ++ fs) = m ∧ fs.length = f ∧
    t = sign neg ++ (ds ++ ((if fs = [] then [] else '.' :: fs) ++ e))

/-- The double nearest to `m · 10^k`, with the sign. -/
def Nearest (neg : Bool) (m : ℕ) (k : ℤ) (x : F64) : Prop :=
  if m = 0 then x = .zero neg else IsRounded (if neg then -dec m k else dec m k) x

/-- JSON numbers are written as the shortest decimals and read as serde_json does without the feature `float_roundtrip`. -/
structure Real (N : Floats) : Prop where
  write : ∀ x, IsDouble x → IsJson x (N.write x)
  read : ∀ t, N.read t = Reader.read t

/-- The numbers with at most 15 digits, of which at most 22 follow the point. -/
def Short (x : F64) : Prop := ∃ (neg : Bool) (m k : ℕ), m < 10 ^ 15 ∧ k ≤ 22 ∧ Nearest neg m (-k) x

/-- The whole numbers up to 1801439850948198, which is a tenth of 2^54. -/
def Whole (x : F64) : Prop := ∃ i : ℤ, |i| ≤ 1801439850948198 ∧ x = F64.ofInt i

end JsonRead
