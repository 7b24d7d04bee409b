import Verif.Model.Value
import Verif.Model.JsonText
import Verif.Spec.Binary64
/-! How the standard library of Rust writes doubles (`{}`, `{:?}`, `{:.k}`), and how serde_json does, as their documentation says. The model takes these texts from
outside (`Ext.fmt`, `Ext.dbgNum`, `Ext.fmtFix`, `JsonText.Floats`); here is what is known about them. Where two texts are equally good the choice is left open. -/

namespace NumText

open Spec

/-- `m · 10^e` -/
def dec (m : ℕ) (e : ℤ) : ℚ := m * 10 ^ e

/-- `m · 10^e` is a decimal number with as few digits as possible of those that are read as the double `q`, and of those with so few digits it is nearest
to `q`. -/
structure Shortest (q : ℚ) (m : ℕ) (e : ℤ) : Prop where
  back : IsRounded (dec m e) (.fin q)
  short : ∀ m' e' n, IsRounded (dec m' e') (.fin q) → m' < 10 ^ n → m < 10 ^ n
  near : ∀ m' e', IsRounded (dec m' e') (.fin q) → (∀ n, m < 10 ^ n → m' < 10 ^ n) → |dec m e - q| ≤ |dec m' e' - q|

/-- A sign. -/
def sign (neg : Bool) : Str := if neg then c!"-" else []

/-- The digits of `m`. -/
def digits (m : ℕ) : Str := Nat.toDigits 10 m

/-- So many zeros. -/
def zeros (n : ℕ) : Str := List.replicate n '0'

/-- `m · 10^e` without an exponent; a whole number is followed by `whole`. -/
def plain (whole : Str) (m : ℕ) (e : ℤ) : Str :=
  if 0 ≤ e then digits m ++ (zeros e.toNat ++ whole)
  else if 0 < (digits m).length + e then
    (digits m).take ((digits m).length + e).toNat ++ '.' :: (digits m).drop ((digits m).length + e).toNat
  else '0' :: '.' :: (zeros (-((digits m).length + e)).toNat ++ digits m)

/-- `m · 10^e` with one digit before the point and an exponent. -/
def scientific (m : ℕ) (e : ℤ) : Str :=
  (digits m).take 1 ++ ((if (digits m).length = 1 then [] else '.' :: (digits m).drop 1) ++ 'e' :: Str.showInt ((digits m).length + e - 1))

/-- `{}`: the shortest decimal number, without exponent. -/
def IsDisplay : F64 → Str → Prop
  | .nan, t => t = c!"NaN"
  | .inf neg, t => t = sign neg ++ c!"inf"
  | .zero neg, t => t = sign neg ++ c!"0"
  | .fin q, t => ∃ m e, Shortest |q| m e ∧ t = sign (decide (q < 0)) ++ plain [] m e

/-- `{:?}`: the same with `.0` after whole numbers; numbers from 10^16 on and below 10^-4 have an exponent. -/
def IsDebug : F64 → Str → Prop
  | .nan, t => t = c!"NaN"
  | .inf neg, t => t = sign neg ++ c!"inf"
  | .zero neg, t => t = sign neg ++ c!"0.0"
  | .fin q, t => ∃ m e, Shortest |q| m e ∧
      t = sign (decide (q < 0)) ++ if 1 / 10 ^ 4 ≤ |q| ∧ |q| < 10 ^ 16 then plain c!".0" m e else scientific m e

/-- `n / 10^k` with `k` digits after the point. -/
def fixed (k n : ℕ) : Str :=
  if k = 0 then digits n
  else
    let ds := zeros (k + 1 - (digits n).length) ++ digits n
    ds.take (ds.length - k) ++ '.' :: ds.drop (ds.length - k)

/-- `{:.k}`: a multiple of `10^-k` nearest to the number, with `k` digits after the point. -/
def IsFixed (k : ℕ) : F64 → Str → Prop
  | .nan, t => t = c!"NaN"
  | .inf neg, t => t = sign neg ++ c!"inf"
  | .zero neg, t => t = sign neg ++ fixed k 0
  | .fin q, t => ∃ n : ℕ, |n - |q| * 10 ^ k| ≤ 1 / 2 ∧ t = sign (decide (q < 0)) ++ fixed k n

/-- Numbers are written as the standard library does. -/
structure Std (X : Ext) : Prop where
  display : ∀ x, IsDouble x → IsDisplay x (X.fmt x)
  debug : ∀ x, IsDouble x → IsDebug x (X.dbgNum x)
  fix : ∀ k x, IsDouble x → IsFixed k x (X.fmtFix k x)

/-- The text of a finite double in JSON (the library `ryu`): the shortest decimal number, with an exponent unless the point stands among or near the digits. -/
def IsJson : F64 → Str → Prop
  | .zero neg, t => t = sign neg ++ c!"0.0"
  | .fin q, t => ∃ m e, Shortest |q| m e ∧
      t = sign (decide (q < 0)) ++ if -5 < (digits m).length + e ∧ (digits m).length + e ≤ 16 then plain c!".0" m e else scientific m e
  | _, _ => True

/-- JSON numbers are written in this way and read with correct rounding (serde_json with its feature `float_roundtrip`); what is out of range is refused. -/
structure JsonStd (N : JsonText.Floats) : Prop where
  write : ∀ x, IsDouble x → IsJson x (N.write x)
  read : ∀ t x, F64.parse t = some x → x.isFinite = true → N.read t = some x
  only : ∀ t x, N.read t = some x → F64.parse t = some x ∧ x.isFinite = true

end NumText
