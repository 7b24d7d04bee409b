import Verif.Model.JsonText
/-! How serde_json 1.0.149 reads a number that is not an integer of 64 bits, with the features that `Cargo.toml:32` asks for (`serde_json = "1.0"`: the default ones, so without
`float_roundtrip`). The library is not part of the repository; this is its algorithm (`Deserializer::parse_integer`, `parse_long_integer`, `parse_decimal`,
`parse_decimal_overflow`, `parse_exponent`, `parse_exponent_overflow` and `f64_from_parts` of its file `src/de.rs`): digits are collected in a `u64` as long as they fit, and the result is multiplied or divided by a
power of ten, in double precision. It is one `read` for `JsonText.Floats`.

Simplified: exponents are integers without bounds while digits are counted, where the library counts with an `i32` (texts shorter than 2^31 characters do not tell them apart). -/

namespace JsonText.Reader

/-- The constants `1e0` to `1e308` (`POW10` of the library, used for all readings of JSON, e.g. `src/runtime/json.rs:25`). -/
def pow10 (k : Nat) : F64 := F64.ofNat (10 ^ k)

/-- The loop of `f64_from_parts` (reached from `src/lib.rs:67`, `src/runtime/evaluator.rs:294`, `src/runtime/json.rs:25`): what overflows is refused. -/
def scale (f : F64) (e : Int) : Option F64 :=
  if e.natAbs ≤ 308 then
    if 0 ≤ e then
      match F64.mul f (pow10 e.natAbs) with
      | .inf _ => none
      | g => some g
    else some (F64.div f (pow10 e.natAbs))
  else if F64.feq f (.zero false) then some f
  else if 0 ≤ e then none
  else scale (F64.div f (pow10 308)) (e + 308)
termination_by e.natAbs
decreasing_by omega

/-- `f64_from_parts`: `sig · 10^e`, computed in double precision (as for `scale`, from `src/lib.rs:67` and the others). -/
def fromParts (neg : Bool) (sig : Nat) (e : Int) : Option F64 :=
  match scale (F64.ofNat sig) e with
  | some f => some (if neg then F64.neg f else f)
  | none => none

/-- The value of a digit. -/
def digit (c : Char) : Nat := c.toNat - 48

/-- The digits of an exponent; nothing if they do not fit into an `i32` (`parse_exponent`). -/
def expDigits : Nat → Str → Option Nat
  | e, [] => some e
  | e, c :: r =>
    if isDigit c then (if e * 10 + digit c ≤ 2 ^ 31 - 1 then expDigits (e * 10 + digit c) r else none)
    else some e

/-- `saturating_add` and `saturating_sub` of `i32`. -/
def saturate (e : Int) : Int := max (-(2 ^ 31)) (min e (2 ^ 31 - 1))

/-- `parse_exponent` after the letter, and `parse_exponent_overflow` (from `src/lib.rs:67` and the others). -/
def exponentPart (neg : Bool) (sig : Nat) (start : Int) (s : Str) : Option F64 :=
  let (sign, r) := expSign s
  match expDigits 0 r with
  | some e => fromParts neg sig (saturate (if sign = c!"-" then start - e else start + e))
  | none => if sig ≠ 0 ∧ sign ≠ c!"-" then none else some (.zero neg)

/-- What follows the digits: an exponent or the end. -/
def afterDigits (neg : Bool) (sig : Nat) (e : Int) : Str → Option F64
  | [] => fromParts neg sig e
  | c :: r => if c = 'e' || c = 'E' then exponentPart neg sig e r else fromParts neg sig e

/-- `parse_decimal` after the point, and `parse_decimal_overflow`: digits that do not fit are passed over (from `src/lib.rs:67` and the others). -/
def decimals (neg : Bool) : Nat → Int → Str → Option F64
  | sig, e, [] => afterDigits neg sig e []
  | sig, e, c :: r =>
    if isDigit c then
      if sig * 10 + digit c < 2 ^ 64 then decimals neg (sig * 10 + digit c) (e - 1) r
      else afterDigits neg sig e (r.dropWhile isDigit)
    else afterDigits neg sig e (c :: r)

/-- `parse_number`: a fraction, an exponent or the end after the digits before the point. The two cases of integers (`-0`, and what does not fit into an `i64`) have the value that
`fromParts` gives. -/
def afterInt (neg : Bool) (sig : Nat) (e : Int) : Str → Option F64
  | '.' :: r => decimals neg sig e r
  | r => afterDigits neg sig e r

/-- `parse_long_integer`: digits that do not fit are counted. -/
def longInteger (neg : Bool) (sig : Nat) : Int → Str → Option F64
  | e, [] => afterInt neg sig e []
  | e, c :: r => if isDigit c then longInteger neg sig (e + 1) r else afterInt neg sig e (c :: r)

/-- `parse_integer`. -/
def integer (neg : Bool) : Nat → Str → Option F64
  | sig, [] => afterInt neg sig 0 []
  | sig, c :: r =>
    if isDigit c then
      if sig * 10 + digit c < 2 ^ 64 then integer neg (sig * 10 + digit c) r
      else longInteger neg sig 0 (c :: r)
    else afterInt neg sig 0 (c :: r)

/-- The value of a number text of JSON. -/
def read (s : Str) : Option F64 := integer (minus s).1 0 (minus s).2

end JsonText.Reader
