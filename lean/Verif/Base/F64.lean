import Verif.Base.Str
/-!
IEEE-754 binary64 numbers, as used by Rust's `f64`.

`fin q` is the finite non-zero number with value `q`. Arithmetic is "exact rational result,
then round to nearest, ties to even" (`F64.round`). All NaN payloads are identified.
-/

inductive F64 where
  | nan
  | inf (neg : Bool)
  | zero (neg : Bool)
  | fin (q : Rat)
deriving DecidableEq, Repr

namespace F64

/-- `2 ^ e` for an integer exponent. -/
def pow2 (e : Int) : Rat :=
  if 0 ≤ e then ((2 ^ e.toNat : Nat) : Rat) else 1 / ((2 ^ (-e).toNat : Nat) : Rat)

/-- Round a rational to the nearest integer, ties to even. -/
def roundEven (q : Rat) : Int :=
  let f := q.floor
  let r := q - (f : Rat)
  if r < 1 / 2 then f
  else if 1 / 2 < r then f + 1
  else if f % 2 = 0 then f else f + 1

/-- `⌊log₂ q⌋` for a positive rational `q`. -/
def log2 (q : Rat) : Int :=
  let e : Int := (Nat.log2 q.num.toNat : Int) - (Nat.log2 q.den : Int)
  -- now 2^(e-1) < q < 2^(e+1)
  if pow2 e ≤ q then e else e - 1

/-- Spacing of binary64 numbers around the positive rational `q`: `2^(max(⌊log₂ q⌋,-1022) - 52)`. -/
def ulp (q : Rat) : Rat := pow2 (max (log2 q) (-1022) - 52)

/-- The largest finite binary64 number is `2^1024 - 2^971`; results that round to `2^1024`
overflow to infinity. -/
def overflowAt : Rat := ((2 ^ 1024 : Nat) : Rat)

/-- Round a non-zero rational to binary64 (nearest, ties to even), with gradual underflow and
overflow to infinity. -/
def roundPos (neg : Bool) (q : Rat) : F64 :=
  let n := roundEven (q / ulp q)
  let v := (n : Rat) * ulp q
  if v = 0 then zero neg
  else if overflowAt ≤ v then inf neg
  else fin (if neg then -v else v)

/-- Round a rational to binary64; `z` is the sign of an exact zero. -/
def round (q : Rat) (z : Bool := false) : F64 :=
  if q = 0 then zero z
  else if q < 0 then roundPos true (-q)
  else roundPos false q

/-- Value of a finite number (infinities and NaN are sent to 0 and never asked for). -/
def toRat : F64 → Rat
  | fin q => q
  | _ => 0

def isNan : F64 → Bool
  | nan => true
  | _ => false

/-- `f64::is_finite`. -/
def isFinite : F64 → Bool
  | nan => false
  | inf _ => false
  | _ => true

/-- Sign bit (`f64::is_sign_negative`; the sign of NaN is not modelled). -/
def signBit : F64 → Bool
  | nan => false
  | inf s => s
  | zero s => s
  | fin q => decide (q < 0)

/-- Integer constant that is exactly representable. -/
def ofIntExact (i : Int) : F64 := if i = 0 then zero false else fin (i : Rat)

/-- `i as f64` for an integer. -/
def ofInt (i : Int) : F64 := round (i : Rat)

/-- `n as f64` for an unsigned integer. -/
def ofNat (n : Nat) : F64 := ofInt n

/-- Unary minus. -/
def neg : F64 → F64
  | nan => nan
  | inf s => inf !s
  | zero s => zero !s
  | fin q => fin (-q)

/-- `a + b`. The zero produced by cancellation is `+0`; `-0 + -0 = -0`. -/
def add : F64 → F64 → F64
  | nan, _ => nan
  | _, nan => nan
  | inf s, inf t => if s = t then inf s else nan
  | inf s, _ => inf s
  | _, inf t => inf t
  | zero s, zero t => zero (s && t)
  | zero _, fin q => fin q
  | fin q, zero _ => fin q
  | fin p, fin q => round (p + q)

/-- `a - b` is `a + (-b)` in IEEE arithmetic. -/
def sub (a b : F64) : F64 := add a (neg b)

/-- `a * b`. -/
def mul : F64 → F64 → F64
  | nan, _ => nan
  | _, nan => nan
  | inf _, zero _ => nan
  | zero _, inf _ => nan
  | inf s, b => inf (s != signBit b)
  | a, inf t => inf (signBit a != t)
  | zero s, b => zero (s != signBit b)
  | a, zero t => zero (signBit a != t)
  | fin p, fin q => round (p * q)

/-- `a / b`. -/
def div : F64 → F64 → F64
  | nan, _ => nan
  | _, nan => nan
  | inf _, inf _ => nan
  | zero _, zero _ => nan
  | inf s, b => inf (s != signBit b)
  | a, inf t => zero (signBit a != t)
  | zero s, b => zero (s != signBit b)
  | a, zero t => inf (signBit a != t)
  | fin p, fin q => round (p / q)

/-- Integer part of a rational, towards zero. -/
def truncRat (q : Rat) : Int := if 0 ≤ q then q.floor else -((-q).floor)

/-- `a % b` (C `fmod`): exact remainder with the sign of the dividend. -/
def rem : F64 → F64 → F64
  | nan, _ => nan
  | _, nan => nan
  | inf _, _ => nan
  | _, zero _ => nan
  | a, inf _ => a
  | zero s, _ => zero s
  | fin p, fin q =>
      let r := p - q * (truncRat (p / q) : Rat)
      if r = 0 then zero (decide (p < 0)) else fin r

/-- `f64::abs`. -/
def abs : F64 → F64
  | nan => nan
  | inf _ => inf false
  | zero _ => zero false
  | fin q => fin (if q < 0 then -q else q)

/-- A rounded-to-integer result `i` of an operand with sign `s` (zero results keep the sign). -/
def ofRounded (s : Bool) (i : Int) : F64 := if i = 0 then zero s else fin (i : Rat)

/-- `f64::floor`. -/
def floor : F64 → F64
  | fin q => ofRounded (decide (q < 0)) q.floor
  | x => x

/-- `f64::ceil`. -/
def ceil : F64 → F64
  | fin q => ofRounded (decide (q < 0)) q.ceil
  | x => x

/-- `f64::trunc`. -/
def trunc : F64 → F64
  | fin q => ofRounded (decide (q < 0)) (truncRat q)
  | x => x

/-- `f64::round` (half away from zero). -/
def roundHalfAway : F64 → F64
  | fin q => ofRounded (decide (q < 0)) (if q < 0 then -((-q + 1/2).floor) else (q + 1/2).floor)
  | x => x

/-- `f64::fract`: `x - x.trunc()`. -/
def fract (x : F64) : F64 := sub x (trunc x)

/-- IEEE `==`. -/
def feq : F64 → F64 → Bool
  | nan, _ => false
  | _, nan => false
  | inf s, inf t => s == t
  | inf _, _ => false
  | _, inf _ => false
  | a, b => decide (a.toRat = b.toRat)

/-- IEEE `<`. -/
def flt : F64 → F64 → Bool
  | nan, _ => false
  | _, nan => false
  | inf s, inf t => s && !t
  | inf s, _ => s
  | _, inf t => !t
  | a, b => decide (a.toRat < b.toRat)

/-- IEEE `<=`. -/
def fle : F64 → F64 → Bool
  | nan, _ => false
  | _, nan => false
  | inf s, inf t => s || !t
  | inf s, _ => s
  | _, inf t => !t
  | a, b => decide (a.toRat ≤ b.toRat)

/-- IEEE `>`. -/
def fgt (a b : F64) : Bool := flt b a
/-- IEEE `>=`. -/
def fge (a b : F64) : Bool := fle b a
/-- IEEE `!=`. -/
def fne (a b : F64) : Bool := !feq a b

/-- `f64::min`: a NaN operand is ignored. (Between zeros of different sign the library may return
either; the model returns the first operand.) -/
def fmin (a b : F64) : F64 :=
  match a, b with
  | nan, b => b
  | a, nan => a
  | a, b => if flt b a then b else a

/-- `f64::max`: a NaN operand is ignored. (Same remark on signed zeros.) -/
def fmax (a b : F64) : F64 :=
  match a, b with
  | nan, b => b
  | a, nan => a
  | a, b => if flt a b then b else a

/-- Saturating conversion to an integer range `[lo, hi]` (`as i64`, `as i32`, `as usize`, ...):
truncation towards zero, NaN gives 0. -/
def toIntSat (lo hi : Int) : F64 → Int
  | nan => 0
  | inf true => lo
  | inf false => hi
  | zero _ => 0
  | fin q => let t := truncRat q; if t < lo then lo else if hi < t then hi else t

def i64Min : Int := -9223372036854775808
def i64Max : Int := 9223372036854775807
def i32Min : Int := -2147483648
def i32Max : Int := 2147483647
def u64Max : Int := 18446744073709551615

/-- `x as i64` (also `as isize` on 64-bit targets). -/
def toI64 : F64 → Int := toIntSat i64Min i64Max
/-- `x as i32`. -/
def toI32 : F64 → Int := toIntSat i32Min i32Max
/-- `x as usize` on 64-bit targets. -/
def toUsize (x : F64) : Nat := (toIntSat 0 u64Max x).toNat

/-! ### Decimal text to number (`str::parse::<f64>`, core library) -/

/-- Value of a decimal digit character. -/
def digitVal (c : Char) : Nat := c.toNat - '0'.toNat

/-- Decimal digits. -/
def isDigit (c : Char) : Bool := '0' ≤ c && c ≤ '9'

/-- Value of a digit string. -/
def digitsVal (s : Str) : Nat := s.foldl (fun a c => a * 10 + digitVal c) 0

/-- Value of `int.frac × 10^exp`. -/
def decimalVal (int frac : Str) (exp : Int) : Rat :=
  let m : Nat := digitsVal (int ++ frac)
  let e : Int := exp - frac.length
  if 0 ≤ e then ((m * 10 ^ e.toNat : Nat) : Rat) else (m : Rat) / ((10 ^ (-e).toNat : Nat) : Rat)

/-- Optional sign: `+` or `-`. -/
def takeSign : Str → Bool × Str
  | '-' :: cs => (true, cs)
  | '+' :: cs => (false, cs)
  | cs => (false, cs)

/-- Exponent suffix: nothing, or `e`/`E`, optional sign and at least one digit up to the end. -/
def parseExp : Str → Option Int
  | [] => some 0
  | c :: cs =>
      if c = 'e' ∨ c = 'E' then
        let (s, ds) := takeSign cs
        if ds.isEmpty || !ds.all isDigit then none
        else some (if s then -(digitsVal ds : Int) else (digitsVal ds : Int))
      else none

/-- `str::parse::<f64>`: sign, then `inf`/`infinity`/`nan` (any case) or
digits with at most one point and at least one digit, then an optional exponent. -/
def parse (s : Str) : Option F64 :=
  let (ng, body) := takeSign s
  if Str.eqIgnoreCase body c!"inf" || Str.eqIgnoreCase body c!"infinity" then some (inf ng)
  else if Str.eqIgnoreCase body c!"nan" then some nan
  else
    let int := body.takeWhile isDigit
    let rest := body.dropWhile isDigit
    let (frac, rest2) : Str × Str := match rest with
      | '.' :: r => (r.takeWhile isDigit, r.dropWhile isDigit)
      | r => ([], r)
    if int.isEmpty && frac.isEmpty then none
    else match parseExp rest2 with
      | none => none
      | some e =>
        let v := decimalVal int frac e
        some (if v = 0 then zero ng else roundPos ng v)

end F64
