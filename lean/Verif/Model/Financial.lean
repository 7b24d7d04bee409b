import Verif.Model.Arithmetic
/-! `src/runtime/financial.rs`. -/

namespace Fin'

/-- `args[i].as_number().ok_or_else(..)?`, models e.g. `src/runtime/financial.rs:11`. -/
def need (args : List Value) (i : Nat) (err : String) : Res F64 :=
  match argAt args i with
  | some v => match v.asNumber with
    | some n => .ok n
    | none => fail err
  | none => panics "index out of bounds"

/-- `args.get(i).and_then(|v| v.as_number()).unwrap_or(d)`, models e.g. `src/runtime/financial.rs:14`. -/
def opt (args : List Value) (i : Nat) (d : F64) : F64 :=
  match argAt args i with
  | some v => v.asNumber.getD d
  | none => d

/-- The constant 1.0. -/
def one : F64 := .fin 1
/-- The constant 0.0. -/
def zero : F64 := .zero false

/-- The arithmetic the formulas of `src/runtime/financial.rs` are written in. The code uses `f64`; keeping it as a parameter allows to say
what the formulas compute in exact arithmetic. -/
structure Arith (α : Type) where
  add : α → α → α
  sub : α → α → α
  mul : α → α → α
  div : α → α → α
  neg : α → α
  pow : α → α → α
  one : α
  zero : α
  /-- `x == 0.0` -/
  isZero : α → Bool

/-- The arithmetic of `f64`. -/
def f64Arith (X : Ext) : Arith F64 where
  add := F64.add
  sub := F64.sub
  mul := F64.mul
  div := F64.div
  neg := F64.neg
  pow := X.powf
  one := one
  zero := zero
  isZero := fun r => F64.feq r zero

/-- The level payment at a non-zero rate. Models `src/runtime/financial.rs:26-28` and `120-121`. -/
def payment {α : Type} (A : Arith α) (rate nper pv fv : α) (atBeginning : Bool) : α :=
  let pvif := A.pow (A.add A.one rate) nper
  A.div (A.neg (A.add (A.mul pv pvif) fv))
    (A.mul (A.div (A.sub pvif A.one) rate) (if atBeginning then A.add A.one rate else A.one))

/-- The formula of `PMT`. Models `src/runtime/financial.rs:22-29`. -/
def level {α : Type} (A : Arith α) (rate nper pv fv : α) (atBeginning : Bool) : α :=
  if A.isZero rate then A.div (A.neg (A.add pv fv)) nper else payment A rate nper pv fv atBeginning

/-- The formula of `FV`. Models `src/runtime/financial.rs:87-95`. -/
def future {α : Type} (A : Arith α) (rate nper pmt pv : α) (atBeginning : Bool) : α :=
  if A.isZero rate then A.sub (A.neg pv) (A.mul pmt nper)
  else
    let cf := A.pow (A.add A.one rate) nper
    let af := A.mul (A.div (A.sub cf A.one) rate) (if atBeginning then A.add A.one rate else A.one)
    A.sub (A.mul (A.neg pv) cf) (A.mul pmt af)

/-- `n` rounds of the balance recurrence. Models `src/runtime/financial.rs:124-128`. -/
def balanceLoop {α : Type} (A : Arith α) (rate pmt : α) (atBeginning : Bool) : Nat → α → α
  | 0, b => b
  | n + 1, b =>
    let interest := A.mul b rate
    let principal := if atBeginning then A.sub pmt (A.div interest (A.add A.one rate)) else A.sub pmt interest
    balanceLoop A rate pmt atBeginning n (A.add b principal)

/-- The formula of `IPMT`: `rounds` is `per as i32 - 1`, `first` is `per == 1.0`. Models `src/runtime/financial.rs:116-136`. -/
def interest {α : Type} (A : Arith α) (rate : α) (rounds : Nat) (first : Bool) (nper pv fv : α) (atBeginning : Bool) : α :=
  if A.isZero rate then A.zero
  else
    let p := payment A rate nper pv fv atBeginning
    let balance := balanceLoop A rate p atBeginning rounds pv
    if atBeginning && first then A.zero else A.mul balance rate

/-- `PMT`. Models `src/runtime/financial.rs:6-32`. -/
def pmt (X : Ext) : Builtin := fun args => do
  if args.length < 3 ∨ args.length > 5 then
    fail "PMT expects 3-5 arguments: rate, nper, pv, [fv], [type]"
  else
    let rate ← need args 0 "PMT rate must be a number"
    let nper ← need args 1 "PMT nper must be a number"
    let pv ← need args 2 "PMT pv must be a number"
    let fv := opt args 3 zero
    let ty := opt args 4 zero
    if F64.fle nper zero then fail "PMT nper must be positive"
    else
      return .num (level (f64Arith X) rate nper pv fv (F64.fne ty zero))

/-- The yearly rate of `DB`. Models `src/runtime/financial.rs:51`. -/
def writeOffRate {α : Type} (A : Arith α) (cost salvage life : α) : α :=
  A.sub A.one (A.pow (A.div salvage cost) (A.div A.one life))

/-- `n` rounds of `book_value -= book_value * rate`. Models `src/runtime/financial.rs:59-61`. -/
def depreciate {α : Type} (A : Arith α) (rate : α) : Nat → α → α
  | 0, b => b
  | n + 1, b => depreciate A rate n (A.sub b (A.mul b rate))

/-- The formula of `DB`, with the constant 12.0: `first` is `period == 1.0`, `rounds` is `period as i32 - 2`, `last` is
`period as i32 == life as i32 && month < 12.0`. Models `src/runtime/financial.rs:53-67`. -/
def writeOff {α : Type} (A : Arith α) (twelve cost rate month : α) (first : Bool) (rounds : Nat) (last : Bool) : α :=
  let firstYear := A.div (A.mul (A.mul cost rate) month) twelve
  if first then firstYear
  else
    let book := depreciate A rate rounds (A.sub cost firstYear)
    if last then A.div (A.mul (A.mul book rate) (A.sub twelve month)) twelve else A.mul book rate

/-- `DB`. Models `src/runtime/financial.rs:33-71`. The loop `2..=(period as i32 - 1)` runs
`max(period as i32 - 2, 0)` times; `period ≥ 0`, so the subtraction cannot overflow. -/
def db (X : Ext) : Builtin := fun args => do
  if args.length < 4 ∨ args.length > 5 then
    fail "DB expects 4-5 arguments: cost, salvage, life, period, [month]"
  else
    let cost ← need args 0 "DB cost must be a number"
    let salvage ← need args 1 "DB salvage must be a number"
    let life ← need args 2 "DB life must be a number"
    let period ← need args 3 "DB period must be a number"
    let month := opt args 4 (.fin 12)
    if F64.flt cost zero || F64.flt salvage zero || F64.fle life zero || F64.flt period zero then
      fail "DB arguments must be non-negative (life must be positive)"
    else if F64.fgt period life then return .num zero
    else
      let dep := writeOff (f64Arith X) (.fin 12) cost (writeOffRate (f64Arith X) cost salvage life) month (F64.feq period one)
        (period.toI32 - 2).toNat (period.toI32 == life.toI32 && F64.flt month (.fin 12))
      return .num (if F64.feq period one then dep else F64.fmax dep zero)

/-- `FV`. Models `src/runtime/financial.rs:72-98`. -/
def fv (X : Ext) : Builtin := fun args => do
  if args.length < 3 ∨ args.length > 5 then
    fail "FV expects 3-5 arguments: rate, nper, pmt, [pv], [type]"
  else
    let rate ← need args 0 "FV rate must be a number"
    let nper ← need args 1 "FV nper must be a number"
    let pmt ← need args 2 "FV pmt must be a number"
    let pv := opt args 3 zero
    let ty := opt args 4 zero
    if F64.flt nper zero then fail "FV nper must be non-negative"
    else return .num (future (f64Arith X) rate nper pmt pv (F64.fne ty zero))

/-- `IPMT`. Models `src/runtime/financial.rs:99-138`. The loop `1..(per as i32)` runs
`max(per as i32 - 1, 0)` times. -/
def ipmt (X : Ext) : Builtin := fun args => do
  if args.length < 4 ∨ args.length > 6 then
    fail "IPMT expects 4-6 arguments: rate, per, nper, pv, [fv], [type]"
  else
    let rate ← need args 0 "IPMT rate must be a number"
    let per ← need args 1 "IPMT per must be a number"
    let nper ← need args 2 "IPMT nper must be a number"
    let pv ← need args 3 "IPMT pv must be a number"
    let fv := opt args 4 zero
    let ty := opt args 5 zero
    if F64.flt per one || F64.fgt per nper || F64.fle nper zero then
      fail "IPMT period must be between 1 and nper"
    else
      return .num (interest (f64Arith X) rate (per.toI32 - 1).toNat (F64.feq per one) nper pv fv (F64.fne ty zero))

/-- The arms of `src/runtime/financial.rs:5-138`. -/
def table (X : Ext) : List (Str × Builtin) :=
  [(c!"PMT", pmt X), (c!"DB", db X), (c!"FV", fv X), (c!"IPMT", ipmt X)]

end Fin'

/-- Models `src/runtime/financial.rs:4-141` (`exec_financial`). -/
def execFinancial (X : Ext) (name : Str) (args : List Value) : Res Value :=
  match lookupFn name (Fin'.table X) with
  | some f => f args
  | none => fail "Unknown financial function: {}" [name]
