import Verif.Model.Utils
/-! `src/runtime/arithmetic.rs`: one definition per function, then the dispatch table. -/

/-- A builtin function on evaluated arguments. -/
abbrev Builtin := List Value → Res Value

/-- `args.get(i)`. -/
abbrev argAt (args : List Value) (i : Nat) : Option Value := args[i]?

/-- Find an entry by name (a `match name { .. }` with one arm per entry; the first arm wins). -/
def lookupFn (name : Str) : List (Str × Builtin) → Option Builtin
  | [] => none
  | (k, f) :: rest => if name = k then some f else lookupFn name rest

namespace Arith

mutual
/-- Models `src/runtime/arithmetic.rs:8-21` (`sum_value`). -/
def sumValue (acc : F64) : Value → F64
  | .num n => F64.add acc n
  | .cur n => F64.add acc n
  | .arr items => sumValues acc items
  | _ => acc
/-- Models the loops of `src/runtime/arithmetic.rs:12,22`. -/
def sumValues (acc : F64) : List Value → F64
  | [] => acc
  | v :: vs => sumValues (sumValue acc v) vs
end

/-- `SUM`. Models `src/runtime/arithmetic.rs:6-24`. -/
def sum : Builtin := fun args => .ok (.num (sumValues (.zero false) args))

/-- `ROUND`. Models `src/runtime/arithmetic.rs:25-31`. -/
def round (X : Ext) : Builtin := fun args =>
  match args with
  | [] => .ok (.num (.zero false))
  | a :: rest => match a with
    | .num n =>
      let decimals : Int := match rest with
        | .num d :: _ => d.toI32
        | _ => 0
      let factor := X.pow10 (max decimals 0)
      .ok (.num (F64.div (F64.mul n factor).roundHalfAway factor))
    | _ => fail "ROUND expects number"

/-- `match args.get(i) { Some(Value::Number(n)) => *n, _ => d }`,
models e.g. `src/runtime/arithmetic.rs:33,49,55`. -/
def numAt (args : List Value) (i : Nat) (d : F64) : F64 :=
  match args[i]? with
  | some (.num n) => n
  | _ => d

/-- `CEIL`. Models `src/runtime/arithmetic.rs:32-35`. -/
def ceil : Builtin := fun args => .ok (.num (numAt args 0 (.zero false)).ceil)
/-- `FLOOR`. Models `src/runtime/arithmetic.rs:36-39`. -/
def floor : Builtin := fun args => .ok (.num (numAt args 0 (.zero false)).floor)
/-- `ABS`. Models `src/runtime/arithmetic.rs:40-43`. -/
def abs : Builtin := fun args => .ok (.num (numAt args 0 (.zero false)).abs)
/-- `SQRT`. Models `src/runtime/arithmetic.rs:44-47`. -/
def sqrt (X : Ext) : Builtin := fun args => .ok (.num (X.sqrt (numAt args 0 (.zero false))))
/-- `POW`/`POWER`. Models `src/runtime/arithmetic.rs:48-52`. -/
def pow (X : Ext) : Builtin := fun args =>
  .ok (.num (X.powf (numAt args 0 (.zero false)) (numAt args 1 (.zero false))))
/-- `MOD`. Models `src/runtime/arithmetic.rs:53-57`. -/
def mod : Builtin := fun args =>
  .ok (.num (F64.rem (numAt args 0 (.zero false)) (numAt args 1 (.fin 1))))
/-- `INT`. Models `src/runtime/arithmetic.rs:58-61`. -/
def int : Builtin := fun args => .ok (.num (numAt args 0 (.zero false)).floor)
/-- `CEILING`; the significance is read and ignored. Models `src/runtime/arithmetic.rs:62-66`. -/
def ceiling : Builtin := fun args => .ok (.num (numAt args 0 (.zero false)).ceil)

mutual
/-- Models `src/runtime/arithmetic.rs:70-81` (`visit` of `AVG`). -/
def avgVisit (acc : F64 × Nat) : Value → F64 × Nat
  | .num n => (F64.add acc.1 n, acc.2 + 1)
  | .cur n => (F64.add acc.1 n, acc.2 + 1)
  | .arr items => avgVisits acc items
  | _ => acc
/-- Models the loops of `src/runtime/arithmetic.rs:73,82`. -/
def avgVisits (acc : F64 × Nat) : List Value → F64 × Nat
  | [] => acc
  | v :: vs => avgVisits (avgVisit acc v) vs
end

/-- `AVG`/`AVERAGE`. Models `src/runtime/arithmetic.rs:67-85`. -/
def avg : Builtin := fun args =>
  let (acc, count) := avgVisits (.zero false, 0) args
  .ok (.num (if count = 0 then .zero false else F64.div acc (F64.ofNat count)))

mutual
/-- Models `src/runtime/arithmetic.rs:88-99,105-116` (`visit` of `MIN` and `MAX`, which differ in the
combining function only). -/
def extVisit (f : F64 → F64 → F64) (cur : Option F64) : Value → Option F64
  | .num n => some (match cur with | none => n | some c => f c n)
  | .cur n => some (match cur with | none => n | some c => f c n)
  | .arr items => extVisits f cur items
  | _ => cur
/-- Models the loops of `src/runtime/arithmetic.rs:91,100,108,117`. -/
def extVisits (f : F64 → F64 → F64) (cur : Option F64) : List Value → Option F64
  | [] => cur
  | v :: vs => extVisits f (extVisit f cur v) vs
end

/-- `MIN`. Models `src/runtime/arithmetic.rs:86-102`. -/
def min : Builtin := fun args => .ok (.num ((extVisits F64.fmin none args).getD (.zero false)))
/-- `MAX`. Models `src/runtime/arithmetic.rs:103-119`. -/
def max : Builtin := fun args => .ok (.num ((extVisits F64.fmax none args).getD (.zero false)))

mutual
/-- Models `src/runtime/arithmetic.rs:122-135` (`multiply_value`). -/
def mulValue (acc : F64) : Value → F64
  | .num n => F64.mul acc n
  | .cur n => F64.mul acc n
  | .arr items => mulValues acc items
  | _ => acc
/-- Models the loops of `src/runtime/arithmetic.rs:126,136`. -/
def mulValues (acc : F64) : List Value → F64
  | [] => acc
  | v :: vs => mulValues (mulValue acc v) vs
end

/-- `PRODUCT`/`MULTIPLY`. Models `src/runtime/arithmetic.rs:120-138`. -/
def product : Builtin := fun args => .ok (.num (mulValues (.fin 1) args))

/-- The arms of `src/runtime/arithmetic.rs:5-138`. -/
def table (X : Ext) : List (Str × Builtin) :=
  [(c!"SUM", sum), (c!"ROUND", round X), (c!"CEIL", ceil), (c!"FLOOR", floor), (c!"ABS", abs),
   (c!"SQRT", sqrt X), (c!"POW", pow X), (c!"POWER", pow X), (c!"MOD", mod), (c!"INT", int),
   (c!"CEILING", ceiling), (c!"AVG", avg), (c!"AVERAGE", avg), (c!"MIN", min), (c!"MAX", max),
   (c!"PRODUCT", product), (c!"MULTIPLY", product)]

end Arith

/-- Models `src/runtime/arithmetic.rs:4-141` (`exec_arithmetic`). -/
def execArithmetic (X : Ext) (name : Str) (args : List Value) : Res Value :=
  match lookupFn name (Arith.table X) with
  | some f => f args
  | none => fail "Unknown arithmetic function: {}" [name]
