import Verif.Model.Expr
import Verif.Model.Registry
/-! Operators and property access on values, shared by the evaluators. -/

namespace Ops

/-- Models `src/runtime/evaluator.rs:221-227` (`eval_unary_op`), repeated in
`src/runtime/evaluation/core.rs:119-123,219-223`. -/
def unary (op : UnaryOp) (v : Value) : Res Value :=
  match op with
  | .plus => match v.asNumber with
    | some n => .ok (.num n)
    | none => fail "Unary '+' on non-number"
  | .minus => match v.asNumber with
    | some n => .ok (.num n.neg)
    | none => fail "Unary '-' on non-number"
  | .not => match v.asBool with
    | some b => .ok (.bool (!b))
    | none => fail "Unary '!' on non-boolean"

/-- What an arithmetic operator computes; `none` for the others. Models
`src/runtime/evaluator.rs:235-243`. -/
def arith (X : Ext) : BinaryOp → Option (F64 → F64 → F64)
  | .add => some F64.add
  | .sub => some F64.sub
  | .mul => some F64.mul
  | .div => some F64.div
  | .mod => some F64.rem
  | .pow => some X.powf
  | _ => none

/-- Models `src/runtime/evaluator.rs:247-255`. -/
def cmpNum (op : BinaryOp) (x y : F64) : Bool :=
  match op with
  | .eq => F64.feq x y
  | .ne => F64.fne x y
  | .lt => F64.flt x y
  | .le => F64.fle x y
  | .gt => F64.fgt x y
  | .ge => F64.fge x y
  | _ => false

/-- Models `src/runtime/evaluator.rs:256-264`. -/
def cmpStr (op : BinaryOp) (x y : Str) : Bool :=
  match op with
  | .eq => x == y
  | .ne => x != y
  | .lt => Str.lt x y
  | .le => Str.le x y
  | .gt => Str.lt y x
  | .ge => Str.le y x
  | _ => false

/-- Models `src/runtime/evaluator.rs:246-276`: comparison operators. -/
def compare (op : BinaryOp) (a b : Value) : Res Value :=
  match a, b with
  | .num x, .num y => .ok (.bool (cmpNum op x y))
  | .str x, .str y => .ok (.bool (cmpStr op x y))
  | .bool x, .bool y => .ok (.bool (match op with
    | .eq => x == y
    | .ne => x != y
    | _ => false))
  | _, _ => match op with
    | .eq => .ok (.bool false)
    | .ne => .ok (.bool true)
    | _ => fail "Comparison of incompatible types"

/-- Models `src/runtime/evaluator.rs:230-288` (`eval_binary_op`), repeated for values in
`src/runtime/evaluation/core.rs:295-366,379-435`. -/
def binary (X : Ext) (op : BinaryOp) (a b : Value) : Res Value :=
  match op with
  | .add | .sub | .mul | .div | .mod | .pow =>
    match a.asNumber with
    | none => fail "Arithmetic op on non-number"
    | some x => match b.asNumber with
      | none => fail "Arithmetic op on non-number"
      | some y => match arith X op with
        | some f => .ok (.num (f x y))
        | none => panics "internal error: entered unreachable code"
  | .eq | .ne | .lt | .le | .gt | .ge => compare op a b
  | .and | .or =>
    match a.asBool with
    | none => fail "Logical op on non-boolean"
    | some x => match b.asBool with
      | none => fail "Logical op on non-boolean"
      | some y => .ok (.bool (if op = .and then x && y else x || y))

/-- Models `src/runtime/evaluator.rs:291-307` (`eval_property_access`) and
`src/runtime/evaluation/core.rs:439-457`; `bad` is the error for a receiver that has no properties
(the variant of `core.rs:459-482` words it differently). -/
def property (X : Ext) (bad : Value → Fail) (safe : Bool) (target : Value) (name : Str) : Res Value :=
  match target with
  | .json s => do
    let j ← parseJson X s
    match j.get name with
    | some p => .ok (p.toValue X)
    | none => if safe then .ok .null else fail "Property '{}' not found in JSON object" [name]
  | .null => if safe then .ok .null else .error (bad .null)
  | v => .error (bad v)

end Ops
