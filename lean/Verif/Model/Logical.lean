import Verif.Model.Arithmetic
/-! `src/runtime/logical.rs`. -/

namespace Logic

/-- `match v { Boolean(b) => b, Number(n) => n != 0.0, _ => false }`,
models e.g. `src/runtime/logical.rs:15,22,43`. -/
def truthy : Value → Bool
  | .bool b => b
  | .num n => F64.fne n (.zero false)
  | _ => false

/-- Models `src/runtime/logical.rs:8-12` (`__TERNARY__` on values). -/
def ternary : Builtin := fun args =>
  match args with
  | [c, a, b] => match c.asBool with
    | some cond => .ok (if cond then a else b)
    | none => fail "Ternary condition must be boolean"
  | _ => fail "Ternary expects 3 args"

/-- `XOR`. Models `src/runtime/logical.rs:13-18`. -/
def xor : Builtin := fun args =>
  match args with
  | [a, b] => .ok (.bool (truthy a != truthy b))
  | _ => fail "XOR expects 2 arguments"

/-- The loop of `AND`. Models `src/runtime/logical.rs:20-25`. -/
def andLoop (result : Bool) : List Value → Bool
  | [] => result
  | v :: vs =>
    let result := result && truthy v
    if !result then result else andLoop result vs

/-- `AND`. Models `src/runtime/logical.rs:19-27`. -/
def and : Builtin := fun args => .ok (.bool (andLoop true args))

/-- The loop of `OR`. Models `src/runtime/logical.rs:29-34`. -/
def orLoop (result : Bool) : List Value → Bool
  | [] => result
  | v :: vs =>
    let result := result || truthy v
    if result then result else orLoop result vs

/-- `OR`. Models `src/runtime/logical.rs:28-36`. -/
def or : Builtin := fun args => .ok (.bool (orLoop false args))

/-- `NOT`. Models `src/runtime/logical.rs:37-40`. -/
def not : Builtin := fun args =>
  .ok (.bool (!(match argAt args 0 with | some v => truthy v | none => false)))

/-- `IF` on evaluated arguments. Models `src/runtime/logical.rs:41-49`. -/
def ifFn : Builtin := fun args =>
  match args with
  | c :: a :: rest => .ok (if truthy c then a else rest.head?.getD (.bool false))
  | _ => fail "IF expects at least 2 arguments"

/-- The loop of `IFS`. Models `src/runtime/logical.rs:52-60`. -/
def ifsLoop : List Value → Value
  | c :: v :: rest => if truthy c then v else ifsLoop rest
  | _ => .bool false

/-- `IFS`. Models `src/runtime/logical.rs:50-61`. -/
def ifs : Builtin := fun args =>
  if args.length % 2 ≠ 0 then fail "IFS expects pairs of condition,value arguments"
  else .ok (ifsLoop args)

/-- `BETWEEN(min, max, value)`. Models `src/runtime/logical.rs:62-68`. -/
def between : Builtin := fun args =>
  match args with
  | [a, b, v] => match a.asNumber with
    | none => fail "BETWEEN min must be a number"
    | some lo => match b.asNumber with
      | none => fail "BETWEEN max must be a number"
      | some hi => match v.asNumber with
        | none => fail "BETWEEN value must be a number"
        | some x => .ok (.bool (F64.fge x lo && F64.fle x hi))
  | _ => fail "BETWEEN expects 3 arguments: (min, max, value)"

/-- The arms of `src/runtime/logical.rs:5-68`. -/
def table : List (Str × Builtin) :=
  [(c!"__CONST_TRUE__", fun _ => .ok (.bool true)), (c!"__CONST_FALSE__", fun _ => .ok (.bool false)),
   (c!"__TERNARY__", ternary), (c!"XOR", xor), (c!"AND", and), (c!"OR", or), (c!"NOT", not),
   (c!"IF", ifFn), (c!"IFS", ifs), (c!"BETWEEN", between)]

end Logic

/-- Models `src/runtime/logical.rs:4-71` (`exec_logical`). -/
def execLogical (name : Str) (args : List Value) : Res Value :=
  match lookupFn name Logic.table with
  | some f => f args
  | none => fail "Unknown logical function: {}" [name]
