import Verif.Model.Methods
import Verif.Model.Dispatch
/-! The older evaluator, `src/runtime/evaluation/core.rs` and `higher_order.rs`, which still evaluates
method arguments and method lambdas. Without a registry it is `eval_with_vars`; with one it is
`eval_with_vars_and_custom`. (`core::eval`, the variant without variables, is not reachable from the
library's entry points: they always pass a variable map; it is in `Model/Runtime`.) -/

namespace Legacy

/-- Models `src/runtime/evaluation/higher_order.rs:448-459` (`get_param_name`). -/
def paramName (env : Env) : Option Arg → Res Str
  | some a => do
    match ← a.run none env with
    | .str s => return s
    | _ => return c!"x"
  | none => .ok c!"x"

/-- `get_param_name(..).unwrap_or_else(|_| dflt)`, models
`src/runtime/evaluation/higher_order.rs:220-221`. A panic is not caught. -/
def paramNameOr (env : Env) (dflt : Str) (a : Option Arg) : Res Str :=
  match paramName env a with
  | .ok s => .ok s
  | .error (.panic w) => .error (.panic w)
  | .error (.err ..) => .ok dflt

/-- The lambda of the variants that refuse a spread inside the loop. Models
`src/runtime/evaluation/higher_order.rs:61-64`. -/
def lambda (a : Arg) (env : Env) : Res Value :=
  if a.spread.isSome then fail "Invalid lambda" else a.run none env

/-- `FILTER`. Models `src/runtime/evaluation/higher_order.rs:46-72` (no registry), `:74-100`. -/
def filter (r : Option Registry) (env : Env) (args : List Arg) : Res Value :=
  match r, args with
  | none, a :: lam :: rest => do
    let v ← a.run none env
    let p ← paramName env rest.head?
    match v with
    | .arr items => return .arr (← Loop.filter (lambda lam) p env items)
    | _ => fail "FILTER first arg must be array"
  | none, _ => fail "FILTER expects (array, expr, [param])"
  | some reg, a :: lam :: _ => do
    match ← a.run (some reg) env with
    | .arr items => return .arr (← Loop.filter (lam.run (some reg)) c!"x" env items)
    | _ => fail "FILTER first arg must be array"
  | some _, _ => fail "FILTER expects (array, expr)"

/-- `FIND`. Models `src/runtime/evaluation/higher_order.rs:103-128` (no registry), `:130-155`. -/
def find (r : Option Registry) (env : Env) (args : List Arg) : Res Value :=
  match r, args with
  | none, a :: lam :: rest => do
    let v ← a.run none env
    let p ← paramName env rest.head?
    match v with
    | .arr items => Loop.find (lambda lam) p env items
    | _ => fail "FIND first arg must be array"
  | none, _ => fail "FIND expects (array, expr, [param])"
  | some reg, a :: lam :: _ => do
    match ← a.run (some reg) env with
    | .arr items => Loop.find (lam.run (some reg)) c!"x" env items
    | _ => fail "FIND first arg must be array"
  | some _, _ => fail "FIND expects (array, expr)"

/-- `MAP`. Models `src/runtime/evaluation/higher_order.rs:158-182` (no registry), `:184-208`. -/
def map (r : Option Registry) (env : Env) (args : List Arg) : Res Value :=
  match r, args with
  | none, a :: lam :: rest => do
    let v ← a.run none env
    let p ← paramName env rest.head?
    match v with
    | .arr items => return .arr (← Loop.map (lambda lam) p env items)
    | _ => fail "MAP first arg must be array"
  | none, _ => fail "MAP expects (array, expr, [param])"
  | some reg, a :: lam :: _ => do
    match ← a.run (some reg) env with
    | .arr items => return .arr (← Loop.map (lam.run (some reg)) c!"x" env items)
    | _ => fail "MAP first arg must be array"
  | some _, _ => fail "MAP expects (array, expr)"

/-- `REDUCE`. Models `src/runtime/evaluation/higher_order.rs:211-238` (no registry: a missing
accumulator name defaults to `x`, because `get_param_name(None)` succeeds), `:240-265`. -/
def reduce (r : Option Registry) (env : Env) (args : List Arg) : Res Value :=
  match r, args with
  | none, a :: lam :: init :: rest => do
    let v ← a.run none env
    let acc ← init.run none env
    let p ← paramNameOr env c!"x" rest.head?
    let q ← paramNameOr env c!"acc" rest[1]?
    match v with
    | .arr items => Loop.reduce (lambda lam) p q env acc items
    | _ => fail "REDUCE first arg must be array"
  | none, _ => fail "REDUCE expects (array, expr, initial, [valParam], [accParam])"
  | some reg, a :: lam :: init :: _ => do
    let v ← a.run (some reg) env
    let acc ← init.run (some reg) env
    match v with
    | .arr items => Loop.reduceAccFirst (lam.run (some reg)) env acc items
    | _ => fail "REDUCE first arg must be array"
  | some _, _ => fail "REDUCE expects (array, expr, initial)"

/-- `SUMIF`. Models `src/runtime/evaluation/higher_order.rs:268-294,296-325`. -/
def sumif (r : Option Registry) (env : Env) (args : List Arg) : Res Value :=
  match args with
  | [a, lam] => do
    match ← a.run r env with
    | .arr items => return .num (← Loop.sumif (lam.run r) env (.zero false) items)
    | _ => fail "SUMIF first arg must be array"
  | _ => fail "SUMIF expects (array, expr)"

/-- `AVGIF`. Models `src/runtime/evaluation/higher_order.rs:328-357,359-392`. -/
def avgif (r : Option Registry) (env : Env) (args : List Arg) : Res Value :=
  match args with
  | [a, lam] => do
    match ← a.run r env with
    | .arr items => return .num (meanOf (← Loop.avgif (lam.run r) env (.zero false) 0 items))
    | _ => fail "AVGIF first arg must be array"
  | _ => fail "AVGIF expects (array, expr)"

/-- `COUNTIF`. Models `src/runtime/evaluation/higher_order.rs:395-417,419-445`. -/
def countif (r : Option Registry) (env : Env) (args : List Arg) : Res Value :=
  match args with
  | [a, lam] => do
    match ← a.run r env with
    | .arr items => return .num (F64.ofNat (← Loop.countif (lam.run r) env 0 items))
    | _ => fail "COUNTIF first arg must be array"
  | _ => fail "COUNTIF expects (array, expr)"

/-- The higher-order functions by name. Models `src/runtime/evaluation/higher_order.rs:8-43`. -/
def higherOrder (name : Str) : Option (Option Registry → Env → List Arg → Res Value) :=
  if name = c!"FILTER" then some filter
  else if name = c!"FIND" then some find
  else if name = c!"MAP" then some map
  else if name = c!"REDUCE" then some reduce
  else if name = c!"SUMIF" then some sumif
  else if name = c!"AVGIF" then some avgif
  else if name = c!"COUNTIF" then some countif
  else none

/-- A conditional: the condition, then only the chosen branch. Models
`src/runtime/evaluation/core.rs:574-594,641-653` and `src/runtime/evaluator.rs:313-324`. -/
def ternary (r : Option Registry) (env : Env) (args : List Arg) : Res Value :=
  match args with
  | [c, a, b] => do
    match (← c.run r env).asBool with
    | some cond => if cond then a.run r env else b.run r env
    | none => fail "Ternary condition must be boolean"
  | _ => fail "Ternary expects 3 args"

/-- Models `src/runtime/evaluation/core.rs:572-632` (no registry), `:634-703`. -/
def call (X : Ext) (name : Str) (args : List Arg) (r : Option Registry) (env : Env) : Res Value :=
  if name = c!"__TERNARY__" then ternary r env args
  else
    match (match r with | some reg => if reg.has X name then some reg else none | none => none) with
    | some reg => do reg.execute X name (← evalArgs r env args)
    | none =>
      match higherOrder name with
      | some f => f r env args
      | none => do execBuiltin X name (← evalArgs r env args)

/-- Indexing without a registry. Models `src/runtime/evaluation/core.rs:159-167`. -/
def index (t i : Value) : Res Value :=
  match i.asNumber with
  | none => fail "Index must be number"
  | some n => match t with
    | .arr items => indexArray items n.toI64
    | _ => fail "Index on non-array"

/-- Indexing with a registry. Models `src/runtime/evaluation/core.rs:527-539`; the length is taken as
is (`items.len() as i32` wraps for arrays of 2^31 elements or more). -/
def indexCustom (t i : Value) : Res Value :=
  match t with
  | .arr items => match i.asNumber with
    | none => fail "Index must be number"
    | some n =>
      let k := n.toI32
      let len : Int := items.length
      let real := if k < 0 then len + k else k
      if real < 0 ∨ len ≤ real then fail "Index out of bounds"
      else match items[real.toNat]? with
        | some v => .ok v
        | none => panics "index out of bounds"
  | _ => fail "Index on non-array"

/-- An optional slice bound. Models `.transpose()?` of
`src/runtime/evaluation/core.rs:173-174`, `src/runtime/evaluator.rs:182-183`. -/
def optional (r : Option Registry) (env : Env) : Option Den → Res (Option Value)
  | none => .ok none
  | some d => do return some (← d r env)

/-- A slice bound with a registry. Models `src/runtime/evaluation/core.rs:553-560`. -/
def boundCustom (r : Option Registry) (env : Env) (len dflt : Int) (err : String) : Option Den → Res Int
  | none => .ok dflt
  | some d => do
    match (← d r env).asNumber with
    | some n =>
      let k := n.toI32
      return if k < 0 then max (len + k) 0 else min k len
    | none => fail err

/-- Slicing with a registry. Models `src/runtime/evaluation/core.rs:550-568`. -/
def sliceCustom (r : Option Registry) (env : Env) (t : Value) (start stop : Option Den) : Res Value :=
  match t with
  | .arr items => do
    let len : Int := items.length
    let s ← boundCustom r env len 0 "Slice start must be number" start
    let e ← boundCustom r env len len "Slice end must be number" stop
    if s ≤ e then return .arr ((items.take e.toNat).drop s.toNat) else return .arr []
  | _ => fail "Slice on non-array"

/-- Models `src/runtime/evaluation/core.rs:456,480`: the error for a receiver without properties. -/
def noProps (X : Ext) (r : Option Registry) (v : Value) : Fail :=
  match r with
  | none => .err "Property access requires JSON object" [] none
  | some _ => .err "Property access only supported on JSON objects, got {:?}" [X.dbg v] none

mutual
/-- Models `src/runtime/evaluation/core.rs:111-205` (`eval_with_vars`, no registry) and `:207-286`
(`eval_with_vars_and_custom`). -/
def eval (X : Ext) : Expr → Den
  | .number n => fun _ _ => .ok (.num n)
  | .strLit s => fun _ _ => .ok (.str s)
  | .null => fun _ _ => .ok .null
  | .unary op e => fun r env => do Ops.unary op (← eval X e r env)
  | .binary a op b => fun r env => do
    let x ← eval X a r env
    let y ← eval X b r env
    Ops.binary X op x y
  | .var name => fun r env => match env name with
    | some v => .ok v
    | none => match r with
      | none => fail "Missing variable: :{}" [name]
      | some _ => fail "Undefined variable: {}" [name]
  | .prop t name => fun r env => do Ops.property X (noProps X r) false (← eval X t r env) name
  | .safeProp t name => fun r env => do Ops.property X (noProps X r) true (← eval X t r env) name
  | .safeCall t name args => fun r env => do
    match ← eval X t r env with
    | .null => return .null
    | v => Method.exec X r env name false v (argsOf X args)
  | .array items => fun r env => do return .arr (← elements r env (argsOf X items))
  | .object ms => fun r env => do
    return .json (X.jsonPrint (.obj (← objectMembers X r env [] (membersOf X ms))))
  | .cast e ty => fun r env => do castValue X (← eval X e r env) ty
  | .index t i => fun r env => do
    let tv ← eval X t r env
    let iv ← eval X i r env
    match r with
    | none => index tv iv
    | some _ => indexCustom tv iv
  | .slice t start stop => fun r env => do
    let tv ← eval X t r env
    match r with
    | none => match tv with
      | .arr items => do
        let s ← optional r env (optOf X start)
        let e ← optional r env (optOf X stop)
        sliceArray items s e
      | _ => fail "Slice on non-array"
    | some _ => sliceCustom r env tv (optOf X start) (optOf X stop)
  | .call name args => fun r env => call X name (argsOf X args) r env
  | .method t name args predicate => fun r env => do
    Method.exec X r env name predicate (← eval X t r env) (argsOf X args)
  | .spread _ => fun _ _ => fail "Spread not allowed here"
  | .assign _ e => fun r env => eval X e r env
  | .seq es => fun r env => lastOf r env .null (argsOf X es)
/-- The arguments, unevaluated. -/
def argsOf (X : Ext) : List Expr → List Arg
  | [] => []
  | .spread e :: rest => ⟨fun _ _ => fail "Spread not allowed here", some (eval X e), none⟩ :: argsOf X rest
  | .strLit s :: rest => ⟨fun _ _ => .ok (.str s), none, some s⟩ :: argsOf X rest
  | e :: rest => ⟨eval X e, none, none⟩ :: argsOf X rest
/-- The members of an object literal, unevaluated. -/
def membersOf (X : Ext) : List (Str × Expr) → List (Str × Den)
  | [] => []
  | (k, e) :: rest => (k, eval X e) :: membersOf X rest
/-- An optional operand, unevaluated. -/
def optOf (X : Ext) : Option Expr → Option Den
  | none => none
  | some e => some (eval X e)
end

end Legacy
