import Verif.Model.Legacy
/-! The functions `skillet::runtime` exports besides the unified evaluator: `src/runtime/evaluation/core.rs`
(`eval`, `eval_with_vars`, `eval_with_vars_and_custom`) and `src/runtime/evaluation/assignments.rs`. -/

namespace Runtime

/-- Models `src/runtime/evaluation/core.rs:295-367` (`eval_binary_op`, without variables): comparisons are for numbers only. -/
def binary (X : Ext) (op : BinaryOp) (a b : Value) : Res Value :=
  match op with
  | .eq | .ne | .lt | .le | .gt | .ge =>
    match a.asNumber with
    | none => fail "Comparison on non-number"
    | some x => match b.asNumber with
      | none => fail "Comparison on non-number"
      | some y => .ok (.bool (Ops.cmpNum op x y))
  | _ => Ops.binary X op a b

/-- Models `src/runtime/evaluation/core.rs:572-632` (`eval_function_call`, without variables). -/
def call (X : Ext) (name : Str) (args : List Arg) : Res Value :=
  if name = c!"__TERNARY__" then Legacy.ternary none Env.empty args
  else if name ∈ [c!"FILTER", c!"FIND", c!"MAP", c!"REDUCE", c!"SUMIF", c!"AVGIF", c!"COUNTIF"] then
    fail "{} requires variable context" [name]
  else do execBuiltin X name (← evalArgs none Env.empty args)

/-- Models `src/runtime/evaluation/core.rs:77-85`. -/
def index (t i : Value) : Res Value :=
  match i.asNumber with
  | none => fail "Index must be number"
  | some n => match t with
    | .arr items => indexArray items n.toI64
    | _ => fail "Indexing only supported on arrays"

mutual
/-- Models `src/runtime/evaluation/core.rs:40-109` (`eval`: no variables). -/
def eval (X : Ext) : Expr → Res Value
  | .number n => .ok (.num n)
  | .strLit s => .ok (.str s)
  | .null => .ok .null
  | .unary op e => do Ops.unary op (← eval X e)
  | .binary a op b => do
    let x ← eval X a
    let y ← eval X b
    binary X op x y
  | .array items => do return .arr (← elements none Env.empty (argsOf X items))
  | .object ms => do return .json (X.jsonPrint (.obj (← objectMembers X none Env.empty [] (membersOf X ms))))
  | .cast e ty => do castValue X (← eval X e) ty
  | .index t i => do
    let tv ← eval X t
    let iv ← eval X i
    index tv iv
  | .slice t start stop => do
    match ← eval X t with
    | .arr items => do
      let s ← Legacy.optional none Env.empty (optOf X start)
      let e ← Legacy.optional none Env.empty (optOf X stop)
      sliceArray items s e
    | _ => fail "Slicing only supported on arrays"
  | .call name args => call X name (argsOf X args)
  | .method t name args predicate => do method X name predicate (← eval X t) (Legacy.argsOf X args) (argsOf X args)
  | .var _ => fail "Use eval_with_vars for variables"
  | .prop .. => fail "Use eval_with_vars for property access"
  | .safeProp .. => fail "Use eval_with_vars for safe property access"
  | .safeCall .. => fail "Use eval_with_vars for safe method calls"
  | .spread _ => fail "Spread not allowed here"
  | .assign .. => fail "Use eval_with_vars for assignments"
  | .seq _ => fail "Use eval_with_vars for sequences"
/-- Models `exec_method(.., None)` (`src/runtime/method_calls/mod.rs:23-66`): `filter`, `map`, `find` and `reduce` of an array run
their arguments (`withVars`) with a variable map that is empty at first (`src/runtime/method_calls/lambda_methods.rs:35,114,188,256`); other methods
evaluate theirs (`plain`) without variables (`src/runtime/method_calls/string_methods.rs:36-40` and alike). -/
def method (X : Ext) (name : Str) (predicate : Bool) (recv : Value) (withVars plain : List Arg) : Res Value :=
  match recv with
  | .arr _ =>
    if X.lower name ∈ [c!"filter", c!"map", c!"find", c!"reduce"] then Method.exec X none Env.empty name predicate recv withVars
    else Method.exec X none Env.empty name predicate recv plain
  | _ => Method.exec X none Env.empty name predicate recv plain
/-- The arguments, unevaluated. -/
def argsOf (X : Ext) : List Expr → List Arg
  | [] => []
  | .spread e :: rest => ⟨fun _ _ => fail "Spread not allowed here", some fun _ _ => eval X e, none⟩ :: argsOf X rest
  | .strLit s :: rest => ⟨fun _ _ => .ok (.str s), none, some s⟩ :: argsOf X rest
  | e :: rest => ⟨fun _ _ => eval X e, none, none⟩ :: argsOf X rest
/-- The members of an object literal, unevaluated. -/
def membersOf (X : Ext) : List (Str × Expr) → List (Str × Den)
  | [] => []
  | (k, e) :: rest => (k, fun _ _ => eval X e) :: membersOf X rest
/-- An optional operand, unevaluated. -/
def optOf (X : Ext) : Option Expr → Option Den
  | none => none
  | some e => some fun _ _ => eval X e
end

/-- Models `src/runtime/evaluation/core.rs:111-205` (`eval_with_vars`). -/
def evalWithVars (X : Ext) (e : Expr) (vars : Env) : Res Value := Legacy.eval X e none vars

/-- Models `src/runtime/evaluation/core.rs:207-286` (`eval_with_vars_and_custom`). -/
def evalWithVarsAndCustom (X : Ext) (e : Expr) (vars : Env) (reg : Registry) : Res Value := Legacy.eval X e (some reg) vars

mutual
/-- Models `src/runtime/evaluation/assignments.rs:23-39` (`eval_with_assignments_context`): the value and the variable
map afterwards. On an error the caller discards the map. -/
def assignments (X : Ext) : Expr → Env → Res (Value × Env)
  | .assign name e => fun env => do
    let (v, env) ← assignments X e env
    return (v, env.insert name v)
  | .seq es => fun env => assignmentsSeq X es .null env
  | e => fun env => do return (← Legacy.eval X e none env, env)
/-- The loop of `src/runtime/evaluation/assignments.rs:31-34`. -/
def assignmentsSeq (X : Ext) : List Expr → Value → Env → Res (Value × Env)
  | [] => fun last env => .ok (last, env)
  | e :: rest => fun _ env => do
    let (v, env) ← assignments X e env
    assignmentsSeq X rest v env
end

/-- Models `src/runtime/evaluation/assignments.rs:10-13` (`eval_with_assignments`). -/
def evalWithAssignments (X : Ext) (e : Expr) (vars : Env) : Res Value := do return (← assignments X e vars).1

/-- Models `src/runtime/evaluation/assignments.rs:17-21` (`eval_with_assignments_and_context`). -/
def evalWithAssignmentsCtx (X : Ext) (e : Expr) (vars : Env) : Res (Value × Env) := assignments X e vars

end Runtime
