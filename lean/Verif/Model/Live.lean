import Verif.Model.Effects
import Verif.Model.Lib
/-! An evaluation while functions are being registered and unregistered by other threads. The registry is read when a call is evaluated, so it may be another one at each call. Here the evaluators are
modelled once more with the registries that the calls find; custom functions have no effects. A poisoned lock is left out. -/

namespace Live

/-- What a call found when it read the registry, for the `k`-th time: no function of this name, or one; in this case the read guard is held until the call is done, so that nothing is registered while the
arguments are evaluated and the function is run. -/
inductive Seen where
  | absent (k : Nat) (name : Str)
  | held (k : Nat) (name : Str) (args : List Expr)

/-- How many times the registry was read, and what was found. -/
structure Run where
  reads : Nat
  seen : List Seen

/-- Reading the registry for a call. `sched k` is the registry at the `k`-th time; any sequence is possible, since other threads may register and unregister anything in between.
Models `src/runtime/evaluator.rs:331-354` and `src/runtime/evaluation/core.rs:656-675`. -/
def look (X : Ext) (sched : Nat → Registry) (name : Str) (es : List Expr) (custom : Registry → Res Value) (builtin : Fx.M Run Value) : Fx.M Run Value := fun s =>
  let r := sched s.reads
  if r.has X name then (⟨s.reads + 1, s.seen ++ [.held s.reads name es]⟩, custom r)
  else builtin ⟨s.reads + 1, s.seen ++ [.absent s.reads name]⟩

/-- A call of a custom function, while the guard is held: the calls in the arguments find the same registry. Models `src/runtime/evaluator.rs:334-352` and `src/runtime/evaluation/core.rs:658-674`. -/
def execute (X : Ext) (name : Str) (args : List (Fx.Operand Run)) (env : Env) (r : Registry) : Res Value := do
  let vs ← evalArgs (some r) env (args.map Fx.Operand.plain)
  r.execute X name vs

namespace Legacy

/-- Models `src/runtime/evaluation/core.rs:634-703`. -/
def call (X : Ext) (sched : Nat → Registry) (name : Str) (es : List Expr) (args : List (Fx.Operand Run)) (env : Env) : Fx.M Run Value :=
  if name = c!"__TERNARY__" then Fx.ternary env args
  else look X sched name es (execute X name args env)
    (match Fx.Legacy.higherOrder name with
    | some f => f env args
    | none => do
      let vs ← Fx.evalArgs env args
      Fx.lift (execBuiltin X name vs))

mutual
/-- Models `src/runtime/evaluation/core.rs:207-286` (`eval_with_vars_and_custom`). -/
def eval (X : Ext) (sched : Nat → Registry) : Expr → Env → Fx.M Run Value
  | .number n => fun _ => Fx.lift (.ok (.num n))
  | .strLit s => fun _ => Fx.lift (.ok (.str s))
  | .null => fun _ => Fx.lift (.ok .null)
  | .unary op e => fun env => do
    let v ← eval X sched e env
    Fx.lift (Ops.unary op v)
  | .binary a op b => fun env => do
    let x ← eval X sched a env
    let y ← eval X sched b env
    Fx.lift (Ops.binary X op x y)
  | .var name => fun env => match env name with
    | some v => Fx.lift (.ok v)
    | none => Fx.lift (fail "Undefined variable: {}" [name])
  | .prop t name => fun env => do
    let v ← eval X sched t env
    Fx.lift (Ops.property X (Fx.Legacy.noProps X) false v name)
  | .safeProp t name => fun env => do
    let v ← eval X sched t env
    Fx.lift (Ops.property X (Fx.Legacy.noProps X) true v name)
  | .safeCall t name args => fun env => do
    match ← eval X sched t env with
    | .null => Fx.lift (.ok .null)
    | v => Fx.Method.exec X env name false v (argsOf X sched args)
  | .array items => fun env => do
    let vs ← Fx.elements env (argsOf X sched items)
    return .arr vs
  | .object ms => fun env => do
    let js ← Fx.objectMembers X env [] (membersOf X sched ms)
    return .json (X.jsonPrint (.obj js))
  | .cast e ty => fun env => do
    let v ← eval X sched e env
    Fx.lift (castValue X v ty)
  | .index t i => fun env => do
    let tv ← eval X sched t env
    let iv ← eval X sched i env
    Fx.lift (_root_.Legacy.indexCustom tv iv)
  | .slice t start stop => fun env => do
    let tv ← eval X sched t env
    Fx.Legacy.slice env tv (optOf X sched start) (optOf X sched stop)
  | .call name args => fun env => call X sched name args (argsOf X sched args) env
  | .method t name args predicate => fun env => do
    let v ← eval X sched t env
    Fx.Method.exec X env name predicate v (argsOf X sched args)
  | .spread _ => fun _ => Fx.lift (fail "Spread not allowed here")
  | .assign _ e => fun env => eval X sched e env
  | .seq es => fun env => Fx.lastOf env .null (argsOf X sched es)
/-- The arguments, unevaluated. -/
def argsOf (X : Ext) (sched : Nat → Registry) : List Expr → List (Fx.Operand Run)
  | [] => []
  | .spread e :: rest => ⟨fun _ => Fx.lift (fail "Spread not allowed here"), some (eval X sched e), ⟨fun _ _ => fail "Spread not allowed here", some (_root_.Legacy.eval X e), none⟩⟩ :: argsOf X sched rest
  | .strLit s :: rest => ⟨fun _ => Fx.lift (.ok (.str s)), none, ⟨fun _ _ => .ok (.str s), none, some s⟩⟩ :: argsOf X sched rest
  | e :: rest => ⟨eval X sched e, none, ⟨_root_.Legacy.eval X e, none, none⟩⟩ :: argsOf X sched rest
/-- The members of an object literal, unevaluated. -/
def membersOf (X : Ext) (sched : Nat → Registry) : List (Str × Expr) → List (Str × (Env → Fx.M Run Value))
  | [] => []
  | (k, e) :: rest => (k, eval X sched e) :: membersOf X sched rest
/-- An optional operand, unevaluated. -/
def optOf (X : Ext) (sched : Nat → Registry) : Option Expr → Option (Env → Fx.M Run Value)
  | none => none
  | some e => some (eval X sched e)
end

end Legacy

/-- Models `src/runtime/evaluator.rs:310-406` (`eval_function_call`). -/
def call (X : Ext) (sched : Nat → Registry) (name : Str) (es : List Expr) (args : List (Fx.Operand Run)) (env : Env) : Fx.M Run Value :=
  if name = c!"__TERNARY__" then Fx.ternary env args
  else if name = c!"__CONST_TRUE__" then Fx.lift (.ok (.bool true))
  else if name = c!"__CONST_FALSE__" then Fx.lift (.ok (.bool false))
  else look X sched name es (execute X name args env)
    (match Fx.higherOrder X name with
    | some f => f env args
    | none => do
      let vs ← Fx.evalArgs env args
      Fx.lift (execFast X name vs))

mutual
/-- Models `src/runtime/evaluator.rs:97-218` (`Evaluator::eval`) with a registry. Method arguments go to the older evaluator. -/
def eval (X : Ext) (sched : Nat → Registry) : Expr → Env → Fx.M Run Value
  | .number n => fun _ => Fx.lift (.ok (.num n))
  | .strLit s => fun _ => Fx.lift (.ok (.str s))
  | .null => fun _ => Fx.lift (.ok .null)
  | .unary op e => fun env => do
    let v ← eval X sched e env
    Fx.lift (Ops.unary op v)
  | .binary a op b => fun env => do
    let x ← eval X sched a env
    let y ← eval X sched b env
    Fx.lift (Ops.binary X op x y)
  | .var name => fun env => match env name with
    | some v => Fx.lift (.ok v)
    | none => Fx.lift (fail "Missing variable: :{}" [name])
  | .prop t name => fun env => do
    let v ← eval X sched t env
    Fx.lift (Ops.property X Eval.noProps false v name)
  | .safeProp t name => fun env => do
    let v ← eval X sched t env
    Fx.lift (Ops.property X Eval.noProps true v name)
  | .safeCall t name args => fun env => do
    match ← eval X sched t env with
    | .null => Fx.lift (.ok .null)
    | v => Fx.Method.exec X env name false v (Legacy.argsOf X sched args)
  | .array items => fun env => do
    let vs ← Fx.elements env (argsOf X sched items)
    return .arr vs
  | .object ms => fun env => do
    let js ← Fx.objectMembers X env [] (membersOf X sched ms)
    return .json (X.jsonPrint (.obj js))
  | .cast e ty => fun env => do
    let v ← eval X sched e env
    Fx.lift (castValue X v ty)
  | .index t i => fun env => do
    let tv ← eval X sched t env
    let iv ← eval X sched i env
    Fx.lift (_root_.Legacy.index tv iv)
  | .slice t start stop => fun env => do
    match ← eval X sched t env with
    | .arr items => do
      let s ← Fx.optional env (optOf X sched start)
      let e ← Fx.optional env (optOf X sched stop)
      Fx.lift (sliceArray items s e)
    | _ => Fx.lift (fail "Slice on non-array")
  | .call name args => fun env => call X sched name args (argsOf X sched args) env
  | .method t name args predicate => fun env => do
    let v ← eval X sched t env
    Fx.Method.exec X env name predicate v (Legacy.argsOf X sched args)
  | .spread _ => fun _ => Fx.lift (fail "Spread not allowed here")
  | .assign _ e => fun env => eval X sched e env
  | .seq es => fun env => Fx.lastOf env .null (argsOf X sched es)
/-- The arguments, unevaluated. -/
def argsOf (X : Ext) (sched : Nat → Registry) : List Expr → List (Fx.Operand Run)
  | [] => []
  | .spread e :: rest => ⟨fun _ => Fx.lift (fail "Spread not allowed here"), some (eval X sched e), ⟨fun _ _ => fail "Spread not allowed here", some (Eval.eval X e), none⟩⟩ :: argsOf X sched rest
  | .strLit s :: rest => ⟨fun _ => Fx.lift (.ok (.str s)), none, ⟨fun _ _ => .ok (.str s), none, some s⟩⟩ :: argsOf X sched rest
  | e :: rest => ⟨eval X sched e, none, ⟨Eval.eval X e, none, none⟩⟩ :: argsOf X sched rest
/-- The members of an object literal, unevaluated. -/
def membersOf (X : Ext) (sched : Nat → Registry) : List (Str × Expr) → List (Str × (Env → Fx.M Run Value))
  | [] => []
  | (k, e) :: rest => (k, eval X sched e) :: membersOf X sched rest
/-- An optional operand, unevaluated. -/
def optOf (X : Ext) (sched : Nat → Registry) : Option Expr → Option (Env → Fx.M Run Value)
  | none => none
  | some e => some (eval X sched e)
end

end Live

/-- An evaluation that finds the registry `sched k` at its `k`-th look. Models `src/runtime/evaluator.rs:777-780` (`eval_with_vars_and_custom`), while other threads register functions. -/
def evalLive (X : Ext) (sched : Nat → Registry) (e : Expr) (vars : Env) : Live.Run × Res Value := Live.eval X sched e vars ⟨0, []⟩

/-- Models `src/lib.rs:156-159` (`evaluate_with_custom`), while other threads register functions. -/
def Lib.evaluateLive (X : Ext) (sched : Nat → Registry) (input : Str) (vars : Env) : Res Value := do
  let e ← Lib.parse input
  (evalLive X sched e vars).2
