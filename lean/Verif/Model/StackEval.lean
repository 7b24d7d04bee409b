import Verif.Model.Stack
import Verif.Model.Eval
/-!
The evaluators with a bounded stack: `Evaluator::eval` (`src/runtime/evaluator.rs:97-218`) and the older evaluator
(`src/runtime/evaluation/core.rs:111-286`, to which the arguments of methods go) once more, as in `Verif.Model.Eval` and
`Verif.Model.Legacy`, with a number: how many further nested calls of them fit on the stack of the thread. Evaluating an
expression takes one, and the expressions in it are evaluated inside that call.

Simplified: only the calls of the evaluators themselves are counted, not those of the functions between them
(`eval_function_call`, the loops of `MAP` and the like), of which there are at most a fixed number for each, and not those
that copy and release values: `copy`, at the end, counts the copying.
-/

namespace Stack

/-- A call that finds the stack exhausted, or does `r`. -/
def take {α : Type} (d : Nat) (r : Res α) : Res α := if d = 0 then .error exhausted else r

namespace Legacy

mutual
/-- Models `src/runtime/evaluation/core.rs:111-205` (`eval_with_vars`, no registry) and `:207-286`
(`eval_with_vars_and_custom`) on a stack for `d` nested calls. -/
def eval (X : Ext) : Expr → Nat → Den
  | _, 0 => fun _ _ => .error exhausted
  | .number n, _ + 1 => fun _ _ => .ok (.num n)
  | .strLit s, _ + 1 => fun _ _ => .ok (.str s)
  | .null, _ + 1 => fun _ _ => .ok .null
  | .unary op e, d + 1 => fun r env => do Ops.unary op (← eval X e d r env)
  | .binary a op b, d + 1 => fun r env => do
    let x ← eval X a d r env
    let y ← eval X b d r env
    Ops.binary X op x y
  | .var name, _ + 1 => fun r env => match env name with
    | some v => .ok v
    | none => match r with
      | none => fail "Missing variable: :{}" [name]
      | some _ => fail "Undefined variable: {}" [name]
  | .prop t name, d + 1 => fun r env => do Ops.property X (_root_.Legacy.noProps X r) false (← eval X t d r env) name
  | .safeProp t name, d + 1 => fun r env => do Ops.property X (_root_.Legacy.noProps X r) true (← eval X t d r env) name
  | .safeCall t name args, d + 1 => fun r env => do
    match ← eval X t d r env with
    | .null => return .null
    | v => Method.exec X r env name false v (argsOf X args d)
  | .array items, d + 1 => fun r env => do return .arr (← elements r env (argsOf X items d))
  | .object ms, d + 1 => fun r env => do
    return .json (X.jsonPrint (.obj (← objectMembers X r env [] (membersOf X ms d))))
  | .cast e ty, d + 1 => fun r env => do castValue X (← eval X e d r env) ty
  | .index t i, d + 1 => fun r env => do
    let tv ← eval X t d r env
    let iv ← eval X i d r env
    match r with
    | none => _root_.Legacy.index tv iv
    | some _ => _root_.Legacy.indexCustom tv iv
  | .slice t start stop, d + 1 => fun r env => do
    let tv ← eval X t d r env
    match r with
    | none => match tv with
      | .arr items => do
        let s ← _root_.Legacy.optional r env (optOf X start d)
        let e ← _root_.Legacy.optional r env (optOf X stop d)
        sliceArray items s e
      | _ => fail "Slice on non-array"
    | some _ => _root_.Legacy.sliceCustom r env tv (optOf X start d) (optOf X stop d)
  | .call name args, d + 1 => fun r env => _root_.Legacy.call X name (argsOf X args d) r env
  | .method t name args predicate, d + 1 => fun r env => do
    Method.exec X r env name predicate (← eval X t d r env) (argsOf X args d)
  | .spread _, _ + 1 => fun _ _ => fail "Spread not allowed here"
  | .assign _ e, d + 1 => fun r env => eval X e d r env
  | .seq es, d + 1 => fun r env => lastOf r env .null (argsOf X es d)
/-- The arguments, unevaluated. -/
def argsOf (X : Ext) : List Expr → Nat → List Arg
  | [], _ => []
  | .spread e :: rest, d => ⟨fun _ _ => take d (fail "Spread not allowed here"), some (eval X e d), none⟩ :: argsOf X rest d
  | .strLit s :: rest, d => ⟨fun _ _ => take d (.ok (.str s)), none, some s⟩ :: argsOf X rest d
  | e :: rest, d => ⟨eval X e d, none, none⟩ :: argsOf X rest d
/-- The members of an object literal, unevaluated. -/
def membersOf (X : Ext) : List (Str × Expr) → Nat → List (Str × Den)
  | [], _ => []
  | (k, e) :: rest, d => (k, eval X e d) :: membersOf X rest d
/-- An optional operand, unevaluated. -/
def optOf (X : Ext) : Option Expr → Nat → Option Den
  | none, _ => none
  | some e, d => some (eval X e d)
end

end Legacy

mutual
/-- Models `src/runtime/evaluator.rs:97-218` (`Evaluator::eval`) on a stack for `d` nested calls. -/
def eval (X : Ext) : Expr → Nat → Den
  | _, 0 => fun _ _ => .error exhausted
  | .number n, _ + 1 => fun _ _ => .ok (.num n)
  | .strLit s, _ + 1 => fun _ _ => .ok (.str s)
  | .null, _ + 1 => fun _ _ => .ok .null
  | .unary op e, d + 1 => fun r env => do Ops.unary op (← eval X e d r env)
  | .binary a op b, d + 1 => fun r env => do
    let x ← eval X a d r env
    let y ← eval X b d r env
    Ops.binary X op x y
  | .var name, _ + 1 => fun _ env => match env name with
    | some v => .ok v
    | none => fail "Missing variable: :{}" [name]
  | .prop t name, d + 1 => fun r env => do Ops.property X Eval.noProps false (← eval X t d r env) name
  | .safeProp t name, d + 1 => fun r env => do Ops.property X Eval.noProps true (← eval X t d r env) name
  | .safeCall t name args, d + 1 => fun r env => do
    match ← eval X t d r env with
    | .null => return .null
    | v => Method.exec X r env name false v (Legacy.argsOf X args d)
  | .array items, d + 1 => fun r env => do return .arr (← elements r env (argsOf X items d))
  | .object ms, d + 1 => fun r env => do
    return .json (X.jsonPrint (.obj (← objectMembers X r env [] (membersOf X ms d))))
  | .cast e ty, d + 1 => fun r env => do castValue X (← eval X e d r env) ty
  | .index t i, d + 1 => fun r env => do
    let tv ← eval X t d r env
    let iv ← eval X i d r env
    _root_.Legacy.index tv iv
  | .slice t start stop, d + 1 => fun r env => do
    match ← eval X t d r env with
    | .arr items => do
      let s ← _root_.Legacy.optional r env (optOf X start d)
      let e ← _root_.Legacy.optional r env (optOf X stop d)
      sliceArray items s e
    | _ => fail "Slice on non-array"
  | .call name args, d + 1 => fun r env => Eval.call X name (argsOf X args d) r env
  | .method t name args predicate, d + 1 => fun r env => do
    Method.exec X r env name predicate (← eval X t d r env) (Legacy.argsOf X args d)
  | .spread _, _ + 1 => fun _ _ => fail "Spread not allowed here"
  | .assign _ e, d + 1 => fun r env => eval X e d r env
  | .seq es, d + 1 => fun r env => lastOf r env .null (argsOf X es d)
/-- The arguments, unevaluated. -/
def argsOf (X : Ext) : List Expr → Nat → List Arg
  | [], _ => []
  | .spread e :: rest, d => ⟨fun _ _ => take d (fail "Spread not allowed here"), some (eval X e d), none⟩ :: argsOf X rest d
  | .strLit s :: rest, d => ⟨fun _ _ => take d (.ok (.str s)), none, some s⟩ :: argsOf X rest d
  | e :: rest, d => ⟨eval X e d, none, none⟩ :: argsOf X rest d
/-- The members of an object literal, unevaluated. -/
def membersOf (X : Ext) : List (Str × Expr) → Nat → List (Str × Den)
  | [], _ => []
  | (k, e) :: rest, d => (k, eval X e d) :: membersOf X rest d
/-- An optional operand, unevaluated. -/
def optOf (X : Ext) : Option Expr → Nat → Option Den
  | none, _ => none
  | some e, d => some (eval X e d)
end

mutual
/-- Models `src/runtime/evaluator.rs:796-813` (`eval_with_assignments_context`) on a stack for `d` nested calls of the
evaluator; its own calls, two at most, are not counted. -/
def assignments (X : Ext) (d : Nat) : Expr → Env → Res (Value × Env)
  | .assign name e => fun env => do
    let v ← eval X e d none env
    return (v, env.insert name v)
  | .seq es => fun env => assignmentsSeq X d es .null env
  | e => fun env => do return (← eval X e d none env, env)
/-- The loop of `src/runtime/evaluator.rs:804-808`. -/
def assignmentsSeq (X : Ext) (d : Nat) : List Expr → Value → Env → Res (Value × Env)
  | [] => fun last env => .ok (last, env)
  | e :: rest => fun _ env => do
    let (v, env) ← assignments X d e env
    assignmentsSeq X d rest v env
end

/-- Models `src/lib.rs:51-54` (`evaluate`) on a stack for `d` nested calls of the parser, and then of the evaluator. -/
def evaluate (X : Ext) (d : Nat) (input : Str) : Res Value := do
  let e ← parse d input
  eval X e d none Env.empty

/-- Models `src/lib.rs:57-60` (`evaluate_with`) on a stack for `d` nested calls. -/
def evaluateWith (X : Ext) (d : Nat) (input : Str) (vars : Env) : Res Value := do
  let e ← parse d input
  eval X e d none vars

/-- Models `src/lib.rs:156-160` (`evaluate_with_custom`) on a stack for `d` nested calls. -/
def evaluateWithCustom (X : Ext) (d : Nat) (reg : Registry) (input : Str) (vars : Env) : Res Value := do
  let e ← parse d input
  eval X e d (some reg) vars

/-- Models `src/lib.rs:195-198` (`evaluate_with_assignments_and_context`) on a stack for `d` nested calls. -/
def evaluateWithAssignmentsAndContext (X : Ext) (d : Nat) (input : Str) (vars : Env) : Res (Value × Env) := do
  let e ← parse d input
  assignments X d e vars

/-- Models `src/lib.rs:189-192` (`evaluate_with_assignments`) on a stack for `d` nested calls. -/
def evaluateWithAssignments (X : Ext) (d : Nat) (input : Str) (vars : Env) : Res Value := do
  let e ← parse d input
  return (← assignments X d e vars).1

mutual
/-- `Value::clone`, which the compiler derives (`src/types.rs:1-11`), on a stack for `d` nested calls: an array is copied
element by element, each inside the call for the array. The evaluator copies the value of a variable whenever it reads the
variable (`src/runtime/evaluator.rs:113-117`). Simplified: `Vec::clone` between the two calls is not counted. -/
def copy : Value → Nat → Res Value
  | .arr items, d => take d do return .arr (← copyAll items (d - 1))
  | v, d => take d (.ok v)

/-- The elements, one after the other. -/
def copyAll : List Value → Nat → Res (List Value)
  | [], _ => .ok []
  | v :: vs, d => do
    let w ← copy v d
    return w :: (← copyAll vs d)
end

end Stack
