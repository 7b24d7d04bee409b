import Verif.Model.Legacy
/-! The unified evaluator, `src/runtime/evaluator.rs`: what `evaluate*` run. -/

namespace Eval

/-- A parameter name: evaluated, a string, else the default. Models
`src/runtime/evaluator.rs:415-417,500-505`. -/
def paramName (r : Option Registry) (env : Env) (dflt : Str) : Option Arg → Res Str
  | some a => do
    match ← a.run r env with
    | .str s => return s
    | _ => return dflt
  | none => .ok dflt

/-- `FILTER`; the lambda runs without the registry. Models `src/runtime/evaluator.rs:409-436`. -/
def filter (r : Option Registry) (env : Env) (args : List Arg) : Res Value :=
  match args with
  | a :: lam :: rest => do
    let v ← a.run r env
    let p ← paramName r env c!"x" rest.head?
    match v with
    | .arr items => return .arr (← Loop.filter (lam.run none) p env items)
    | _ => fail "FILTER first arg must be array"
  | _ => fail "FILTER expects (array, expr)"

/-- `FIND`. Models `src/runtime/evaluator.rs:438-464`. -/
def find (r : Option Registry) (env : Env) (args : List Arg) : Res Value :=
  match args with
  | a :: lam :: rest => do
    let v ← a.run r env
    let p ← paramName r env c!"x" rest.head?
    match v with
    | .arr items => Loop.find (lam.run none) p env items
    | _ => fail "FIND first arg must be array"
  | _ => fail "FIND expects (array, expr)"

/-- `MAP`. Models `src/runtime/evaluator.rs:466-491`. -/
def map (r : Option Registry) (env : Env) (args : List Arg) : Res Value :=
  match args with
  | a :: lam :: rest => do
    let v ← a.run r env
    let p ← paramName r env c!"x" rest.head?
    match v with
    | .arr items => return .arr (← Loop.map (lam.run none) p env items)
    | _ => fail "MAP first arg must be array"
  | _ => fail "MAP expects (array, expr)"

/-- `REDUCE`. Models `src/runtime/evaluator.rs:493-521`. -/
def reduce (r : Option Registry) (env : Env) (args : List Arg) : Res Value :=
  match args with
  | a :: lam :: init :: rest => do
    let v ← a.run r env
    let acc ← init.run r env
    let p ← paramName r env c!"x" rest.head?
    let q ← paramName r env c!"acc" rest[1]?
    match v with
    | .arr items => Loop.reduce (lam.run none) p q env acc items
    | _ => fail "REDUCE first arg must be array"
  | _ => fail "REDUCE expects (array, expr, initial)"

/-- `Number(n) => f n, Currency(n) => f n, _ => d`. -/
def onAmount (f : F64 → Bool) (d : Bool) : Value → Bool
  | .num n => f n
  | .cur n => f n
  | _ => d

/-- A comparison against a threshold that must be a number. Models
`src/runtime/evaluator.rs:571-577` and its repetitions. -/
def threshold (f : F64 → F64 → Bool) (text : Str) (v : Value) : Bool :=
  match F64.parse text with
  | some t => onAmount (fun n => f n t) false v
  | none => false

/-- Equality with a number, or with a text when the criterion is no number. Models
`src/runtime/evaluator.rs:616-627,628-639`. -/
def equals (text : Str) (v : Value) : Bool :=
  match F64.parse text with
  | some t => onAmount (fun n => F64.feq n t) false v
  | none => match v with
    | .str s => s == text
    | _ => false

/-- Models `src/runtime/evaluator.rs:587-598`. -/
def differs (text : Str) (v : Value) : Bool :=
  match F64.parse text with
  | some t => onAmount (fun n => F64.fne n t) true v
  | none => match v with
    | .str s => s != text
    | _ => true

/-- Models `src/runtime/evaluator.rs:570-639`: a text criterion. -/
def meetsText (crit : Str) (v : Value) : Bool :=
  match Str.stripPrefix crit c!">=" with
  | some t => threshold F64.fge t v
  | none => match Str.stripPrefix crit c!"<=" with
    | some t => threshold F64.fle t v
    | none => match Str.stripPrefix crit c!"<>" with
      | some t => differs t v
      | none => match Str.stripPrefix crit c!">" with
        | some t => threshold F64.fgt t v
        | none => match Str.stripPrefix crit c!"<" with
          | some t => threshold F64.flt t v
          | none => match Str.stripPrefix crit c!"=" with
            | some t => equals t v
            | none => equals crit v

/-- Models `src/runtime/evaluator.rs:567-650` (`meets_criteria`). -/
def meets (crit : Value) (v : Value) : Bool :=
  match crit with
  | .str s => meetsText s v
  | .num t => onAmount (fun n => F64.feq n t) false v
  | _ => false

/-- The loop over both ranges up to the shorter one. Models `src/runtime/evaluator.rs:655-666`. -/
def sumPairs (crit : Value) (acc : F64) : List Value → List Value → F64
  | a :: as, b :: bs => sumPairs crit (if meets crit a then Loop.addTo acc b else acc) as bs
  | _, _ => acc

/-- Models `src/runtime/evaluator.rs:566-684` (`eval_sumif_excel_style`). -/
def sumifExcel (range crit sumRange : Value) : F64 :=
  match range, sumRange with
  | .arr as, .arr bs => sumPairs crit (.zero false) as bs
  | a, b => if meets crit a then (match b with | .num n => n | .cur n => n | _ => .zero false) else .zero false

/-- The criterion when it evaluates to a text or a number under the outer variables. Models
`src/runtime/evaluator.rs:532-537`. A panic is not caught. -/
def staticCriterion (r : Option Registry) (env : Env) (a : Arg) : Res (Option Value) :=
  match a.run r env with
  | .ok (.str s) => .ok (some (.str s))
  | .ok (.num n) => .ok (some (.num n))
  | .ok _ => .ok none
  | .error (.err ..) => .ok none
  | .error (.panic w) => .error (.panic w)

/-- `SUMIF`. Models `src/runtime/evaluator.rs:523-564`. -/
def sumif (r : Option Registry) (env : Env) (args : List Arg) : Res Value :=
  let run (a lam : Arg) (third : Option Arg) : Res Value := do
    let v ← a.run r env
    let sumArray ← match third with
      | some s => do pure (some (← s.run r env))
      | none => pure none
    match ← staticCriterion r env lam with
    | some crit => return .num (sumifExcel v crit (sumArray.getD v))
    | none =>
      if third.isSome then fail "Lambda-style SUMIF expects exactly (array, expr)"
      else match v with
        | .arr items => return .num (← Loop.sumif (lam.run none) env (.zero false) items)
        | _ => fail "SUMIF first arg must be array"
  match args with
  | [a, lam] => run a lam none
  | [a, lam, s] => run a lam (some s)
  | _ => fail "SUMIF expects (array, criteria) or (array, criteria, sum_array)"

/-- `AVGIF`. Models `src/runtime/evaluator.rs:686-714`. -/
def avgif (r : Option Registry) (env : Env) (args : List Arg) : Res Value :=
  match args with
  | [a, lam] => do
    match ← a.run r env with
    | .arr items => return .num (meanOf (← Loop.avgif (lam.run none) env (.zero false) 0 items))
    | _ => fail "AVGIF first arg must be array"
  | _ => fail "AVGIF expects (array, expr)"

/-- `COUNTIF`. Models `src/runtime/evaluator.rs:716-740`. -/
def countif (r : Option Registry) (env : Env) (args : List Arg) : Res Value :=
  match args with
  | [a, lam] => do
    match ← a.run r env with
    | .arr items => return .num (F64.ofNat (← Loop.countif (lam.run none) env 0 items))
    | _ => fail "COUNTIF first arg must be array"
  | _ => fail "COUNTIF expects (array, expr)"

/-- `JQ`. Models `src/runtime/evaluator.rs:365-383`; `is_jsonpath` is `src/runtime/jsonpath.rs:97-99`. -/
def jq (X : Ext) (r : Option Registry) (env : Env) (args : List Arg) : Res Value :=
  match args with
  | [a, b] => do
    let data ← a.run r env
    match ← b.run r env with
    | .str path =>
      if Str.startsWith path c!"$" then JsonFn.applyJsonPath X data path
      else fail "JQ second argument must be a valid JSONPath expression starting with $"
    | _ => fail "JQ second argument must be a string"
  | _ => fail "JQ expects exactly 2 arguments: json_data, jsonpath_expression"

/-- The functions that receive unevaluated arguments. Models `src/runtime/evaluator.rs:357-383`. -/
def higherOrder (X : Ext) (name : Str) : Option (Option Registry → Env → List Arg → Res Value) :=
  if name = c!"FILTER" then some filter
  else if name = c!"FIND" then some find
  else if name = c!"MAP" then some map
  else if name = c!"REDUCE" then some reduce
  else if name = c!"SUMIF" then some sumif
  else if name = c!"AVGIF" then some avgif
  else if name = c!"COUNTIF" then some countif
  else if name = c!"JQ" then some (jq X)
  else none

/-- Models `src/runtime/evaluator.rs:310-406` (`eval_function_call`). A read lock that cannot be had
(poisoned) is not modelled. -/
def call (X : Ext) (name : Str) (args : List Arg) (r : Option Registry) (env : Env) : Res Value :=
  if name = c!"__TERNARY__" then Legacy.ternary r env args
  else if name = c!"__CONST_TRUE__" then .ok (.bool true)
  else if name = c!"__CONST_FALSE__" then .ok (.bool false)
  else
    match (match r with | some reg => if reg.has X name then some reg else none | none => none) with
    | some reg => do reg.execute X name (← evalArgs r env args)
    | none =>
      match higherOrder X name with
      | some f => f r env args
      | none => do execFast X name (← evalArgs r env args)

/-- The error for a receiver without properties. Models `src/runtime/evaluator.rs:305`. -/
def noProps (_ : Value) : Fail := .err "Property access requires JSON object" [] none

mutual
/-- Models `src/runtime/evaluator.rs:97-218` (`Evaluator::eval`). Method arguments go to the older
evaluator. -/
def eval (X : Ext) : Expr → Den
  | .number n => fun _ _ => .ok (.num n)
  | .strLit s => fun _ _ => .ok (.str s)
  | .null => fun _ _ => .ok .null
  | .unary op e => fun r env => do Ops.unary op (← eval X e r env)
  | .binary a op b => fun r env => do
    let x ← eval X a r env
    let y ← eval X b r env
    Ops.binary X op x y
  | .var name => fun _ env => match env name with
    | some v => .ok v
    | none => fail "Missing variable: :{}" [name]
  | .prop t name => fun r env => do Ops.property X noProps false (← eval X t r env) name
  | .safeProp t name => fun r env => do Ops.property X noProps true (← eval X t r env) name
  | .safeCall t name args => fun r env => do
    match ← eval X t r env with
    | .null => return .null
    | v => Method.exec X r env name false v (Legacy.argsOf X args)
  | .array items => fun r env => do return .arr (← elements r env (argsOf X items))
  | .object ms => fun r env => do
    return .json (X.jsonPrint (.obj (← objectMembers X r env [] (membersOf X ms))))
  | .cast e ty => fun r env => do castValue X (← eval X e r env) ty
  | .index t i => fun r env => do
    let tv ← eval X t r env
    let iv ← eval X i r env
    Legacy.index tv iv
  | .slice t start stop => fun r env => do
    match ← eval X t r env with
    | .arr items => do
      let s ← Legacy.optional r env (optOf X start)
      let e ← Legacy.optional r env (optOf X stop)
      sliceArray items s e
    | _ => fail "Slice on non-array"
  | .call name args => fun r env => call X name (argsOf X args) r env
  | .method t name args predicate => fun r env => do
    Method.exec X r env name predicate (← eval X t r env) (Legacy.argsOf X args)
  | .spread _ => fun _ _ => fail "Spread not allowed here"
  | .assign _ e => fun r env => eval X e r env
  | .seq es => fun r env => lastOf r env .null (argsOf X es)
/-- The arguments, unevaluated. -/
def argsOf (X : Ext) : List Expr → List Arg
  | [] => []
  | .spread e :: rest => ⟨fun _ _ => fail "Spread not allowed here", some (eval X e), none⟩ :: argsOf X rest
  | .strLit s :: rest => ⟨fun _ _ => .ok (.str s), none, some s⟩ :: argsOf X rest
  | e :: rest => ⟨eval X e, none, none⟩ :: argsOf X rest
/-- The members of an object literal, unevaluated. -/
def membersOf (X : Ext) : List (Str × Expr) → List (Str × Den)
  | [] => []
  | (k, e) :: rest => (k, eval X e) :: membersOf X rest
/-- An optional operand, unevaluated. -/
def optOf (X : Ext) : Option Expr → Option Den
  | none => none
  | some e => some (eval X e)
end

mutual
/-- Models `src/runtime/evaluator.rs:796-813` (`eval_with_assignments_context`): the value and the variable
map afterwards. On an error the caller discards the map. -/
def assignments (X : Ext) : Expr → Env → Res (Value × Env)
  | .assign name e => fun env => do
    let v ← eval X e none env
    return (v, env.insert name v)
  | .seq es => fun env => assignmentsSeq X es .null env
  | e => fun env => do return (← eval X e none env, env)
/-- The loop of `src/runtime/evaluator.rs:804-808`. -/
def assignmentsSeq (X : Ext) : List Expr → Value → Env → Res (Value × Env)
  | [] => fun last env => .ok (last, env)
  | e :: rest => fun _ env => do
    let (v, env) ← assignments X e env
    assignmentsSeq X rest v env
end

end Eval

/-- Models `src/runtime/evaluator.rs:767-770` (`eval`): the empty context has no variables. -/
def evalPlain (X : Ext) (e : Expr) : Res Value := Eval.eval X e none Env.empty
/-- Models `src/runtime/evaluator.rs:772-775` (`eval_with_vars`). -/
def evalVars (X : Ext) (e : Expr) (vars : Env) : Res Value := Eval.eval X e none vars
/-- Models `src/runtime/evaluator.rs:777-780` (`eval_with_vars_and_custom`). -/
def evalCustom (X : Ext) (reg : Registry) (e : Expr) (vars : Env) : Res Value :=
  Eval.eval X e (some reg) vars
/-- Models `src/runtime/evaluator.rs:783-786` (`eval_with_assignments`). -/
def evalAssign (X : Ext) (e : Expr) (vars : Env) : Res Value := do
  return (← Eval.assignments X e vars).1
/-- Models `src/runtime/evaluator.rs:789-794` (`eval_with_assignments_and_context`). -/
def evalAssignCtx (X : Ext) (e : Expr) (vars : Env) : Res (Value × Env) := Eval.assignments X e vars
