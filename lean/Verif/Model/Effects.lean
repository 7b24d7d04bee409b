import Verif.Model.Eval
/-! Custom functions with effects. `CustomFn` in `Model/Registry.lean` is a function of its arguments; the trait in `src/custom.rs` allows more: a function may keep a
state, and a JavaScript function may make HTTP requests. Here a custom function may also read and change a world, of any type, and the evaluators are modelled once more with the world
passed along as the code runs. Parts that the code evaluates without a registry cannot call custom functions: they are those of `Model/Eval.lean` and `Model/Legacy.lean`. -/

namespace Fx

/-- A computation that may change the world: the world afterwards, also when it fails, and its value or failure. -/
def M (W α : Type) := W → W × Res α

instance {W : Type} : Monad (M W) where
  pure v := fun w => (w, .ok v)
  bind m f := fun w => match m w with
    | (w, .ok v) => f v w
    | (w, .error e) => (w, .error e)

/-- A computation that leaves the world alone. -/
def lift {W α : Type} (r : Res α) : M W α := fun w => (w, r)

/-- Models `src/custom.rs:26-44` (`trait CustomFunction`), with effects. -/
structure Fn (W : Type) where
  name : Str
  minArgs : Nat
  maxArgs : Option Nat
  run : List Value → M W Value

/-- Models `src/custom.rs:48-50` (`FunctionRegistry`). -/
abbrev Reg (W : Type) := Str → Option (Fn W)

/-- Models `src/custom.rs:93-95` (`has_function`). -/
def Reg.has {W : Type} (X : Ext) (g : Reg W) (name : Str) : Bool := (g (X.upper name)).isSome

/-- Models `src/custom.rs:98-124` (`execute`). -/
def Reg.execute {W : Type} (X : Ext) (g : Reg W) (name : Str) (args : List Value) : M W Value :=
  match g (X.upper name) with
  | none => lift (fail "Unknown custom function: {}" [name])
  | some f =>
    if args.length < f.minArgs then
      lift (fail "{} expects at least {} arguments, got {}" [name, Str.showInt f.minArgs, Str.showInt args.length])
    else match f.maxArgs with
      | some m =>
        if args.length > m then lift (fail "{} expects at most {} arguments, got {}" [name, Str.showInt m, Str.showInt args.length])
        else f.run args
      | none => f.run args

/-- An unevaluated argument: evaluated with the registry, the operand of a spread, and as it is without a registry. -/
structure Operand (W : Type) where
  run : Env → M W Value
  spread : Option (Env → M W Value)
  plain : Arg

variable {W : Type}

/-- Models `src/runtime/evaluator.rs:334-350,386-402` and `src/runtime/evaluation/core.rs:659-672,684-697`. -/
def evalArgs (env : Env) : List (Operand W) → M W (List Value)
  | [] => lift (.ok [])
  | a :: rest =>
    match a.spread with
    | some inner => do
      match ← inner env with
      | .arr items => do
        let vs ← evalArgs env rest
        return items ++ vs
      | _ => lift (fail "Spread expects array")
    | none => do
      let v ← a.run env
      let vs ← evalArgs env rest
      return v :: vs

namespace Loop

/-- The loop of `filter`. Models `src/runtime/evaluation/higher_order.rs:88-96` and `src/runtime/method_calls/lambda_methods.rs:74-85`. -/
def filter (lam : Env → M W Value) (p : Str) (env : Env) : List Value → M W (List Value)
  | [] => lift (.ok [])
  | it :: rest => do
    let r ← lam (env.insert p it)
    let out ← filter lam p (env.insert p it) rest
    return if isTrue r then it :: out else out

/-- The loop of `find`. Models `src/runtime/evaluation/higher_order.rs:144-151` and `src/runtime/method_calls/lambda_methods.rs:227-237`. -/
def find (lam : Env → M W Value) (p : Str) (env : Env) : List Value → M W Value
  | [] => lift (.ok .null)
  | it :: rest => do
    let r ← lam (env.insert p it)
    if isTrue r then lift (.ok it) else find lam p (env.insert p it) rest

/-- The loop of `map`. Models `src/runtime/evaluation/higher_order.rs:198-204` and `src/runtime/method_calls/lambda_methods.rs:151-160`. -/
def map (lam : Env → M W Value) (p : Str) (env : Env) : List Value → M W (List Value)
  | [] => lift (.ok [])
  | it :: rest => do
    let r ← lam (env.insert p it)
    let out ← map lam p (env.insert p it) rest
    return r :: out

/-- The loop of `reduce`. Models `src/runtime/method_calls/lambda_methods.rs:324-330`. -/
def reduce (lam : Env → M W Value) (p q : Str) (env : Env) (acc : Value) : List Value → M W Value
  | [] => lift (.ok acc)
  | it :: rest => do
    let acc' ← lam ((env.insert p it).insert q acc)
    reduce lam p q ((env.insert p it).insert q acc) acc' rest

/-- The loop of `REDUCE` in a method lambda. Models `src/runtime/evaluation/higher_order.rs:255-261`. -/
def reduceAccFirst (lam : Env → M W Value) (env : Env) (acc : Value) : List Value → M W Value
  | [] => lift (.ok acc)
  | it :: rest => do
    let acc' ← lam ((env.insert c!"acc" acc).insert c!"x" it)
    reduceAccFirst lam ((env.insert c!"acc" acc).insert c!"x" it) acc' rest

/-- The loop of `SUMIF` in a method lambda. Models `src/runtime/evaluation/higher_order.rs:310-321`. -/
def sumif (lam : Env → M W Value) (env : Env) (acc : F64) : List Value → M W F64
  | [] => lift (.ok acc)
  | it :: rest => do
    let r ← lam (env.insert c!"x" it)
    sumif lam (env.insert c!"x" it) (if isTrue r then _root_.Loop.addTo acc it else acc) rest

/-- The loop of `AVGIF` in a method lambda. Models `src/runtime/evaluation/higher_order.rs:373-387`. -/
def avgif (lam : Env → M W Value) (env : Env) (acc : F64) (count : Nat) : List Value → M W (F64 × Nat)
  | [] => lift (.ok (acc, count))
  | it :: rest => do
    let r ← lam (env.insert c!"x" it)
    if isTrue r && _root_.Loop.isAmount it then avgif lam (env.insert c!"x" it) (_root_.Loop.addTo acc it) (count + 1) rest
    else avgif lam (env.insert c!"x" it) acc count rest

/-- The loop of `COUNTIF` in a method lambda. Models `src/runtime/evaluation/higher_order.rs:433-441`. -/
def countif (lam : Env → M W Value) (env : Env) (count : Nat) : List Value → M W Nat
  | [] => lift (.ok count)
  | it :: rest => do
    let r ← lam (env.insert c!"x" it)
    countif lam (env.insert c!"x" it) (if isTrue r then count + 1 else count) rest

end Loop

/-- Members of an object literal. Models `src/runtime/evaluator.rs:151-156` and `src/runtime/evaluation/core.rs:506-511`. -/
def objectMembers (X : Ext) (env : Env) (ms : List (Str × Json)) : List (Str × (Env → M W Value)) → M W (List (Str × Json))
  | [] => lift (.ok ms)
  | (k, d) :: rest => do
    let v ← d env
    let j ← lift (v.toJson X)
    objectMembers X env (objInsert k j ms) rest

/-- Array elements. Models `src/runtime/evaluator.rs:143-146`. -/
def elements (env : Env) : List (Operand W) → M W (List Value)
  | [] => lift (.ok [])
  | a :: rest => do
    let v ← a.run env
    let vs ← elements env rest
    return v :: vs

/-- A sequence. Models `src/runtime/evaluator.rs:211-215`. -/
def lastOf (env : Env) (last : Value) : List (Operand W) → M W Value
  | [] => lift (.ok last)
  | a :: rest => do
    let v ← a.run env
    lastOf env v rest

/-- A conditional. Models `src/runtime/evaluation/core.rs:641-653` and `src/runtime/evaluator.rs:313-324`. -/
def ternary (env : Env) (args : List (Operand W)) : M W Value :=
  match args with
  | [c, a, b] => do
    let v ← c.run env
    match v.asBool with
    | some cond => if cond then a.run env else b.run env
    | none => lift (fail "Ternary condition must be boolean")
  | _ => lift (fail "Ternary expects 3 args")

/-- An optional slice bound. Models `src/runtime/evaluator.rs:182-183`. -/
def optional (env : Env) : Option (Env → M W Value) → M W (Option Value)
  | none => lift (.ok none)
  | some d => do
    let v ← d env
    return some v

namespace Method

/-- `filter` with a registry. Models `src/runtime/method_calls/lambda_methods.rs:49-86`. -/
def filter (env : Env) (items : List Value) (args : List (Operand W)) : M W Value :=
  match args with
  | [] => lift (fail "filter expects lambda expression")
  | lam :: rest => do
    let out ← Loop.filter lam.run (_root_.Method.paramName c!"x" (rest.head?.map Operand.plain)) env items
    return .arr out

/-- `map` with a registry. Models `src/runtime/method_calls/lambda_methods.rs:126-161`. -/
def map (env : Env) (items : List Value) (args : List (Operand W)) : M W Value :=
  match args with
  | [] => lift (fail "map expects lambda expression")
  | lam :: rest => do
    let out ← Loop.map lam.run (_root_.Method.paramName c!"x" (rest.head?.map Operand.plain)) env items
    return .arr out

/-- `find` with a registry. Models `src/runtime/method_calls/lambda_methods.rs:202-238`. -/
def find (env : Env) (items : List Value) (args : List (Operand W)) : M W Value :=
  match args with
  | [] => lift (fail "find expects lambda expression")
  | lam :: rest => Loop.find lam.run (_root_.Method.paramName c!"x" (rest.head?.map Operand.plain)) env items

/-- `reduce` with a registry. Models `src/runtime/method_calls/lambda_methods.rs:287-331`. -/
def reduce (env : Env) (items : List Value) (args : List (Operand W)) : M W Value :=
  match args with
  | lam :: init :: rest => do
    let acc ← init.run env
    Loop.reduce lam.run (_root_.Method.paramName c!"x" (rest.head?.map Operand.plain)) (_root_.Method.paramName c!"acc" (rest[1]?.map Operand.plain)) env acc items
  | _ => lift (fail "reduce expects lambda expression and initial value")

/-- Models `src/runtime/method_calls/mod.rs:69-113` (`exec_method_with_custom`): only the methods with a lambda get the registry. -/
def exec (X : Ext) (env : Env) (name : Str) (isPredicate : Bool) (recv : Value) (args : List (Operand W)) : M W Value :=
  if isPredicate then lift (_root_.Method.predicate X name recv)
  else
    let l := X.lower name
    match _root_.Method.conversion X l recv with
    | some res => lift res
    | none =>
      match recv with
      | .str s => lift (_root_.Method.onString X env name s (args.map Operand.plain))
      | .arr items =>
        if l = c!"filter" then filter env items args
        else if l = c!"map" then map env items args
        else if l = c!"find" then find env items args
        else if l = c!"reduce" then reduce env items args
        else lift (_root_.Method.onArray X env name items (args.map Operand.plain))
      | .num n => lift (_root_.Method.onNumber X env name n (args.map Operand.plain))
      | .json s => lift (_root_.Method.onJson X env name s (args.map Operand.plain))
      | v => lift (fail "No methods available for {:?} type" [X.dbg v])

end Method

namespace Legacy

/-- `FILTER` with a registry. Models `src/runtime/evaluation/higher_order.rs:74-100`. -/
def filter (env : Env) (args : List (Operand W)) : M W Value :=
  match args with
  | a :: lam :: _ => do
    match ← a.run env with
    | .arr items => do
      let out ← Loop.filter lam.run c!"x" env items
      return .arr out
    | _ => lift (fail "FILTER first arg must be array")
  | _ => lift (fail "FILTER expects (array, expr)")

/-- `FIND` with a registry. Models `src/runtime/evaluation/higher_order.rs:130-155`. -/
def find (env : Env) (args : List (Operand W)) : M W Value :=
  match args with
  | a :: lam :: _ => do
    match ← a.run env with
    | .arr items => Loop.find lam.run c!"x" env items
    | _ => lift (fail "FIND first arg must be array")
  | _ => lift (fail "FIND expects (array, expr)")

/-- `MAP` with a registry. Models `src/runtime/evaluation/higher_order.rs:184-208`. -/
def map (env : Env) (args : List (Operand W)) : M W Value :=
  match args with
  | a :: lam :: _ => do
    match ← a.run env with
    | .arr items => do
      let out ← Loop.map lam.run c!"x" env items
      return .arr out
    | _ => lift (fail "MAP first arg must be array")
  | _ => lift (fail "MAP expects (array, expr)")

/-- `REDUCE` with a registry. Models `src/runtime/evaluation/higher_order.rs:240-265`. -/
def reduce (env : Env) (args : List (Operand W)) : M W Value :=
  match args with
  | a :: lam :: init :: _ => do
    let v ← a.run env
    let acc ← init.run env
    match v with
    | .arr items => Loop.reduceAccFirst lam.run env acc items
    | _ => lift (fail "REDUCE first arg must be array")
  | _ => lift (fail "REDUCE expects (array, expr, initial)")

/-- `SUMIF` with a registry. Models `src/runtime/evaluation/higher_order.rs:296-325`. -/
def sumif (env : Env) (args : List (Operand W)) : M W Value :=
  match args with
  | [a, lam] => do
    match ← a.run env with
    | .arr items => do
      let s ← Loop.sumif lam.run env (.zero false) items
      return .num s
    | _ => lift (fail "SUMIF first arg must be array")
  | _ => lift (fail "SUMIF expects (array, expr)")

/-- `AVGIF` with a registry. Models `src/runtime/evaluation/higher_order.rs:359-392`. -/
def avgif (env : Env) (args : List (Operand W)) : M W Value :=
  match args with
  | [a, lam] => do
    match ← a.run env with
    | .arr items => do
      let s ← Loop.avgif lam.run env (.zero false) 0 items
      return .num (meanOf s)
    | _ => lift (fail "AVGIF first arg must be array")
  | _ => lift (fail "AVGIF expects (array, expr)")

/-- `COUNTIF` with a registry. Models `src/runtime/evaluation/higher_order.rs:419-445`. -/
def countif (env : Env) (args : List (Operand W)) : M W Value :=
  match args with
  | [a, lam] => do
    match ← a.run env with
    | .arr items => do
      let n ← Loop.countif lam.run env 0 items
      return .num (F64.ofNat n)
    | _ => lift (fail "COUNTIF first arg must be array")
  | _ => lift (fail "COUNTIF expects (array, expr)")

/-- Models `src/runtime/evaluation/higher_order.rs:26-43`. -/
def higherOrder (name : Str) : Option (Env → List (Operand W) → M W Value) :=
  if name = c!"FILTER" then some filter
  else if name = c!"FIND" then some find
  else if name = c!"MAP" then some map
  else if name = c!"REDUCE" then some reduce
  else if name = c!"SUMIF" then some sumif
  else if name = c!"AVGIF" then some avgif
  else if name = c!"COUNTIF" then some countif
  else none

/-- Models `src/runtime/evaluation/core.rs:634-703`. -/
def call (X : Ext) (g : Reg W) (name : Str) (args : List (Operand W)) (env : Env) : M W Value :=
  if name = c!"__TERNARY__" then ternary env args
  else if g.has X name then do
    let vs ← evalArgs env args
    g.execute X name vs
  else match higherOrder name with
    | some f => f env args
    | none => do
      let vs ← evalArgs env args
      lift (execBuiltin X name vs)

/-- A slice bound with a registry. Models `src/runtime/evaluation/core.rs:553-560`. -/
def bound (env : Env) (len dflt : Int) (err : String) : Option (Env → M W Value) → M W Int
  | none => lift (.ok dflt)
  | some d => do
    let v ← d env
    match v.asNumber with
    | some n => return if n.toI32 < 0 then max (len + n.toI32) 0 else min n.toI32 len
    | none => lift (fail err)

/-- Slicing with a registry. Models `src/runtime/evaluation/core.rs:550-568`. -/
def slice (env : Env) (t : Value) (start stop : Option (Env → M W Value)) : M W Value :=
  match t with
  | .arr items => do
    let s ← bound env items.length 0 "Slice start must be number" start
    let e ← bound env items.length items.length "Slice end must be number" stop
    lift (.ok (if s ≤ e then .arr ((items.take e.toNat).drop s.toNat) else .arr []))
  | _ => lift (fail "Slice on non-array")

/-- The error for a receiver without properties. Models `src/runtime/evaluation/core.rs:456,480`. -/
def noProps (X : Ext) (v : Value) : Fail := .err "Property access only supported on JSON objects, got {:?}" [X.dbg v] none

mutual
/-- Models `src/runtime/evaluation/core.rs:207-286` (`eval_with_vars_and_custom`). -/
def eval (X : Ext) (g : Reg W) : Expr → Env → M W Value
  | .number n => fun _ => lift (.ok (.num n))
  | .strLit s => fun _ => lift (.ok (.str s))
  | .null => fun _ => lift (.ok .null)
  | .unary op e => fun env => do
    let v ← eval X g e env
    lift (Ops.unary op v)
  | .binary a op b => fun env => do
    let x ← eval X g a env
    let y ← eval X g b env
    lift (Ops.binary X op x y)
  | .var name => fun env => match env name with
    | some v => lift (.ok v)
    | none => lift (fail "Undefined variable: {}" [name])
  | .prop t name => fun env => do
    let v ← eval X g t env
    lift (Ops.property X (noProps X) false v name)
  | .safeProp t name => fun env => do
    let v ← eval X g t env
    lift (Ops.property X (noProps X) true v name)
  | .safeCall t name args => fun env => do
    match ← eval X g t env with
    | .null => lift (.ok .null)
    | v => Method.exec X env name false v (argsOf X g args)
  | .array items => fun env => do
    let vs ← elements env (argsOf X g items)
    return .arr vs
  | .object ms => fun env => do
    let js ← objectMembers X env [] (membersOf X g ms)
    return .json (X.jsonPrint (.obj js))
  | .cast e ty => fun env => do
    let v ← eval X g e env
    lift (castValue X v ty)
  | .index t i => fun env => do
    let tv ← eval X g t env
    let iv ← eval X g i env
    lift (_root_.Legacy.indexCustom tv iv)
  | .slice t start stop => fun env => do
    let tv ← eval X g t env
    slice env tv (optOf X g start) (optOf X g stop)
  | .call name args => fun env => call X g name (argsOf X g args) env
  | .method t name args predicate => fun env => do
    let v ← eval X g t env
    Method.exec X env name predicate v (argsOf X g args)
  | .spread _ => fun _ => lift (fail "Spread not allowed here")
  | .assign _ e => fun env => eval X g e env
  | .seq es => fun env => lastOf env .null (argsOf X g es)
/-- The arguments, unevaluated. -/
def argsOf (X : Ext) (g : Reg W) : List Expr → List (Operand W)
  | [] => []
  | .spread e :: rest => ⟨fun _ => lift (fail "Spread not allowed here"), some (eval X g e), ⟨fun _ _ => fail "Spread not allowed here", some (_root_.Legacy.eval X e), none⟩⟩ :: argsOf X g rest
  | .strLit s :: rest => ⟨fun _ => lift (.ok (.str s)), none, ⟨fun _ _ => .ok (.str s), none, some s⟩⟩ :: argsOf X g rest
  | e :: rest => ⟨eval X g e, none, ⟨_root_.Legacy.eval X e, none, none⟩⟩ :: argsOf X g rest
/-- The members of an object literal, unevaluated. -/
def membersOf (X : Ext) (g : Reg W) : List (Str × Expr) → List (Str × (Env → M W Value))
  | [] => []
  | (k, e) :: rest => (k, eval X g e) :: membersOf X g rest
/-- An optional operand, unevaluated. -/
def optOf (X : Ext) (g : Reg W) : Option Expr → Option (Env → M W Value)
  | none => none
  | some e => some (eval X g e)
end

end Legacy

/-- A parameter name. Models `src/runtime/evaluator.rs:415-417,500-505`. -/
def paramName (env : Env) (dflt : Str) : Option (Operand W) → M W Str
  | some a => do
    match ← a.run env with
    | .str s => lift (.ok s)
    | _ => lift (.ok dflt)
  | none => lift (.ok dflt)

/-- `FILTER`; the lambda runs without the registry. Models `src/runtime/evaluator.rs:409-436`. -/
def filter (env : Env) (args : List (Operand W)) : M W Value :=
  match args with
  | a :: lam :: rest => do
    let v ← a.run env
    let p ← paramName env c!"x" rest.head?
    lift (match v with
      | .arr items => do return .arr (← _root_.Loop.filter (lam.plain.run none) p env items)
      | _ => fail "FILTER first arg must be array")
  | _ => lift (fail "FILTER expects (array, expr)")

/-- `FIND`. Models `src/runtime/evaluator.rs:438-464`. -/
def find (env : Env) (args : List (Operand W)) : M W Value :=
  match args with
  | a :: lam :: rest => do
    let v ← a.run env
    let p ← paramName env c!"x" rest.head?
    lift (match v with
      | .arr items => _root_.Loop.find (lam.plain.run none) p env items
      | _ => fail "FIND first arg must be array")
  | _ => lift (fail "FIND expects (array, expr)")

/-- `MAP`. Models `src/runtime/evaluator.rs:466-491`. -/
def map (env : Env) (args : List (Operand W)) : M W Value :=
  match args with
  | a :: lam :: rest => do
    let v ← a.run env
    let p ← paramName env c!"x" rest.head?
    lift (match v with
      | .arr items => do return .arr (← _root_.Loop.map (lam.plain.run none) p env items)
      | _ => fail "MAP first arg must be array")
  | _ => lift (fail "MAP expects (array, expr)")

/-- `REDUCE`. Models `src/runtime/evaluator.rs:493-521`. -/
def reduce (env : Env) (args : List (Operand W)) : M W Value :=
  match args with
  | a :: lam :: init :: rest => do
    let v ← a.run env
    let acc ← init.run env
    let p ← paramName env c!"x" rest.head?
    let q ← paramName env c!"acc" rest[1]?
    lift (match v with
      | .arr items => _root_.Loop.reduce (lam.plain.run none) p q env acc items
      | _ => fail "REDUCE first arg must be array")
  | _ => lift (fail "REDUCE expects (array, expr, initial)")

/-- The criterion when it evaluates to a text or a number. Models `src/runtime/evaluator.rs:532-537`. What a failing criterion did to the world stays done. -/
def staticCriterion (env : Env) (a : Operand W) : M W (Option Value) := fun w =>
  match a.run env w with
  | (w, .ok (.str s)) => (w, .ok (some (.str s)))
  | (w, .ok (.num n)) => (w, .ok (some (.num n)))
  | (w, .ok _) => (w, .ok none)
  | (w, .error (.err ..)) => (w, .ok none)
  | (w, .error (.panic why)) => (w, .error (.panic why))

/-- `SUMIF`: the array, the array to sum, the criterion. Models `src/runtime/evaluator.rs:523-564`. -/
def sumif (env : Env) (args : List (Operand W)) : M W Value :=
  match args with
  | [a, lam] => do
    let v ← a.run env
    let crit ← staticCriterion env lam
    lift (match crit with
      | some crit => .ok (.num (Eval.sumifExcel v crit v))
      | none => match v with
        | .arr items => do return .num (← _root_.Loop.sumif (lam.plain.run none) env (.zero false) items)
        | _ => fail "SUMIF first arg must be array")
  | [a, lam, s] => do
    let v ← a.run env
    let sum ← s.run env
    let crit ← staticCriterion env lam
    lift (match crit with
      | some crit => .ok (.num (Eval.sumifExcel v crit sum))
      | none => fail "Lambda-style SUMIF expects exactly (array, expr)")
  | _ => lift (fail "SUMIF expects (array, criteria) or (array, criteria, sum_array)")

/-- `AVGIF`. Models `src/runtime/evaluator.rs:686-714`. -/
def avgif (env : Env) (args : List (Operand W)) : M W Value :=
  match args with
  | [a, lam] => do
    let v ← a.run env
    lift (match v with
      | .arr items => do return .num (meanOf (← _root_.Loop.avgif (lam.plain.run none) env (.zero false) 0 items))
      | _ => fail "AVGIF first arg must be array")
  | _ => lift (fail "AVGIF expects (array, expr)")

/-- `COUNTIF`. Models `src/runtime/evaluator.rs:716-740`. -/
def countif (env : Env) (args : List (Operand W)) : M W Value :=
  match args with
  | [a, lam] => do
    let v ← a.run env
    lift (match v with
      | .arr items => do return .num (F64.ofNat (← _root_.Loop.countif (lam.plain.run none) env 0 items))
      | _ => fail "COUNTIF first arg must be array")
  | _ => lift (fail "COUNTIF expects (array, expr)")

/-- `JQ`. Models `src/runtime/evaluator.rs:365-383`. -/
def jq (X : Ext) (env : Env) (args : List (Operand W)) : M W Value :=
  match args with
  | [a, b] => do
    let data ← a.run env
    let p ← b.run env
    lift (match p with
      | .str path =>
        if Str.startsWith path c!"$" then JsonFn.applyJsonPath X data path
        else fail "JQ second argument must be a valid JSONPath expression starting with $"
      | _ => fail "JQ second argument must be a string")
  | _ => lift (fail "JQ expects exactly 2 arguments: json_data, jsonpath_expression")

/-- Models `src/runtime/evaluator.rs:357-383`. -/
def higherOrder (X : Ext) (name : Str) : Option (Env → List (Operand W) → M W Value) :=
  if name = c!"FILTER" then some filter
  else if name = c!"FIND" then some find
  else if name = c!"MAP" then some map
  else if name = c!"REDUCE" then some reduce
  else if name = c!"SUMIF" then some sumif
  else if name = c!"AVGIF" then some avgif
  else if name = c!"COUNTIF" then some countif
  else if name = c!"JQ" then some (jq X)
  else none

/-- Models `src/runtime/evaluator.rs:310-406` (`eval_function_call`). -/
def call (X : Ext) (g : Reg W) (name : Str) (args : List (Operand W)) (env : Env) : M W Value :=
  if name = c!"__TERNARY__" then ternary env args
  else if name = c!"__CONST_TRUE__" then lift (.ok (.bool true))
  else if name = c!"__CONST_FALSE__" then lift (.ok (.bool false))
  else if g.has X name then do
    let vs ← evalArgs env args
    g.execute X name vs
  else match higherOrder X name with
    | some f => f env args
    | none => do
      let vs ← evalArgs env args
      lift (execFast X name vs)

mutual
/-- Models `src/runtime/evaluator.rs:97-218` (`Evaluator::eval`) with a registry. Method arguments go to the older evaluator. -/
def eval (X : Ext) (g : Reg W) : Expr → Env → M W Value
  | .number n => fun _ => lift (.ok (.num n))
  | .strLit s => fun _ => lift (.ok (.str s))
  | .null => fun _ => lift (.ok .null)
  | .unary op e => fun env => do
    let v ← eval X g e env
    lift (Ops.unary op v)
  | .binary a op b => fun env => do
    let x ← eval X g a env
    let y ← eval X g b env
    lift (Ops.binary X op x y)
  | .var name => fun env => match env name with
    | some v => lift (.ok v)
    | none => lift (fail "Missing variable: :{}" [name])
  | .prop t name => fun env => do
    let v ← eval X g t env
    lift (Ops.property X Eval.noProps false v name)
  | .safeProp t name => fun env => do
    let v ← eval X g t env
    lift (Ops.property X Eval.noProps true v name)
  | .safeCall t name args => fun env => do
    match ← eval X g t env with
    | .null => lift (.ok .null)
    | v => Method.exec X env name false v (Legacy.argsOf X g args)
  | .array items => fun env => do
    let vs ← elements env (argsOf X g items)
    return .arr vs
  | .object ms => fun env => do
    let js ← objectMembers X env [] (membersOf X g ms)
    return .json (X.jsonPrint (.obj js))
  | .cast e ty => fun env => do
    let v ← eval X g e env
    lift (castValue X v ty)
  | .index t i => fun env => do
    let tv ← eval X g t env
    let iv ← eval X g i env
    lift (_root_.Legacy.index tv iv)
  | .slice t start stop => fun env => do
    match ← eval X g t env with
    | .arr items => do
      let s ← optional env (optOf X g start)
      let e ← optional env (optOf X g stop)
      lift (sliceArray items s e)
    | _ => lift (fail "Slice on non-array")
  | .call name args => fun env => call X g name (argsOf X g args) env
  | .method t name args predicate => fun env => do
    let v ← eval X g t env
    Method.exec X env name predicate v (Legacy.argsOf X g args)
  | .spread _ => fun _ => lift (fail "Spread not allowed here")
  | .assign _ e => fun env => eval X g e env
  | .seq es => fun env => lastOf env .null (argsOf X g es)
/-- The arguments, unevaluated. -/
def argsOf (X : Ext) (g : Reg W) : List Expr → List (Operand W)
  | [] => []
  | .spread e :: rest => ⟨fun _ => lift (fail "Spread not allowed here"), some (eval X g e), ⟨fun _ _ => fail "Spread not allowed here", some (Eval.eval X e), none⟩⟩ :: argsOf X g rest
  | .strLit s :: rest => ⟨fun _ => lift (.ok (.str s)), none, ⟨fun _ _ => .ok (.str s), none, some s⟩⟩ :: argsOf X g rest
  | e :: rest => ⟨eval X g e, none, ⟨Eval.eval X e, none, none⟩⟩ :: argsOf X g rest
/-- The members of an object literal, unevaluated. -/
def membersOf (X : Ext) (g : Reg W) : List (Str × Expr) → List (Str × (Env → M W Value))
  | [] => []
  | (k, e) :: rest => (k, eval X g e) :: membersOf X g rest
/-- An optional operand, unevaluated. -/
def optOf (X : Ext) (g : Reg W) : Option Expr → Option (Env → M W Value)
  | none => none
  | some e => some (eval X g e)
end

end Fx

/-- Models `src/runtime/evaluator.rs:777-780` (`eval_with_vars_and_custom`), with effects. -/
def evalEffects {W : Type} (X : Ext) (g : Fx.Reg W) (e : Expr) (vars : Env) : Fx.M W Value := Fx.eval X g e vars
