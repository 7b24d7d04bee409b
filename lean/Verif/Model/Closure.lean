import Verif.Model.Ops
/-! Evaluated-later expressions. The evaluators are structural recursions that map an expression
to a function of the registry and the variables; functions that receive unevaluated arguments in the code
(`FILTER`, methods, ..) receive those functions here. -/

/-- What an expression does: given the custom-function registry in reach (if any) and the variables,
a value or a failure. -/
abbrev Den := Option Registry → Env → Res Value

/-- An unevaluated argument: what evaluating it does, what evaluating the operand does when it is a
spread (`...e`), and its text when it is a string literal. -/
structure Arg where
  run : Den
  spread : Option Den
  lit : Option Str

/-- Evaluate argument expressions in order, splicing spreads. Models
`src/runtime/evaluator.rs:334-350,386-402` and `src/runtime/evaluation/core.rs:606-628,659-672,684-697`. -/
def evalArgs (r : Option Registry) (env : Env) : List Arg → Res (List Value)
  | [] => .ok []
  | a :: rest =>
    match a.spread with
    | some inner => do
      match ← inner r env with
      | .arr items => return items ++ (← evalArgs r env rest)
      | _ => fail "Spread expects array"
    | none => do
      let v ← a.run r env
      return v :: (← evalArgs r env rest)

/-- `matches!(v, Value::Boolean(true))`. -/
def isTrue : Value → Bool
  | .bool b => b
  | _ => false

namespace Loop

/-- The loop of `FILTER`; the variable map is carried from one iteration to the next. Models
`src/runtime/evaluator.rs:421-432`, `src/runtime/evaluation/higher_order.rs:57-68,88-96` and
`src/runtime/method_calls/lambda_methods.rs:34-45,74-85`. -/
def filter (lam : Env → Res Value) (p : Str) (env : Env) : List Value → Res (List Value)
  | [] => .ok []
  | it :: rest => do
    let env := env.insert p it
    let r ← lam env
    let out ← filter lam p env rest
    return if isTrue r then it :: out else out

/-- The loop of `FIND`. Models `src/runtime/evaluator.rs:450-460`,
`src/runtime/evaluation/higher_order.rs:114-124,144-151` and
`src/runtime/method_calls/lambda_methods.rs:188-198,227-237`. -/
def find (lam : Env → Res Value) (p : Str) (env : Env) : List Value → Res Value
  | [] => .ok .null
  | it :: rest => do
    let env := env.insert p it
    let r ← lam env
    if isTrue r then .ok it else find lam p env rest

/-- The loop of `MAP`. Models `src/runtime/evaluator.rs:478-487`,
`src/runtime/evaluation/higher_order.rs:169-178,198-204` and
`src/runtime/method_calls/lambda_methods.rs:113-122,151-160`. -/
def map (lam : Env → Res Value) (p : Str) (env : Env) : List Value → Res (List Value)
  | [] => .ok []
  | it :: rest => do
    let env := env.insert p it
    let r ← lam env
    let out ← map lam p env rest
    return r :: out

/-- The loop of `REDUCE`: the element is bound first, then the accumulator. Models
`src/runtime/evaluator.rs:509-517`, `src/runtime/evaluation/higher_order.rs:225-234` and
`src/runtime/method_calls/lambda_methods.rs:277-283,324-330`. -/
def reduce (lam : Env → Res Value) (p q : Str) (env : Env) (acc : Value) : List Value → Res Value
  | [] => .ok acc
  | it :: rest => do
    let env := (env.insert p it).insert q acc
    let acc ← lam env
    reduce lam p q env acc rest

/-- The loop of the variant of `REDUCE` that binds `acc` first, then `x`. Models
`src/runtime/evaluation/higher_order.rs:255-261`. -/
def reduceAccFirst (lam : Env → Res Value) (env : Env) (acc : Value) : List Value → Res Value
  | [] => .ok acc
  | it :: rest => do
    let env := (env.insert c!"acc" acc).insert c!"x" it
    let acc ← lam env
    reduceAccFirst lam env acc rest

/-- `Number(n) | Currency(n) => acc += n`. -/
def addTo (acc : F64) : Value → F64
  | .num n => F64.add acc n
  | .cur n => F64.add acc n
  | _ => acc

/-- Is the value a `Number` or a `Currency`? -/
def isAmount : Value → Bool
  | .num _ => true
  | .cur _ => true
  | _ => false

/-- The loop of `SUMIF` with a lambda. Models `src/runtime/evaluator.rs:546-560` and
`src/runtime/evaluation/higher_order.rs:278-290,310-321`. -/
def sumif (lam : Env → Res Value) (env : Env) (acc : F64) : List Value → Res F64
  | [] => .ok acc
  | it :: rest => do
    let env := env.insert c!"x" it
    let r ← lam env
    sumif lam env (if isTrue r then addTo acc it else acc) rest

/-- The loop of `AVGIF`. Models `src/runtime/evaluator.rs:695-709` and
`src/runtime/evaluation/higher_order.rs:338-352,373-387`. -/
def avgif (lam : Env → Res Value) (env : Env) (acc : F64) (count : Nat) :
    List Value → Res (F64 × Nat)
  | [] => .ok (acc, count)
  | it :: rest => do
    let env := env.insert c!"x" it
    let r ← lam env
    if isTrue r && isAmount it then avgif lam env (addTo acc it) (count + 1) rest
    else avgif lam env acc count rest

/-- The loop of `COUNTIF`. Models `src/runtime/evaluator.rs:725-736` and
`src/runtime/evaluation/higher_order.rs:405-413,433-441`. -/
def countif (lam : Env → Res Value) (env : Env) (count : Nat) : List Value → Res Nat
  | [] => .ok count
  | it :: rest => do
    let env := env.insert c!"x" it
    let r ← lam env
    countif lam env (if isTrue r then count + 1 else count) rest

end Loop

/-- `if count == 0 { 0.0 } else { acc / count as f64 }`. -/
def meanOf (p : F64 × Nat) : F64 := if p.2 = 0 then .zero false else F64.div p.1 (F64.ofNat p.2)

/-- Members of an object literal, in order, into the (sorted) map. Models
`src/runtime/evaluator.rs:151-156` and `src/runtime/evaluation/core.rs:486-494,506-511`. -/
def objectMembers (X : Ext) (r : Option Registry) (env : Env) (ms : List (Str × Json)) :
    List (Str × Den) → Res (List (Str × Json))
  | [] => .ok ms
  | (k, d) :: rest => do
    let v ← d r env
    let j ← v.toJson X
    objectMembers X r env (objInsert k j ms) rest

/-- Array elements in order. Models `src/runtime/evaluator.rs:143-146`. -/
def elements (r : Option Registry) (env : Env) : List Arg → Res (List Value)
  | [] => .ok []
  | a :: rest => do
    let v ← a.run r env
    return v :: (← elements r env rest)

/-- A sequence: the last value, `Null` when empty. Models `src/runtime/evaluator.rs:211-215`. -/
def lastOf (r : Option Registry) (env : Env) (last : Value) : List Arg → Res Value
  | [] => .ok last
  | a :: rest => do
    let v ← a.run r env
    lastOf r env v rest
