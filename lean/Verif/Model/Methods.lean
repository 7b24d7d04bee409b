import Verif.Model.Closure
import Verif.Model.Array
import Verif.Model.JsonFns
/-! Method calls: `src/runtime/method_calls/`. Arguments arrive unevaluated; plain arguments are evaluated
by the older evaluator without custom functions, lambdas with the registry in reach, if any. -/

namespace Method

/-- `(n as i64) % 2 == 0`, models `src/runtime/method_calls/predicates.rs:14`. -/
def isEven (n : F64) : Bool := n.toI64 % 2 == 0

/-- Models `src/runtime/method_calls/predicates.rs:6-31` (`exec_predicate`). -/
def predicate (X : Ext) (name : Str) (recv : Value) : Res Value :=
  let num (f : F64 → Bool) : Bool := match recv.asNumber with | some n => f n | none => false
  let l := X.lower name
  if l = c!"positive" then .ok (.bool (num fun n => F64.fgt n (.zero false)))
  else if l = c!"negative" then .ok (.bool (num fun n => F64.flt n (.zero false)))
  else if l = c!"zero" then .ok (.bool (num fun n => F64.feq n (.zero false)))
  else if l = c!"even" then .ok (.bool (num isEven))
  else if l = c!"odd" then .ok (.bool (num fun n => !isEven n))
  else if l = c!"numeric" then .ok (.bool (match recv with | .num _ => true | _ => false))
  else if l = c!"array" then .ok (.bool (match recv with | .arr _ => true | _ => false))
  else if l = c!"nil" then .ok (.bool (match recv with | .null => true | _ => false))
  else if l = c!"blank" then .ok (.bool recv.isBlank)
  else if l = c!"present" then .ok (.bool (!recv.isBlank))
  else fail "Unknown predicate method: {}?" [name]

mutual
/-- Models `src/runtime/method_calls/conversion_methods.rs:20-47` (`to_string`; it never fails). -/
def toText (X : Ext) : Value → Str
  | .null => []
  | .str s => s
  | .num n => if F64.feq n.fract (.zero false) then X.fmtFix 0 n else X.fmt n
  | .bool b => Str.showBool b
  | .cur c => X.fmtFix 2 c
  | .arr items => c!"[" ++ Str.join c!", " (toTexts X items) ++ c!"]"
  | .json s => s
  | .dt t => Str.showInt t
/-- Models the loop of `src/runtime/method_calls/conversion_methods.rs:34-40`. -/
def toTexts (X : Ext) : List Value → List Str
  | [] => []
  | v :: vs => toText X v :: toTexts X vs
end

/-- `s.trim().parse::<f64>().unwrap_or(0.0)`, models
`src/runtime/method_calls/conversion_methods.rs:57,74`. -/
def parseOrZero (s : Str) : F64 := (F64.parse (Str.trim Str.isWs s)).getD (.zero false)

/-- Models `src/runtime/method_calls/conversion_methods.rs:67-81` (`to_float`). -/
def toFloat : Value → F64
  | .null => .zero false
  | .num n => n
  | .cur c => c
  | .bool b => F64.ofBool b
  | .str s => parseOrZero s
  | .arr items => F64.ofNat items.length
  | .json _ => .fin 1
  | .dt _ => .fin 1

/-- Models `src/runtime/method_calls/conversion_methods.rs:50-64` (`to_int`). -/
def toInt : Value → F64
  | .null => .zero false
  | .num n => n.trunc
  | .cur c => c.trunc
  | .bool b => F64.ofBool b
  | .str s => (parseOrZero s).trunc
  | .arr items => F64.ofNat items.length
  | .json _ => .fin 1
  | .dt _ => .fin 1

/-- Models `src/runtime/method_calls/conversion_methods.rs:84-95` (`to_array`). -/
def toArray : Value → List Value
  | .null => []
  | .arr items => items
  | .str s => s.map fun c => .str [c]
  | v => [v]

/-- `serde_json::Number::from_f64` (serde_json): only finite numbers. -/
def jsonNumber (err : String) (n : F64) : Res Json :=
  if n.isFinite then .ok (.num (.float n)) else fail err

mutual
/-- Models `src/runtime/method_calls/conversion_methods.rs:162-190` (`value_to_json_value`). -/
def toJsonValue (X : Ext) : Value → Res Json
  | .null => .ok .null
  | .str s => .ok (.str s)
  | .num n => jsonNumber "Invalid number for JSON" n
  | .bool b => .ok (.bool b)
  | .cur c => jsonNumber "Invalid currency for JSON" c
  | .arr items => do return .arr (← toJsonValues X items)
  | .json s => parseJson X s
  | .dt t => .ok (.str (Str.showInt t))
/-- Models the loop of `src/runtime/method_calls/conversion_methods.rs:178-181`. -/
def toJsonValues (X : Ext) : List Value → Res (List Json)
  | [] => .ok []
  | v :: vs => do
    let j ← toJsonValue X v
    let js ← toJsonValues X vs
    return j :: js
end

/-- Models `src/runtime/method_calls/conversion_methods.rs:98-144` (`to_json`). -/
def toJson (X : Ext) : Value → Res Value
  | .null => .ok (.json c!"{}")
  | .json s => .ok (.json s)
  | v => do return .json (X.jsonPrint (← toJsonValue X v))

/-- Models `src/runtime/method_calls/conversion_methods.rs:147-159` (`to_boolean`). -/
def toBoolean : Value → Bool
  | .null => false
  | .bool b => b
  | .num n => F64.fne n (.zero false)
  | .cur c => F64.fne c (.zero false)
  | .str s => !s.isEmpty
  | .arr items => !items.isEmpty
  | .json _ => true
  | .dt _ => true

/-- The conversion a method name stands for. Models
`src/runtime/method_calls/conversion_methods.rs:5-17` and the name list of
`src/runtime/method_calls/mod.rs:38-44`; `none` for other names. -/
def conversion (X : Ext) (lname : Str) (recv : Value) : Option (Res Value) :=
  if lname = c!"to_s" ∨ lname = c!"to_string" then some (.ok (.str (toText X recv)))
  else if lname = c!"to_i" ∨ lname = c!"to_int" then some (.ok (.num (toInt recv)))
  else if lname = c!"to_f" ∨ lname = c!"to_float" then some (.ok (.num (toFloat recv)))
  else if lname = c!"to_a" ∨ lname = c!"to_array" then some (.ok (.arr (toArray recv)))
  else if lname = c!"to_json" then some (toJson X recv)
  else if lname = c!"to_bool" ∨ lname = c!"to_boolean" then some (.ok (.bool (toBoolean recv)))
  else none

/-- Evaluate an argument the way methods do: by the older evaluator, without custom functions. Models
the repeated `eval_with_vars(&args_expr[i], vars)` (e.g.
`src/runtime/method_calls/string_methods.rs:36-40`). -/
def ev (env : Env) (a : Arg) : Res Value := a.run none env

/-- The text argument of the searching methods. Models
`src/runtime/method_calls/string_methods.rs:33-44,49-60,65-76,81-92`. -/
def textArg (env : Env) (missing bad : String) (args : List Arg) : Res Str :=
  match args with
  | [] => fail missing
  | a :: _ => do
    match ← ev env a with
    | .str s => .ok s
    | _ => fail bad

/-- `substring`/`substr`. Models `src/runtime/method_calls/string_methods.rs:121-154`. -/
def substring (env : Env) (s : Str) (args : List Arg) : Res Value :=
  match args with
  | [] => fail "substring method expects at least 1 argument"
  | a :: rest => do
    match ← ev env a with
    | .num n =>
      let start := n.toUsize
      match rest with
      | b :: _ => do
        match ← ev env b with
        | .num m =>
          let len := m.toUsize
          let stop := min start s.length + min len (s.length - min start s.length)
          return .str (if start ≤ stop then (s.take stop).drop start else [])
        | _ => fail "substring length must be number"
      | [] => return .str (s.drop start)
    | _ => fail "substring start must be number"

/-- `replace`. Models `src/runtime/method_calls/string_methods.rs:100-119`. -/
def replace (env : Env) (s : Str) (args : List Arg) : Res Value :=
  match args with
  | a :: b :: _ => do
    let f ← ev env a
    let t ← ev env b
    match f, t with
    | .str f, .str t => return .str (Str.replace s f t)
    | _, _ => fail "replace method expects string arguments"
  | _ => fail "replace method expects 2 arguments"

/-- Models `src/runtime/method_calls/string_methods.rs:8-161` (`exec_string_method`). `length` counts
bytes. -/
def onString (X : Ext) (env : Env) (name : Str) (s : Str) (args : List Arg) : Res Value :=
  let l := X.lower name
  if l = c!"length" ∨ l = c!"len" then .ok (.num (F64.ofNat (Str.byteLen s)))
  else if l = c!"upper" ∨ l = c!"upcase" then .ok (.str (X.upper s))
  else if l = c!"lower" ∨ l = c!"downcase" then .ok (.str (X.lower s))
  else if l = c!"trim" then .ok (.str (Str.trim Str.isWs s))
  else if l = c!"reverse" then .ok (.str s.reverse)
  else if l = c!"includes" ∨ l = c!"contains" then do
    let sub ← textArg env "includes method expects 1 argument"
      "includes method expects string argument" args
    return .bool (Str.contains s sub)
  else if l = c!"startswith" ∨ l = c!"starts_with" then do
    let p ← textArg env "starts_with method expects 1 argument"
      "starts_with method expects string argument" args
    return .bool (Str.startsWith s p)
  else if l = c!"endswith" ∨ l = c!"ends_with" then do
    let p ← textArg env "ends_with method expects 1 argument"
      "ends_with method expects string argument" args
    return .bool (Str.endsWith s p)
  else if l = c!"split" then do
    let p ← textArg env "split method expects 1 argument" "split method expects string argument" args
    return .arr ((Str.split s p).map .str)
  else if l = c!"replace" then replace env s args
  else if l = c!"substring" ∨ l = c!"substr" then substring env s args
  else fail "Unknown string method: {}" [name]

/-- The loop of `unique`: first occurrences by debug text. Models
`src/runtime/method_calls/array_methods.rs:38-48`. -/
def uniqueLoop (X : Ext) (seen : List Str) : List Value → List Value
  | [] => []
  | v :: rest =>
    if X.dbg v ∈ seen then uniqueLoop X seen rest else v :: uniqueLoop X (X.dbg v :: seen) rest

/-- `nums.sort_by(|a, b| ..partial_cmp(..).unwrap_or(Equal))`, models
`src/runtime/method_calls/array_methods.rs:73-77`. With a NaN among two or more numbers the comparison is
not an order and what the library does is left unspecified. -/
def sortNums (X : Ext) (desc : Bool) (nums : List F64) : Res (List F64) :=
  if 2 ≤ nums.length ∧ nums.any F64.isNan then X.sortUnspecified nums
  else .ok (if desc then Arr.sortBy (fun a b => F64.fle b a) nums else Arr.sortBy F64.fle nums)

/-- `sort`. Models `src/runtime/method_calls/array_methods.rs:50-79`. -/
def sort (X : Ext) (env : Env) (items : List Value) (args : List Arg) : Res Value := do
  let desc ← match args with
    | [] => pure false
    | a :: _ => do
      match ← ev env a with
      | .str s => pure (X.upper s == c!"DESC")
      | _ => pure false
  let nums ← Arr.allNums "sort expects numeric array" items
  let nums ← sortNums X desc nums
  return .arr (nums.map .num)

/-- Fold the amounts of an all-amount array. Models the loops of
`src/runtime/method_calls/array_methods.rs:82-89,97-104`. -/
def total (err : String) (acc : F64) : List Value → Res F64
  | [] => .ok acc
  | .num n :: rest => total err (F64.add acc n) rest
  | .cur n :: rest => total err (F64.add acc n) rest
  | _ :: _ => fail err

/-- Models the loops of `src/runtime/method_calls/array_methods.rs:112-129,137-154`:
`n.min(current)`, `n.max(current)`. -/
def extreme (f : F64 → F64 → F64) (err : String) (cur : Option F64) : List Value → Res (Option F64)
  | [] => .ok cur
  | .num n :: rest => extreme f err (some (match cur with | none => n | some c => f n c)) rest
  | .cur n :: rest => extreme f err (some (match cur with | none => n | some c => f n c)) rest
  | _ :: _ => fail err

/-- `min`/`max`. Models `src/runtime/method_calls/array_methods.rs:108-156`. -/
def extremeOf (f : F64 → F64 → F64) (err : String) (items : List Value) : Res Value :=
  if items.isEmpty then .ok .null else do
    return .num ((← extreme f err none items).getD (.zero false))

/-- Models `src/runtime/method_calls/array_methods.rs:175-180`. -/
def joinParts (X : Ext) : List Value → Res (List Str)
  | [] => .ok []
  | .str s :: rest => do return s :: (← joinParts X rest)
  | .num n :: rest => do return X.fmt n :: (← joinParts X rest)
  | .bool b :: rest => do return Str.showBool b :: (← joinParts X rest)
  | _ :: _ => fail "join method cannot convert value to string"

/-- `join`. Models `src/runtime/method_calls/array_methods.rs:158-184`. -/
def join (X : Ext) (env : Env) (items : List Value) (args : List Arg) : Res Value := do
  let sep ← match args with
    | [] => pure c!","
    | a :: _ => do
      match ← ev env a with
      | .str s => pure s
      | _ => pure c!","
  return .str (Str.join sep (← joinParts X items))

/-- `compact`. Models `src/runtime/method_calls/array_methods.rs:214-221`. -/
def compact (items : List Value) : List Value :=
  items.filter fun v => match v with | .null => false | _ => true

/-- Models `src/runtime/method_calls/array_methods.rs:8-228` (`exec_array_method`). -/
def onArray (X : Ext) (env : Env) (name : Str) (items : List Value) (args : List Arg) : Res Value :=
  let l := X.lower name
  if l = c!"length" ∨ l = c!"len" ∨ l = c!"count" then .ok (.num (F64.ofNat items.length))
  else if l = c!"first" then .ok (items.head?.getD .null)
  else if l = c!"last" then .ok (items.getLast?.getD .null)
  else if l = c!"reverse" then .ok (.arr items.reverse)
  else if l = c!"unique" then .ok (.arr (uniqueLoop X [] items))
  else if l = c!"sort" then sort X env items args
  else if l = c!"sum" then do return .num (← total "sum method expects numeric array" (.zero false) items)
  else if l = c!"avg" ∨ l = c!"average" then
    if items.isEmpty then .ok (.num (.zero false)) else do
      let t ← total "avg method expects numeric array" (.zero false) items
      return .num (F64.div t (F64.ofNat items.length))
  else if l = c!"min" then extremeOf F64.fmin "min method expects numeric array" items
  else if l = c!"max" then extremeOf F64.fmax "max method expects numeric array" items
  else if l = c!"join" then join X env items args
  else if l = c!"contains" ∨ l = c!"includes" then
    match args with
    | [] => fail "contains method expects 1 argument"
    | a :: _ => do
      let needle ← ev env a
      return .bool (items.any fun v => v.equal needle)
  else if l = c!"flatten" then .ok (.arr (Arr.flattens items))
  else if l = c!"compact" then .ok (.arr (compact items))
  else fail "Unknown array method: {}" [name]

/-- The parameter name of a lambda method: a string literal, else the default. Models
`src/runtime/method_calls/lambda_methods.rs:25-32,259-275`. -/
def paramName (dflt : Str) (a : Option Arg) : Str :=
  match a with
  | some a => a.lit.getD dflt
  | none => dflt

/-- `filter`. Models `src/runtime/method_calls/lambda_methods.rs:10-46,49-86`. -/
def filter (r : Option Registry) (env : Env) (items : List Value) (args : List Arg) : Res Value :=
  match args with
  | [] => fail "filter expects lambda expression"
  | lam :: rest => do
    return .arr (← Loop.filter (lam.run r) (paramName c!"x" rest.head?) env items)

/-- `map`. Models `src/runtime/method_calls/lambda_methods.rs:89-123,126-161`. -/
def map (r : Option Registry) (env : Env) (items : List Value) (args : List Arg) : Res Value :=
  match args with
  | [] => fail "map expects lambda expression"
  | lam :: rest => do
    return .arr (← Loop.map (lam.run r) (paramName c!"x" rest.head?) env items)

/-- `find`. Models `src/runtime/method_calls/lambda_methods.rs:164-199,202-238`. -/
def find (r : Option Registry) (env : Env) (items : List Value) (args : List Arg) : Res Value :=
  match args with
  | [] => fail "find expects lambda expression"
  | lam :: rest => Loop.find (lam.run r) (paramName c!"x" rest.head?) env items

/-- `reduce`. Models `src/runtime/method_calls/lambda_methods.rs:241-284,287-331`. -/
def reduce (r : Option Registry) (env : Env) (items : List Value) (args : List Arg) : Res Value :=
  match args with
  | lam :: init :: rest => do
    let acc ← init.run r env
    Loop.reduce (lam.run r) (paramName c!"x" rest.head?) (paramName c!"acc" rest[1]?) env acc items
  | _ => fail "reduce expects lambda expression and initial value"

/-- `round`. Models `src/runtime/method_calls/mod.rs:134-156`. -/
def round (X : Ext) (env : Env) (n : F64) (args : List Arg) : Res Value :=
  match args with
  | [] => .ok (.num n.roundHalfAway)
  | a :: _ => do
    match ← ev env a with
    | .num p =>
      let precision := p.toI32
      if precision = 0 then return .num n.roundHalfAway
      else
        let m := X.pow10 precision
        return .num (F64.div (F64.mul n m).roundHalfAway m)
    | _ => fail "round precision must be number"

/-- A bound of `between`. Models `src/runtime/method_calls/mod.rs:185-194`. -/
def amount (err : String) : Value → Res F64
  | .num n => .ok n
  | .cur c => .ok c
  | _ => fail err

/-- `between`. Models `src/runtime/method_calls/mod.rs:168-197`. -/
def between (env : Env) (n : F64) (args : List Arg) : Res Value :=
  match args with
  | [a, b] => do
    let lo ← ev env a
    let hi ← ev env b
    let lo ← amount "between min must be a number" lo
    let hi ← amount "between max must be a number" hi
    return .bool (F64.fge n lo && F64.fle n hi)
  | _ => fail "between expects 2 arguments: min, max"

/-- Models `src/runtime/method_calls/mod.rs:116-203` (`exec_number_method`; only reached for
`Number`). -/
def onNumber (X : Ext) (env : Env) (name : Str) (n : F64) (args : List Arg) : Res Value :=
  let l := X.lower name
  if l = c!"abs" then .ok (.num n.abs)
  else if l = c!"ceil" ∨ l = c!"ceiling" then .ok (.num n.ceil)
  else if l = c!"floor" then .ok (.num n.floor)
  else if l = c!"round" then round X env n args
  else if l = c!"sqrt" then
    if F64.flt n (.zero false) then fail "Cannot take square root of negative number"
    else .ok (.num (X.sqrt n))
  else if l = c!"sin" then .ok (.num (X.sin n))
  else if l = c!"cos" then .ok (.num (X.cos n))
  else if l = c!"tan" then .ok (.num (X.tan n))
  else if l = c!"int" then .ok (.num n.trunc)
  else if l = c!"between" then between env n args
  else fail "Unknown number method: {}" [name]

/-- `dig`. Models `src/runtime/method_calls/mod.rs:274-322`. -/
def dig (X : Ext) (env : Env) (s : Str) (args : List Arg) : Res Value :=
  match args with
  | [] => fail "dig(path_array, [default]) expects at least 1 argument"
  | a :: rest => do
    let path ← ev env a
    let dflt ← match rest with
      | [] => pure Value.null
      | b :: _ => ev env b
    match path with
    | .arr path => do
      let j ← parseJson X s
      match JsonFn.digPath j path with
      | some found => return found.toValue X
      | none => return dflt
    | _ => fail "dig expects first argument to be an array path"

/-- Models `src/runtime/method_calls/mod.rs:206-329` (`exec_json_method`). -/
def onJson (X : Ext) (env : Env) (name : Str) (s : Str) (args : List Arg) : Res Value :=
  let l := X.lower name
  if l = c!"keys" then do
    match ← parseJson X s with
    | .obj ms => return .arr (ms.map fun m => .str m.1)
    | _ => fail "keys() method requires JSON object"
  else if l = c!"values" then do
    match ← parseJson X s with
    | .obj ms => return .arr (ms.map fun m => m.2.toValue X)
    | _ => fail "values() method requires JSON object"
  else if l = c!"has_key" ∨ l = c!"has" then
    match args with
    | [] => fail "has_key method expects 1 argument"
    | a :: _ => do
      match ← ev env a with
      | .str key => do
        match ← parseJson X s with
        | .obj ms => return .bool (objGet key ms).isSome
        | _ => return .bool false
      | _ => fail "has_key method expects string argument"
  else if l = c!"dig" then dig X env s args
  else fail "Unknown JSON method: {}" [name]

/-- Models `src/runtime/method_calls/mod.rs:23-66` (`exec_method`, no registry) and `:69-113`
(`exec_method_with_custom`). -/
def exec (X : Ext) (r : Option Registry) (env : Env) (name : Str) (isPredicate : Bool) (recv : Value)
    (args : List Arg) : Res Value :=
  if isPredicate then predicate X name recv
  else
    let l := X.lower name
    match conversion X l recv with
    | some res => res
    | none =>
      match recv with
      | .str s => onString X env name s args
      | .arr items =>
        if l = c!"filter" then filter r env items args
        else if l = c!"map" then map r env items args
        else if l = c!"find" then find r env items args
        else if l = c!"reduce" then reduce r env items args
        else onArray X env name items args
      | .num n => onNumber X env name n args
      | .json s => onJson X env name s args
      | v => fail "No methods available for {:?} type" [X.dbg v]

end Method
