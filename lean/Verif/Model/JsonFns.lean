import Verif.Model.Arithmetic
/-! `src/runtime/json.rs` (`DIG`) and `src/runtime/jsonpath.rs` (`JQ`). -/

namespace JsonFn

/-- One path segment. Models `src/runtime/json.rs:30-62` and
`src/runtime/method_calls/mod.rs:299-312`. -/
def digStep (cur : Json) (seg : Value) : Option Json :=
  match seg with
  | .str key => match cur with
    | .obj ms => objGet key ms
    | _ => none
  | .num n => match cur with
    | .arr items =>
      let idx : Int := if n.isFinite then n.floor.toI64 else -1
      if 0 ≤ idx ∧ idx.toNat < items.length then items[idx.toNat]? else none
    | _ => none
  | _ => none

/-- The path loop. Models `src/runtime/json.rs:27-64`. -/
def digPath (cur : Json) : List Value → Option Json
  | [] => some cur
  | seg :: rest => match digStep cur seg with
    | some next => digPath next rest
    | none => none

/-- `DIG(json, path, [default])`. Models `src/runtime/json.rs:6-76`. -/
def dig (X : Ext) : Builtin := fun args =>
  if args.length < 2 then fail "DIG expects (json_obj, path_array, [default_value])" else
  match argAt args 0 with
  | some (.json s) => match argAt args 1 with
    | some (.arr path) => match X.jsonParse s with
      | .error e => fail "Invalid JSON: {}" [e]
      | .ok j => match digPath j path with
        | some found => .ok (found.toValue X)
        | none => .ok ((argAt args 2).getD .null)
    | _ => fail "DIG second argument must be an array path"
  | some _ => fail "DIG first argument must be JSON object"
  | none => fail "DIG missing first argument"

mutual
/-- Models `src/runtime/jsonpath.rs:31-63` (`value_to_json`): integral numbers become integers,
non-finite numbers are refused. -/
def toJson (X : Ext) : Value → Res Json
  | .num n =>
    if F64.feq n.fract (.zero false) && F64.fge n (F64.ofInt F64.i64Min) && F64.fle n (F64.ofInt F64.i64Max)
    then .ok (.num (.int n.toI64))
    else if n.isFinite then .ok (.num (.float n)) else fail "Invalid number for JSON conversion"
  | .str s => .ok (.str s)
  | .bool b => .ok (.bool b)
  | .null => .ok .null
  | .arr items => do return .arr (← toJsons X items)
  | .cur n => if n.isFinite then .ok (.num (.float n)) else fail "Invalid currency for JSON conversion"
  | .dt t => .ok (.num (.int t))
  | .json s => match X.jsonParse s with
    | .ok j => .ok j
    | .error e => fail "Invalid JSON string: {}" [e]
/-- Models the loop of `src/runtime/jsonpath.rs:46-49`. -/
def toJsons (X : Ext) : List Value → Res (List Json)
  | [] => .ok []
  | v :: vs => do
    let j ← toJson X v
    let js ← toJsons X vs
    return j :: js
end

/-- Models `src/runtime/jsonpath.rs:6-28` (`apply_jsonpath`). -/
def applyJsonPath (X : Ext) (data : Value) (path : Str) : Res Value := do
  let j ← toJson X data
  match X.jsonPath j path with
  | .error e => fail "JSONPath error: {}" [e]
  | .ok [] => .ok (.arr [])
  | .ok [r] => .ok (r.toValue X)
  | .ok rs => .ok (.arr (rs.map (Json.toValue X)))

mutual
/-- Models `src/runtime/jsonpath.rs:102-120` (`extract_numeric_values` and its local `collect_numbers`); the vector pushed to is returned. -/
def extractNumeric : Value → List F64
  | .num n => [n]
  | .cur n => [n]
  | .arr items => extractNumerics items
  | _ => []
/-- Models the loop of `src/runtime/jsonpath.rs:110-112`. -/
def extractNumerics : List Value → List F64
  | [] => []
  | v :: vs => extractNumeric v ++ extractNumerics vs
end

end JsonFn

/-- Models `src/runtime/json.rs:4-82` (`exec_json`). -/
def execJson (X : Ext) (name : Str) (args : List Value) : Res Value :=
  if name = c!"DIG" then JsonFn.dig X args else fail "Unknown JSON function: {}" [name]
