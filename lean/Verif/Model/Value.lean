import Verif.Base.F64
/-!
Values, errors, JSON documents and the external functions the code calls.
-/

/-- A `serde_json::Number`: an integer or a float.
Models: the `serde_json` dependency (`Number::as_i64`, `as_f64`, `from_f64`). -/
inductive JNum where
  | int (i : Int)
  | float (x : F64)
deriving DecidableEq, Repr

/-- A `serde_json::Value`. Object members are kept sorted by key without duplicates
(serde_json without `preserve_order` uses a `BTreeMap`; Cargo.lock lists no `indexmap` for it). -/
inductive Json where
  | null
  | bool (b : Bool)
  | num (n : JNum)
  | str (s : Str)
  | arr (items : List Json)
  | obj (members : List (Str × Json))
deriving Repr

/-- Models `src/types.rs:1-11` (`enum Value`). `DateTime(i64)` is an `Int`. -/
inductive Value where
  | num (n : F64)
  | arr (items : List Value)
  | bool (b : Bool)
  | str (s : Str)
  | null
  | cur (n : F64)
  | dt (t : Int)
  | json (s : Str)
deriving Repr

/-- How a call can fail: `Err(Error)` with the message template and the values
interpolated into it, or a panic. Models `src/error.rs:3-7` (`Error`); the position is
kept because parse errors carry it. -/
inductive Fail where
  | err (msg : String) (args : List Str) (pos : Option Int)
  | panic (what : String)
deriving DecidableEq, Repr

/-- `Result<α, Error>` with panics made explicit. -/
abbrev Res (α : Type) := Except Fail α

/-- `Error::new(msg, None)`. Models `src/error.rs:10-15`. -/
def fail {α : Type} (msg : String) (args : List Str := []) : Res α := .error (.err msg args none)

/-- A panic. -/
def panics {α : Type} (what : String) : Res α := .error (.panic what)

/-- Variable maps (`HashMap<String, Value>`), as used by get and insert. -/
abbrev Env := Str → Option Value

namespace Env
/-- The empty map. -/
def empty : Env := fun _ => none
/-- `HashMap::insert`. -/
def insert (e : Env) (k : Str) (v : Value) : Env := fun n => if n = k then some v else e n
end Env

/-- Everything the code delegates to libraries that are not modelled. No law is assumed about any field. -/
structure Ext where
  /-- `f64` `Display` (`n.to_string()`). -/
  fmt : F64 → Str
  /-- `format!("{:.k}", n)`. -/
  fmtFix : Nat → F64 → Str
  /-- `f64` `Debug` (`format!("{:?}", n)`). -/
  dbgNum : F64 → Str
  /-- Whether `char::escape_debug` leaves a non-ASCII character as it is. -/
  plainUni : Char → Bool
  powf : F64 → F64 → F64
  /-- `10f64.powi(k)`. -/
  pow10 : Int → F64
  /-- `f64::powi` (used by the financial functions). -/
  powi : F64 → Int → F64
  sqrt : F64 → F64
  sin : F64 → F64
  cos : F64 → F64
  tan : F64 → F64
  /-- `str::to_uppercase` of a string with a non-ASCII character. -/
  upperUni : Str → Str
  /-- `str::to_lowercase` of a string with a non-ASCII character. -/
  lowerUni : Str → Str
  /-- `char::is_alphanumeric` of a non-ASCII character. -/
  isAlnumUni : Char → Bool
  /-- `char::is_alphabetic` of a non-ASCII character. -/
  isAlphaUni : Char → Bool
  /-- `serde_json::from_str`; the error is its message. -/
  jsonParse : Str → Except Str Json
  /-- `serde_json::to_string`. -/
  jsonPrint : Json → Str
  /-- `jsonpath_rust::JsonPath::query`; the error is its message. -/
  jsonPath : Json → Str → Except Str (List Json)
  /-- What `sort_by` does when the comparison is not a total order (NaN present). -/
  sortUnspecified : List F64 → Res (List F64)
  /-- The clock: `Utc::now().timestamp()`. -/
  now : Int
  /-- `Local::now().date_naive()` at midnight, as a timestamp. -/
  today : Int
  /-- `Local::now().time().num_seconds_from_midnight()`. -/
  secsOfDay : Nat

namespace Ext

/-- `str::to_uppercase` (alloc library): ASCII strings are mapped character by character. -/
def upper (X : Ext) (s : Str) : Str := if s.all Str.isAscii then s.map Str.asciiUpC else X.upperUni s

/-- `str::to_lowercase` (alloc library): ASCII strings are mapped character by character. -/
def lower (X : Ext) (s : Str) : Str := if s.all Str.isAscii then s.map Str.asciiLowC else X.lowerUni s

/-- `char::is_alphanumeric` (core library). -/
def isAlnum (X : Ext) (c : Char) : Bool := if Str.isAscii c then Str.asciiAlnum c else X.isAlnumUni c

/-- `char::is_alphabetic` (core library). -/
def isAlpha (X : Ext) (c : Char) : Bool := if Str.isAscii c then Str.asciiAlpha c else X.isAlphaUni c

/-- `char::escape_debug_ext` as called by `Debug` for `str` (core library): the single quote is left as it is. -/
def dbgChar (X : Ext) (c : Char) : Str :=
  if c = '\x00' then c!"\\0"
  else if c = '\t' then c!"\\t"
  else if c = '\r' then c!"\\r"
  else if c = '\n' then c!"\\n"
  else if c = '\\' then c!"\\\\"
  else if c = '"' then c!"\\\""
  else if (if Str.isAscii c then decide (0x20 ≤ c.val) && decide (c.val ≠ 0x7F) else X.plainUni c) then [c]
  else c!"\\u{" ++ (Nat.toDigits 16 c.toNat ++ c!"}")

/-- `Debug` for `str` (core library): the string between quotes. -/
def dbgStr (X : Ext) (s : Str) : Str := '"' :: (s.flatMap X.dbgChar ++ c!"\"")

mutual
/-- `{:?}` as derived for `Value` (`src/types.rs:1`). -/
def dbg (X : Ext) : Value → Str
  | .num n => c!"Number(" ++ (X.dbgNum n ++ c!")")
  | .arr vs => c!"Array([" ++ (dbgItems X vs ++ c!")")
  | .bool b => c!"Boolean(" ++ (Str.showBool b ++ c!")")
  | .str s => c!"String(" ++ (X.dbgStr s ++ c!")")
  | .null => c!"Null"
  | .cur n => c!"Currency(" ++ (X.dbgNum n ++ c!")")
  | .dt t => c!"DateTime(" ++ (Str.showInt t ++ c!")")
  | .json s => c!"Json(" ++ (X.dbgStr s ++ c!")")
/-- `Debug` for `Vec` (alloc library): the elements, separated by commas, and the closing bracket. -/
def dbgItems (X : Ext) : List Value → Str
  | [] => c!"]"
  | v :: vs => dbg X v ++ dbgRest X vs
/-- The elements after the first, and the closing bracket. -/
def dbgRest (X : Ext) : List Value → Str
  | [] => c!"]"
  | v :: vs => c!", " ++ (dbg X v ++ dbgRest X vs)
end

/-- `format!("{:?}", vs)` for a `Vec<Value>`. -/
def dbgList (X : Ext) (vs : List Value) : Str := '[' :: dbgItems X vs

end Ext

namespace Value

/-- Models `src/types.rs:14-19` (`as_number`): only `Number`, not `Currency`. -/
def asNumber : Value → Option F64
  | .num n => some n
  | _ => none

/-- Models `src/types.rs:21-26` (`as_bool`). -/
def asBool : Value → Option Bool
  | .bool b => some b
  | _ => none

mutual
/-- Models `src/runtime/utils.rs:64-79` (`values_equal`) and the derived `PartialEq` of `Value`
(`src/types.rs:1`), which are the same relation: same variant, IEEE `==` on
floats, elementwise on arrays. -/
def equal : Value → Value → Bool
  | .num x, .num y => F64.feq x y
  | .cur x, .cur y => F64.feq x y
  | .bool x, .bool y => x == y
  | .str x, .str y => x == y
  | .dt x, .dt y => x == y
  | .json x, .json y => x == y
  | .null, .null => true
  | .arr xs, .arr ys => equalList xs ys
  | _, _ => false
/-- The array case: equal lengths and pairwise equal (`utils.rs:74-76`). -/
def equalList : List Value → List Value → Bool
  | [], [] => true
  | x :: xs, y :: ys => equal x y && equalList xs ys
  | _, _ => false
end

/-- Models `src/runtime/utils.rs:4-11` (`is_blank`). -/
def isBlank : Value → Bool
  | .null => true
  | .str s => (Str.trim Str.isWs s).isEmpty
  | .arr items => items.isEmpty
  | _ => false

end Value

/-- Insert into a `BTreeMap` kept as a sorted association list. -/
def objInsert (k : Str) (v : Json) : List (Str × Json) → List (Str × Json)
  | [] => [(k, v)]
  | (k', v') :: rest =>
      if k = k' then (k, v) :: rest
      else if Str.lt k k' then (k, v) :: (k', v') :: rest
      else (k', v') :: objInsert k v rest

/-- `Map::get`. -/
def objGet (k : Str) : List (Str × Json) → Option Json
  | [] => none
  | (k', v) :: rest => if k = k' then some v else objGet k rest

namespace Json

/-- `Number::as_i64` (serde_json): integers in the i64 range. -/
def asI64 : JNum → Option Int
  | .int i => if F64.i64Min ≤ i ∧ i ≤ F64.i64Max then some i else none
  | .float _ => none

/-- `Number::as_f64` (serde_json). -/
def asF64 : JNum → F64
  | .int i => F64.ofInt i
  | .float x => x

/-- `json!(x)` for an `f64`: non-finite numbers become `null` (serde_json `From<f64>`). -/
def ofF64 (x : F64) : Json := if x.isFinite then .num (.float x) else .null

/-- `serde_json::Value::get(key)` with a string key: only objects have members. -/
def get (k : Str) : Json → Option Json
  | .obj ms => objGet k ms
  | _ => none

mutual
/-- Models `src/lib.rs:91-119` (`json_to_value`), which `src/runtime/jsonpath.rs:66-94` repeats.
`as_f64` never fails for a serde_json number, so there is no error case. -/
def toValue (X : Ext) : Json → Value
  | .null => .null
  | .bool b => .bool b
  | .num n => .num (match asI64 n with | some i => F64.ofInt i | none => asF64 n)
  | .str s => .str s
  | .arr items => .arr (toValues X items)
  | .obj ms => .json (X.jsonPrint (.obj ms))
/-- The loop of `src/lib.rs:106-110`. -/
def toValues (X : Ext) : List Json → List Value
  | [] => []
  | j :: js => toValue X j :: toValues X js
end

end Json

mutual
/-- Models `src/runtime/evaluator.rs:743-763` (`value_to_json`), identical to
`src/runtime/evaluation/core.rs:17-38`. -/
def Value.toJson (X : Ext) : Value → Res Json
  | .num n => .ok (Json.ofF64 n)
  | .str s => .ok (.str s)
  | .bool b => .ok (.bool b)
  | .cur c => .ok (Json.ofF64 c)
  | .dt t => .ok (.num (.int t))
  | .null => .ok .null
  | .arr items => do return .arr (← Value.toJsonList X items)
  | .json s => match X.jsonParse s with
    | .ok j => .ok j
    | .error e => fail "Invalid JSON: {}" [e]
/-- The loop of `src/runtime/evaluator.rs:751-757`. -/
def Value.toJsonList (X : Ext) : List Value → Res (List Json)
  | [] => .ok []
  | v :: vs => do
    let j ← Value.toJson X v
    let js ← Value.toJsonList X vs
    return j :: js
end

/-- Parse JSON text or report `Invalid JSON: ..`. Models the repeated
`serde_json::from_str(..).map_err(..)` calls (e.g. `src/runtime/evaluator.rs:294-295`). -/
def parseJson (X : Ext) (s : Str) : Res Json :=
  match X.jsonParse s with
  | .ok j => .ok j
  | .error e => fail "Invalid JSON: {}" [e]
