import Verif.Model.Value
/-! JSON texts: `serde_json::to_string` and `serde_json::from_str` (`Cargo.toml:32`, version 1.0.149 with default features), which the code calls in
`src/lib.rs`, `src/runtime/evaluator.rs`, `src/runtime/json.rs`, the two servers and the command-line tools.

The library is not part of the repository. This is what its documentation and RFC 8259 say: compact output, members in the order of their names, texts escaped only
where they must be, a nesting of at most 127, integers kept exactly if they fit into 64 bits, the last of repeated members. Not modelled: the texts of errors, and how a number with a
fraction or an exponent is written and read (`Floats`). The rest of the model takes the library as it comes (`Ext.jsonPrint`, `Ext.jsonParse`);
`Uses` says that it is this one. -/

namespace JsonText

/-- Writing and reading of doubles: `write` gives the text of a finite double, `read` the value of a number text that is not an integer of 64 bits, or nothing if it is out of range. -/
structure Floats where
  write : F64 → Str
  read : Str → Option F64

/-! ### Writing -/

/-- A character of a text as it is written (`serde_json::to_string`). -/
def escape (c : Char) : Str :=
  if c = '"' then c!"\\\""
  else if c = '\\' then c!"\\\\"
  else if c = '\x08' then c!"\\b"
  else if c = '\x0c' then c!"\\f"
  else if c = '\n' then c!"\\n"
  else if c = '\r' then c!"\\r"
  else if c = '\t' then c!"\\t"
  else if c.toNat < 32 then c!"\\u00" ++ [Nat.digitChar (c.toNat / 16), Nat.digitChar (c.toNat % 16)]
  else [c]

/-- A text between quotes. -/
def quote (s : Str) : Str := '"' :: (s.flatMap escape ++ ['"'])

mutual
/-- `serde_json::to_string`, as called in `src/lib.rs:114`, `src/runtime/evaluator.rs:158`, `src/bin/http_server/eval.rs:129` and `src/bin/sk_server.rs:110`: compact. -/
def print (N : Floats) : Json → Str
  | .null => c!"null"
  | .bool b => Str.showBool b
  | .num (.int i) => Str.showInt i
  | .num (.float x) => N.write x
  | .str s => quote s
  | .arr [] => c!"[]"
  | .arr (j :: js) => '[' :: (print N j ++ printItems N js)
  | .obj [] => c!"{}"
  | .obj ((k, j) :: ms) => '{' :: (quote k ++ ':' :: (print N j ++ printMembers N ms))
/-- The elements after the first, and the closing bracket. -/
def printItems (N : Floats) : List Json → Str
  | [] => c!"]"
  | j :: js => ',' :: (print N j ++ printItems N js)
/-- The members after the first, and the closing brace. -/
def printMembers (N : Floats) : List (Str × Json) → Str
  | [] => c!"}"
  | (k, j) :: ms => ',' :: (quote k ++ ':' :: (print N j ++ printMembers N ms))
end

/-! ### Reading -/

/-- Whitespace of JSON. -/
def isBlank (c : Char) : Bool := c = ' ' || c = '\n' || c = '\t' || c = '\r'

/-- Passes over whitespace. -/
def skip (s : Str) : Str := s.dropWhile isBlank

/-- The value of a hexadecimal digit, of either case. -/
def hexVal (c : Char) : Option Nat :=
  if '0' ≤ c && c ≤ '9' then some (c.toNat - 48)
  else if 'a' ≤ c && c ≤ 'f' then some (c.toNat - 87)
  else if 'A' ≤ c && c ≤ 'F' then some (c.toNat - 55)
  else none

/-- Four hexadecimal digits. -/
def hex4 : Str → Option (Nat × Str)
  | a :: b :: c :: d :: r => do
    let a ← hexVal a
    let b ← hexVal b
    let c ← hexVal c
    let d ← hexVal d
    return (((a * 16 + b) * 16 + c) * 16 + d, r)
  | _ => none

/-- What follows a backslash. A `\u` that is the first half of a pair must be followed by the second half. -/
def escaped : Str → Option (Char × Str)
  | '"' :: r => some ('"', r)
  | '\\' :: r => some ('\\', r)
  | '/' :: r => some ('/', r)
  | 'b' :: r => some ('\x08', r)
  | 'f' :: r => some ('\x0c', r)
  | 'n' :: r => some ('\n', r)
  | 'r' :: r => some ('\r', r)
  | 't' :: r => some ('\t', r)
  | 'u' :: r => do
    let (n, r) ← hex4 r
    if 0xDC00 ≤ n && n ≤ 0xDFFF then none
    else if 0xD800 ≤ n && n ≤ 0xDBFF then
      match r with
      | '\\' :: 'u' :: r => do
        let (m, r) ← hex4 r
        if 0xDC00 ≤ m && m ≤ 0xDFFF then return (Char.ofNat (0x10000 + (n - 0xD800) * 0x400 + (m - 0xDC00)), r) else none
      | _ => none
    else return (Char.ofNat n, r)
  | _ => none

/-- The rest of a text after the opening quote. A control character must be escaped. -/
def string : Nat → Str → Option (Str × Str)
  | 0, _ => none
  | _ + 1, [] => none
  | fuel + 1, c :: r =>
    if c = '"' then some ([], r)
    else if c = '\\' then do
      let (c, r) ← escaped r
      let (s, r) ← string fuel r
      return (c :: s, r)
    else if c.toNat < 32 then none
    else do
      let (s, r) ← string fuel r
      return (c :: s, r)

/-- Decimal digits. -/
def isDigit (c : Char) : Bool := '0' ≤ c && c ≤ '9'

/-- The value of decimal digits. -/
def digitsVal (ds : Str) : Nat := ds.foldl (fun n c => n * 10 + (c.toNat - 48)) 0

/-- The fraction of a number, if there is one: its text and what follows. -/
def fraction : Str → Option (Str × Str)
  | '.' :: r => let ds := r.takeWhile isDigit
    if ds.isEmpty then none else some ('.' :: ds, r.dropWhile isDigit)
  | r => some ([], r)

/-- The sign of an exponent. -/
def expSign : Str → Str × Str
  | '+' :: r => (c!"+", r)
  | '-' :: r => (c!"-", r)
  | r => ([], r)

/-- The exponent of a number, if there is one. -/
def exponent : Str → Option (Str × Str)
  | c :: r =>
    if c = 'e' || c = 'E' then
      let (sign, r) := expSign r
      let ds := r.takeWhile isDigit
      if ds.isEmpty then none else some (c :: (sign ++ ds), r.dropWhile isDigit)
    else some ([], c :: r)
  | [] => some ([], [])

/-- The sign of a number. -/
def minus : Str → Bool × Str
  | '-' :: r => (true, r)
  | r => (false, r)

/-- An integer kept exactly: 0 to 2^64-1, or -2^63 to -1. -/
def exactInt (neg : Bool) (n : Nat) : Option Int :=
  if neg then (if 0 < n && n ≤ 2 ^ 63 then some (-(n : Int)) else none)
  else if n < 2 ^ 64 then some n else none

/-- A number. -/
def number (N : Floats) (s : Str) : Option (Json × Str) :=
  let (neg, s1) := minus s
  let ds := s1.takeWhile isDigit
  if ds.isEmpty || (ds.head? = some '0' && ds.length ≠ 1) then none
  else do
    let (f, r) ← fraction (s1.dropWhile isDigit)
    let (e, r) ← exponent r
    let text := (if neg then c!"-" else []) ++ (ds ++ (f ++ e))
    match (if f.isEmpty && e.isEmpty then exactInt neg (digitsVal ds) else none) with
    | some i => return (.num (.int i), r)
    | none => do
      let x ← N.read text
      return (.num (.float x), r)

mutual
/-- A value, after whitespace; an object keeps its members as they come. `depth` says how many more brackets and braces may be opened. -/
def value (N : Floats) : Nat → Nat → Str → Option (Json × Str)
  | 0, _, _ => none
  | fuel + 1, depth, s =>
    match skip s with
    | '"' :: r => do
      let (t, r) ← string (r.length + 1) r
      return (.str t, r)
    | '[' :: r =>
      match depth with
      | 0 => none
      | depth + 1 =>
        match skip r with
        | ']' :: r => some (.arr [], r)
        | _ => do
          let (js, r) ← items N fuel depth r
          return (.arr js, r)
    | '{' :: r =>
      match depth with
      | 0 => none
      | depth + 1 =>
        match skip r with
        | '}' :: r => some (.obj [], r)
        | _ => do
          let (ms, r) ← members N fuel depth r
          return (.obj ms, r)
    | 'n' :: 'u' :: 'l' :: 'l' :: r => some (.null, r)
    | 't' :: 'r' :: 'u' :: 'e' :: r => some (.bool true, r)
    | 'f' :: 'a' :: 'l' :: 's' :: 'e' :: r => some (.bool false, r)
    | r => number N r
/-- The elements of an array and the closing bracket. -/
def items (N : Floats) : Nat → Nat → Str → Option (List Json × Str)
  | 0, _, _ => none
  | fuel + 1, depth, s => do
    let (j, r) ← value N fuel depth s
    match skip r with
    | ']' :: r => return ([j], r)
    | ',' :: r => do
      let (js, r) ← items N fuel depth r
      return (j :: js, r)
    | _ => none
/-- The members of an object and the closing brace. -/
def members (N : Floats) : Nat → Nat → Str → Option (List (Str × Json) × Str)
  | 0, _, _ => none
  | fuel + 1, depth, s =>
    match skip s with
    | '"' :: r => do
      let (k, r) ← string (r.length + 1) r
      match skip r with
      | ':' :: r => do
        let (j, r) ← value N fuel depth r
        match skip r with
        | '}' :: r => return ([(k, j)], r)
        | ',' :: r => do
          let (ms, r) ← members N fuel depth r
          return ((k, j) :: ms, r)
        | _ => none
      | _ => none
    | _ => none
end

/-- How deeply brackets and braces may be nested (`remaining_depth` of the library). -/
def maxDepth : Nat := 127

/-- A whole text, the members of objects as they come. -/
def tree (N : Floats) (s : Str) : Option Json :=
  match value N (2 * s.length + 2) maxDepth s with
  | some (j, r) => if (skip r).isEmpty then some j else none
  | none => none

mutual
/-- A document as `serde_json::Value` keeps it: members in the order of their names, the last of repeated ones. -/
def norm : Json → Json
  | .arr js => .arr (normItems js)
  | .obj ms => .obj (normMembers [] ms)
  | j => j
/-- Element by element. -/
def normItems : List Json → List Json
  | [] => []
  | j :: js => norm j :: normItems js
/-- One member after the other. -/
def normMembers (acc : List (Str × Json)) : List (Str × Json) → List (Str × Json)
  | [] => acc
  | (k, j) :: ms => normMembers (objInsert k (norm j) acc) ms
end

/-- `serde_json::from_str::<serde_json::Value>`, as called in `src/lib.rs:67`, `src/runtime/evaluator.rs:294`, `src/runtime/json.rs:25`, `src/runtime/jsonpath.rs:59` and `src/bin/sk.rs:107`. -/
def parse (N : Floats) (s : Str) : Option Json := (tree N s).map norm

/-- The JSON library used is this one. -/
structure Uses (X : Ext) (N : Floats) : Prop where
  print : ∀ j, X.jsonPrint j = print N j
  parse : ∀ s j, X.jsonParse s = .ok j ↔ parse N s = some j

end JsonText
