import Verif.Model.Value
/-! Indexing, slicing, casting: `src/runtime/utils.rs`, `src/runtime/type_casting.rs`. -/

/-- Models `src/ast.rs:26-36` (`enum TypeName`). -/
inductive CastTy where
  | integer | float | string | boolean | array | currency | dateTime | json
deriving DecidableEq, Repr

/-- Models `src/runtime/utils.rs:13-29` (`clamp_index`). `-idx` overflows for `isize::MIN`:
a panic in a debug build. -/
def clampIndex (len : Nat) (idx : Int) : Res (Option Nat) :=
  if 0 ≤ idx then .ok (if idx.toNat < len then some idx.toNat else none)
  else if idx = F64.i64Min then panics "attempt to negate with overflow"
  else .ok (if (-idx).toNat ≤ len then some (len - (-idx).toNat) else none)

/-- Models `src/runtime/utils.rs:31-36` (`index_array`). -/
def indexArray (items : List Value) (idx : Int) : Res Value := do
  match ← clampIndex items.length idx with
  | some i => match items[i]? with
    | some v => .ok v
    | none => panics "index out of bounds"
  | none => fail "Index out of bounds"

/-- A slice bound: a number, or absent. Models `src/runtime/utils.rs:44-53`. -/
def sliceBound (dflt : Int) : Option Value → Res Int
  | some (.num n) => .ok n.toI64
  | none => .ok dflt
  | some _ => fail "Slice bounds must be numbers"

/-- Models `src/runtime/utils.rs:38-62` (`slice_array`). `len + s` cannot overflow: `len ≥ 0` and
`s < 0`. -/
def sliceArray (items : List Value) (start stop : Option Value) : Res Value := do
  let len : Int := items.length
  let s ← sliceBound 0 start
  let e ← sliceBound len stop
  let sNorm := if s < 0 then len + s else s
  let eNorm := if e < 0 then len + e else e
  let sIdx := (min (max sNorm 0) len).toNat
  let eIdx := (min (max eNorm 0) len).toNat
  if eIdx < sIdx then .ok (.arr [])
  else .ok (.arr ((items.take eIdx).drop sIdx))

/-- `str::parse::<i64>` (core library). -/
def parseI64 (s : Str) : Option Int :=
  let (neg, ds) := F64.takeSign s
  if ds.isEmpty || !ds.all F64.isDigit then none
  else
    let v : Int := if neg then -(F64.digitsVal ds : Int) else F64.digitsVal ds
    if F64.i64Min ≤ v ∧ v ≤ F64.i64Max then some v else none

/-- The prefix of a text that looks like a decimal number: optional sign in front, digits, one point.
Models the loop of `src/runtime/type_casting.rs:24-35`, from index 1 on. -/
def cleanTail : Bool → Str → Str
  | _, [] => []
  | hasDot, c :: cs =>
      if Str.asciiDigit c then c :: cleanTail hasDot cs
      else if c = '.' ∧ hasDot = false then c :: cleanTail true cs
      else []

/-- Models `src/runtime/type_casting.rs:22-35`, all indices. -/
def cleanInt : Str → Str
  | [] => []
  | c :: cs => if c = '-' ∨ c = '+' then c :: cleanTail false cs else cleanTail false (c :: cs)

/-- `if b { 1.0 } else { 0.0 }`. -/
def F64.ofBool (b : Bool) : F64 := if b then .fin 1 else .zero false

mutual
/-- The text of a `::Json` cast. Models `src/runtime/type_casting.rs:90-118`: that branch never fails
and always yields `Value::Json`. -/
def jsonText (X : Ext) : Value → Str
  | .json s => s
  | .str s => s
  | .num n => X.fmt n
  | .bool b => Str.showBool b
  | .null => c!"null"
  | .cur n => X.fmt n
  | .dt t => Str.showInt t
  | .arr items => c!"[" ++ Str.join c!"," (jsonTexts X items) ++ c!"]"
/-- The items of an array cast to JSON. Models `src/runtime/type_casting.rs:103-112`. -/
def jsonTexts (X : Ext) : List Value → List Str
  | [] => []
  | v :: vs => jsonText X v :: jsonTexts X vs
end

/-- Models `src/runtime/type_casting.rs:5-120` (`cast_value`). -/
def castValue (X : Ext) (v : Value) : CastTy → Res Value
  | .float => match v with
    | .num n => .ok (.num n)
    | .cur n => .ok (.num n)
    | .str s => match F64.parse s with
      | some n => .ok (.num n)
      | none => fail "Cannot cast String to Float"
    | .bool b => .ok (.num (F64.ofBool b))
    | .null => .ok (.num (.zero false))
    | _ => fail "Cannot cast to Float"
  | .integer => match v with
    | .num n => .ok (.num (F64.ofInt n.toI64))
    | .cur n => .ok (.num (F64.ofInt n.toI64))
    | .str s => .ok (.num (((F64.parse (cleanInt s)).getD (.zero false)).trunc))
    | .bool b => .ok (.num (F64.ofBool b))
    | .null => .ok (.num (.zero false))
    | _ => fail "Cannot cast to Integer"
  | .string => .ok (.str (match v with
    | .str s => s
    | .num n => X.fmt n
    | .bool b => if b then c!"TRUE" else c!"FALSE"
    | .null => []
    | .arr items => X.dbgList items
    | .cur n => X.fmtFix 4 n
    | .dt t => Str.showInt t
    | .json s => s))
  | .boolean => .ok (.bool (match v with
    | .bool b => b
    | .num n => F64.fne n (.zero false)
    | .cur n => F64.fne n (.zero false)
    | .str s => !(Str.trim Str.isWs s).isEmpty
    | .arr items => !items.isEmpty
    | .null => false
    | .dt t => t != 0
    | .json s => !(Str.trim Str.isWs s).isEmpty))
  | .array => match v with
    | .arr items => .ok (.arr items)
    | v => .ok (.arr [v])
  | .currency => match v with
    | .cur n => .ok (.cur n)
    | .num n => .ok (.cur n)
    | .str s => match F64.parse s with
      | some n => .ok (.cur n)
      | none => fail "Cannot cast String to Currency"
    | .bool b => .ok (.cur (F64.ofBool b))
    | .null => .ok (.cur (.zero false))
    | _ => fail "Cannot cast to Currency"
  | .dateTime => match v with
    | .dt t => .ok (.dt t)
    | .num n => .ok (.dt n.toI64)
    | .str s => match parseI64 s with
      | some t => .ok (.dt t)
      | none => fail "Cannot cast String to DateTime"
    | _ => fail "Cannot cast to DateTime"
  | .json => .ok (.json (jsonText X v))
