import Verif.Model.Arithmetic
/-! `src/runtime/array.rs`. -/

namespace Arr

mutual
/-- Models `src/runtime/array.rs:10-15` (`flatten`). -/
def flatten : Value → List Value
  | .arr items => flattens items
  | v => [v]
/-- Models the loops of `src/runtime/array.rs:12,17`. -/
def flattens : List Value → List Value
  | [] => []
  | v :: vs => flatten v ++ flattens vs
end

/-- `FIRST`. Models `src/runtime/array.rs:20`. -/
def first : Builtin := fun args =>
  match argAt args 0 with
  | some (.arr items) => match items.head? with
    | some v => .ok v
    | none => fail "FIRST on empty array"
  | _ => fail "FIRST expects array"

/-- `LAST`. Models `src/runtime/array.rs:21`. -/
def last : Builtin := fun args =>
  match argAt args 0 with
  | some (.arr items) => match items.getLast? with
    | some v => .ok v
    | none => fail "LAST on empty array"
  | _ => fail "LAST expects array"

/-- `CONTAINS`. Models `src/runtime/array.rs:22-27`. -/
def contains : Builtin := fun args =>
  match argAt args 0 with
  | some (.arr items) =>
    let needle := (argAt args 1).getD .null
    .ok (.bool (items.any fun v => v.equal needle))
  | _ => fail "CONTAINS expects array, value"

/-- `IN`. Models `src/runtime/array.rs:28-38`. -/
def inFn : Builtin := fun args =>
  match args with
  | [.arr items, needle] => .ok (.bool (items.any fun v => v.equal needle))
  | [_, _] => fail "IN expects array as first argument"
  | _ => fail "IN expects 2 arguments: array, value"

/-- `COUNT`. Models `src/runtime/array.rs:39-49`. -/
def count : Builtin := fun args =>
  match args with
  | [.arr items] => .ok (.num (F64.ofNat items.length))
  | [.null] => .ok (.num (.zero false))
  | [_] => fail "COUNT expects array"
  | _ => fail "COUNT expects 1 argument: array"

/-- The loop of `UNIQUE`: numbers only, keyed by their bits. Models `src/runtime/array.rs:52-54`.
Bits are modelled by `F64` itself, which identifies all NaN payloads. -/
def uniqueLoop (seen : List F64) : List Value → List Value
  | [] => []
  | .num n :: rest =>
    if n ∈ seen then uniqueLoop seen rest else .num n :: uniqueLoop (n :: seen) rest
  | _ :: rest => uniqueLoop seen rest

/-- `UNIQUE`. Models `src/runtime/array.rs:50-58`. -/
def unique : Builtin := fun args =>
  match argAt args 0 with
  | some (.arr items) => .ok (.arr (uniqueLoop [] items))
  | _ => fail "UNIQUE expects array"

/-- Insert in front of equal elements (the inserted element came first). -/
def insertBy (le : F64 → F64 → Bool) (x : F64) : List F64 → List F64
  | [] => [x]
  | y :: ys => if le x y then x :: y :: ys else y :: insertBy le x ys

/-- Stable sort; the stable sort of a list by a total preorder is unique, so this is `slice::sort_by`
(alloc library) whenever the comparison is a total preorder. -/
def sortBy (le : F64 → F64 → Bool) : List F64 → List F64
  | [] => []
  | x :: xs => insertBy le x (sortBy le xs)

/-- `nums.sort_by(|a, b| a.partial_cmp(b).unwrap())`, models `src/runtime/array.rs:64` and
`src/runtime/statistical.rs:27,159,207`. Every element of a slice of two or more takes part in a comparison, so
a NaN there means a panic. -/
def sortNums (nums : List F64) : Res (List F64) :=
  if 2 ≤ nums.length ∧ nums.any F64.isNan then panics "called `Option::unwrap()` on a `None` value"
  else .ok (sortBy F64.fle nums)

/-- All elements as numbers. Models the loop of `src/runtime/array.rs:63` and
`src/runtime/method_calls/array_methods.rs:65-71`. -/
def allNums (err : String) : List Value → Res (List F64)
  | [] => .ok []
  | .num n :: rest => do return n :: (← allNums err rest)
  | _ :: _ => fail err

/-- `SORT`. Models `src/runtime/array.rs:59-69`. -/
def sort : Builtin := fun args =>
  match argAt args 0 with
  | some (.arr items) => do
    let desc := match argAt args 1 with
      | some (.str s) => Str.eqIgnoreCase s c!"DESC"
      | _ => false
    let nums ← allNums "SORT expects numeric array" items
    let nums ← sortNums nums
    return .arr ((if desc then nums.reverse else nums).map .num)
  | _ => fail "SORT expects array"

/-- `REVERSE` of arrays. Models `src/runtime/array.rs:70-73`. -/
def reverse : Builtin := fun args =>
  match argAt args 0 with
  | some (.arr items) => .ok (.arr items.reverse)
  | _ => fail "REVERSE expects array"

/-- The text of one joined element. Models `src/runtime/array.rs:79-88`. -/
def joinPart (X : Ext) : Value → Res Str
  | .str s => .ok s
  | .num n => .ok (X.fmt n)
  | .bool b => .ok (if b then c!"TRUE" else c!"FALSE")
  | .null => .ok []
  | .cur n => .ok (X.fmtFix 4 n)
  | .dt t => .ok (Str.showInt t)
  | .json s => .ok s
  | .arr _ => fail "JOIN does not flatten nested arrays"

/-- Models the loop of `src/runtime/array.rs:78-89`. -/
def joinParts (X : Ext) : List Value → Res (List Str)
  | [] => .ok []
  | v :: vs => do
    let p ← joinPart X v
    let ps ← joinParts X vs
    return p :: ps

/-- `JOIN`. Models `src/runtime/array.rs:74-93`. -/
def join (X : Ext) : Builtin := fun args =>
  match argAt args 0 with
  | some (.arr items) => do
    let sep := match argAt args 1 with
      | some (.str s) => s
      | _ => c!","
    return .str (Str.join sep (← joinParts X items))
  | _ => fail "JOIN expects array, [separator]"

/-- The arms of `src/runtime/array.rs:7-93`. -/
def table (X : Ext) : List (Str × Builtin) :=
  [(c!"ARRAY", fun args => .ok (.arr args)), (c!"FLATTEN", fun args => .ok (.arr (flattens args))),
   (c!"FIRST", first), (c!"LAST", last), (c!"CONTAINS", contains), (c!"IN", inFn),
   (c!"COUNT", count), (c!"UNIQUE", unique), (c!"SORT", sort), (c!"REVERSE", reverse),
   (c!"JOIN", join X)]

end Arr

/-- Models `src/runtime/array.rs:6-96` (`exec_array`). -/
def execArray (X : Ext) (name : Str) (args : List Value) : Res Value :=
  match lookupFn name (Arr.table X) with
  | some f => f args
  | none => fail "Unknown array function: {}" [name]
