import Verif.Model.Arithmetic
/-! `src/runtime/string.rs`. Slicing is by byte offset with the boundary checks of `str` indexing. -/

namespace StrFn

/-- `s[a..b]`: byte slicing, a panic off character boundaries. -/
def slice (s : Str) (a b : Nat) : Res Value :=
  match Str.sliceBytes s a b with
  | some r => .ok (.str r)
  | none => panics "byte index is not a char boundary"

/-- Models `src/runtime/string.rs:7-12` (`char_byte_offset`). -/
def charByteOffset (s : Str) (k : Nat) : Nat := Str.byteOffset s k

/-- Models `src/runtime/string.rs:16-18` (`char_count`). -/
def charCount (s : Str) : Nat := s.length

/-- `usize` saturating addition (core library, 64-bit). -/
def satAdd (a b : Nat) : Nat := min (a + b) F64.u64Max.toNat

/-- `if n.is_finite() && n > 0.0 { n as usize } else { 0 }`, models `src/runtime/string.rs:60,78,116`. -/
def takeCount (n : F64) : Nat := if n.isFinite && F64.fgt n (.zero false) then n.toUsize else 0

/-- `SUBSTITUTE`/`SUBSTITUTEM`. Models `src/runtime/string.rs:22-45`. -/
def substitute (err : String) : Builtin := fun args =>
  match argAt args 0, argAt args 1, argAt args 2 with
  | some (.str text), some (.str sub), some (.str repl) => .ok (.str (Str.replace text sub repl))
  | _, _, _ => fail err

/-- The optional count argument of `LEFT`/`RIGHT`. Models `src/runtime/string.rs:55-59,73-77`. -/
def countArg (err : String) (a : Option Value) : Res F64 :=
  match a with
  | some (.num n) => .ok n
  | some _ => fail err
  | none => .ok (.fin 1)

/-- `LEFT`. Models `src/runtime/string.rs:46-63`. -/
def left : Builtin := fun args =>
  if args.isEmpty then fail "LEFT expects string, [num_chars]" else
  match argAt args 0 with
  | some (.str s) => do
    let n ← countArg "LEFT expects number as second argument" (argAt args 1)
    slice s 0 (charByteOffset s (takeCount n))
  | _ => fail "LEFT expects string as first argument"

/-- `RIGHT`. Models `src/runtime/string.rs:64-83`. -/
def right : Builtin := fun args =>
  if args.isEmpty then fail "RIGHT expects string, [num_chars]" else
  match argAt args 0 with
  | some (.str s) => do
    let n ← countArg "RIGHT expects number as second argument" (argAt args 1)
    slice s (charByteOffset s (charCount s - takeCount n)) (Str.byteLen s)
  | _ => fail "RIGHT expects string as first argument"

/-- `MID` on decoded arguments. Models `src/runtime/string.rs:107-127`. -/
def midCore (s : Str) (startNum : F64) (lenOpt : Option F64) : Res Value :=
  let total := charCount s
  let startIndex :=
    if startNum.isFinite then
      let s1 := (if F64.flt startNum (.fin 1) then F64.fin 1 else startNum.floor).toUsize
      min (s1 - 1) total
    else 0
  let endIndex := match lenOpt with
    | some n => min (satAdd startIndex (takeCount n)) total
    | none => total
  if startIndex ≥ total ∨ startIndex ≥ endIndex then .ok (.str [])
  else slice s (charByteOffset s startIndex) (charByteOffset s endIndex)

/-- `MID`. Models `src/runtime/string.rs:84-128`. -/
def mid : Builtin := fun args =>
  if args.length < 2 then fail "MID expects string, start, [num_chars]" else
  match argAt args 0 with
  | some (.str s) => match argAt args 1 with
    | some (.num startNum) => match argAt args 2 with
      | some (.num n) => midCore s startNum (some n)
      | some _ => fail "MID expects number as third argument"
      | none => midCore s startNum none
    | _ => fail "MID expects number as second argument"
  | _ => fail "MID expects string as first argument"

/-- `LENGTH`. Models `src/runtime/string.rs:129-134`. -/
def length : Builtin := fun args =>
  match argAt args 0 with
  | some (.arr items) => .ok (.num (F64.ofNat items.length))
  | some (.str s) => .ok (.num (F64.ofNat s.length))
  | some .null => .ok (.num (.zero false))
  | _ => fail "LENGTH expects array or string"

mutual
/-- What `push_val` appends. Models `src/runtime/string.rs:137-162` (never fails). -/
def concatText (X : Ext) : Value → Str
  | .str s => s
  | .num n => X.fmt n
  | .arr items => concatTexts X items
  | .bool b => if b then c!"TRUE" else c!"FALSE"
  | .null => []
  | .cur _ => []
  | .dt _ => []
  | .json _ => []
/-- Models the loops of `src/runtime/string.rs:148,163-168` (skipping `Null` appends nothing). -/
def concatTexts (X : Ext) : List Value → Str
  | [] => []
  | v :: vs => concatText X v ++ concatTexts X vs
end

/-- `UPPER`. Models `src/runtime/string.rs:171-174`. -/
def upper (X : Ext) : Builtin := fun args =>
  match argAt args 0 with
  | some (.str s) => .ok (.str (X.upper s))
  | _ => fail "UPPER expects string"

/-- `LOWER`. Models `src/runtime/string.rs:175-178`. -/
def lower (X : Ext) : Builtin := fun args =>
  match argAt args 0 with
  | some (.str s) => .ok (.str (X.lower s))
  | _ => fail "LOWER expects string"

/-- `TRIM`. Models `src/runtime/string.rs:179-182`. -/
def trim : Builtin := fun args =>
  match argAt args 0 with
  | some (.str s) => .ok (.str (Str.trim Str.isWs s))
  | _ => fail "TRIM expects string"

/-- `SUBSTRING` on decoded arguments. Models `src/runtime/string.rs:209-227`. -/
def substringCore (s : Str) (start : Nat) (lenArg : Option Value) : Res Value :=
  let n := charCount s
  let stop := match lenArg with
    | some (.num len) => min (satAdd start len.toUsize) n
    | _ => n
  let start := min start n
  let stop := max stop start
  if start ≥ n then .ok (.str [])
  else slice s (charByteOffset s start) (charByteOffset s stop)

/-- `SUBSTRING`. Models `src/runtime/string.rs:183-228`. -/
def substring : Builtin := fun args =>
  if args.length < 2 then fail "SUBSTRING expects string, start, [length]" else
  match argAt args 0 with
  | some (.str s) => match argAt args 1 with
    | some (.num n) => substringCore s n.toUsize (argAt args 2)
    | _ => fail "SUBSTRING expects number as second argument"
  | _ => fail "SUBSTRING expects string as first argument"

/-- `SPLIT`. Models `src/runtime/string.rs:229-239`. -/
def split : Builtin := fun args =>
  match argAt args 0, argAt args 1 with
  | some (.str s), some (.str sep) => .ok (.arr ((Str.split s sep).map .str))
  | some (.str s), none => .ok (.arr ((Str.split s c!",").map fun p => .str (Str.trim Str.isWs p)))
  | _, _ => fail "SPLIT expects string, [separator]"

/-- `REPLACE` on decoded arguments. Models `src/runtime/string.rs:254-270`. -/
def replaceCore (oldText : Str) (startNum numChars : F64) (newText : Str) : Res Value :=
  let len := charCount oldText
  let start1 := if startNum.isFinite then (F64.fmax startNum.floor (.fin 1)).toUsize else 1
  let startIdx := min (start1 - 1) len
  let take := if numChars.isFinite && F64.fgt numChars (.zero false) then numChars.floor.toUsize else 0
  let endIdx := min (satAdd startIdx take) len
  match Str.sliceBytes oldText 0 (charByteOffset oldText startIdx),
        Str.sliceBytes oldText (charByteOffset oldText endIdx) (Str.byteLen oldText) with
  | some a, some b => .ok (.str (a ++ newText ++ b))
  | _, _ => panics "byte index is not a char boundary"

/-- `REPLACE`. Models `src/runtime/string.rs:240-271`. -/
def replace : Builtin := fun args =>
  match args with
  | [a, b, c, d] => match a with
    | .str oldText => match b with
      | .num startNum => match c with
        | .num numChars => match d with
          | .str newText => replaceCore oldText startNum numChars newText
          | _ => fail "REPLACE expects string as fourth argument"
        | _ => fail "REPLACE expects number as third argument"
      | _ => fail "REPLACE expects number as second argument"
    | _ => fail "REPLACE expects string as first argument"
  | _ => fail "REPLACE expects (old_text: string, start_num: number, num_chars: number, new_text: string)"

/-- `REVERSE` of strings. Models `src/runtime/string.rs:272-275`. -/
def reverse : Builtin := fun args =>
  match argAt args 0 with
  | some (.str s) => .ok (.str s.reverse)
  | _ => fail "REVERSE expects string"

/-- `ISBLANK`. Models `src/runtime/string.rs:276-281`. -/
def isBlankFn : Builtin := fun args =>
  match argAt args 0 with
  | some v => .ok (.bool v.isBlank)
  | none => .ok (.bool true)

/-- `ISNUMBER`. Models `src/runtime/string.rs:282-287`. -/
def isNumber : Builtin := fun args =>
  match argAt args 0 with
  | some (.num _) => .ok (.bool true)
  | some (.cur _) => .ok (.bool true)
  | _ => .ok (.bool false)

/-- `ISTEXT`. Models `src/runtime/string.rs:288-290`. -/
def isText : Builtin := fun args =>
  match argAt args 0 with
  | some (.str _) => .ok (.bool true)
  | _ => .ok (.bool false)

/-- `INCLUDES`. Models `src/runtime/string.rs:291-308`. -/
def includes : Builtin := fun args =>
  match args with
  | [.str s, .str sub] => .ok (.bool (Str.contains s sub))
  | [.str _, _] => fail "INCLUDES expects string as second argument"
  | [_, _] => fail "INCLUDES expects string as first argument"
  | _ => fail "INCLUDES expects string, substring"

/-- The arms of `src/runtime/string.rs:21-308`. -/
def table (X : Ext) : List (Str × Builtin) :=
  [(c!"SUBSTITUTE", substitute "SUBSTITUTE expects (text: string, substr: string, replacement: string)"),
   (c!"SUBSTITUTEM", substitute "SUBSTITUTEM expects (text: string, substr: string, replacement: string)"),
   (c!"LEFT", left), (c!"RIGHT", right), (c!"MID", mid), (c!"LENGTH", length),
   (c!"CONCAT", fun args => .ok (.str (concatTexts X args))), (c!"UPPER", upper X), (c!"LOWER", lower X),
   (c!"TRIM", trim), (c!"SUBSTRING", substring), (c!"SPLIT", split), (c!"REPLACE", replace),
   (c!"REVERSE", reverse), (c!"ISBLANK", isBlankFn), (c!"ISNUMBER", isNumber), (c!"ISTEXT", isText),
   (c!"INCLUDES", includes)]

end StrFn

/-- Models `src/runtime/string.rs:20-314` (`exec_string`). -/
def execString (X : Ext) (name : Str) (args : List Value) : Res Value :=
  match lookupFn name (StrFn.table X) with
  | some f => f args
  | none => fail "Unknown string function: {}" [name]
