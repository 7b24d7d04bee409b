import Verif.Model.Value
/-! Values passed to and from JavaScript functions: `src/js_plugin.rs:98-124`, `:153-208` and `:224-263`.

The engine (QuickJS through rquickjs) is external: a program is a function from its arguments to its result. Not modelled: failures of the engine to allocate. -/

namespace Js

/-- A JavaScript value, as far as the code tells them apart. -/
inductive Val where
  | undefined
  | null
  | bool (b : Bool)
  | num (n : F64)
  /-- A string; `none` if it cannot be converted to UTF-8 (lone surrogates). -/
  | str (s : Option Str)
  | arr (items : List Val)
  /-- Any other object, functions included: what `JSON.stringify` makes of it, an error or something that may be no string. -/
  | obj (json : Except Str (Option Str))
  /-- Anything else, such as symbols and big integers: the string it converts to, if it does. -/
  | other (s : Option Str)

mutual
/-- Models `src/js_plugin.rs:98-124` (`value_to_js`). The unit converts to `undefined` (rquickjs). -/
def ofValue : Value → Val
  | .num n => .num n
  | .str s => .str (some s)
  | .bool b => .bool b
  | .null => .undefined
  | .arr items => .arr (ofValues items)
  | .cur c => .num c
  | .dt t => .num (F64.ofInt t)
  | .json s => .str (some s)
/-- The loop of `src/js_plugin.rs:109-113`, and of `:250-254`. -/
def ofValues : List Value → List Val
  | [] => []
  | v :: vs => ofValue v :: ofValues vs
end

mutual
/-- Models `src/js_plugin.rs:153-208` (`js_to_value`). -/
def toValue : Val → Res Value
  | .undefined => .ok .null
  | .null => .ok .null
  | .bool b => .ok (.bool b)
  | .num n => .ok (.num n)
  | .str (some s) => .ok (.str s)
  | .str none => fail "JS conversion error: {}" [[]]
  | .arr items => do return .arr (← toValues items)
  | .obj (.ok (some s)) => .ok (.json s)
  | .obj (.ok none) => .ok (.str c!"[object Object]")
  | .obj (.error e) => fail "JSON.stringify failed: {}" [e]
  | .other (some s) => .ok (.str s)
  | .other none => .ok (.str c!"[unknown type]")
/-- The loop of `src/js_plugin.rs:176-180`. -/
def toValues : List Val → Res (List Value)
  | [] => .ok []
  | v :: vs => do return (← toValue v) :: (← toValues vs)
end

/-- Models `src/js_plugin.rs:224-263` (`execute`): `code` is the function `execute` of the program, applied to the array of its arguments; loading the program
and looking the function up may fail too, which is part of `code`. -/
def execute (code : List Val → Except Str Val) (args : List Value) : Res Value :=
  match code (ofValues args) with
  | .ok v => toValue v
  | .error e => fail "JS function execution failed: {}" [e]

end Js
