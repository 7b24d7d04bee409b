import Verif.Model.Value
/-! Custom functions and their registry: `src/custom.rs`. -/

/-- Models `src/custom.rs:26-44` (`trait CustomFunction`). `execute` is any function of the
arguments: deterministic custom functions without side effects. `Model/Effects.lean` has those with effects. -/
structure CustomFn where
  name : Str
  minArgs : Nat
  maxArgs : Option Nat
  run : List Value → Res Value

/-- Models `src/custom.rs:48-50` (`FunctionRegistry`): a map from upper-cased names. -/
abbrev Registry := Str → Option CustomFn

namespace Registry

/-- Models `src/custom.rs:54-58` (`new`). -/
def empty : Registry := fun _ => none

/-- The largest `usize` on a 64-bit target. -/
def usizeMax : Nat := 2 ^ 64 - 1

/-- Models `src/custom.rs:61-75` (`register`). -/
def register (X : Ext) (r : Registry) (f : CustomFn) : Res Registry :=
  let name := X.upper f.name
  if name.isEmpty then fail "Function name cannot be empty"
  else if f.minArgs > f.maxArgs.getD usizeMax then fail "min_args cannot be greater than max_args"
  else .ok (fun n => if n = name then some f else r n)

/-- Models `src/custom.rs:78-80` (`get`). -/
def get (X : Ext) (r : Registry) (name : Str) : Option CustomFn := r (X.upper name)

/-- Models `src/custom.rs:88-90` (`unregister`): the map afterwards and whether the name was there. -/
def unregister (X : Ext) (r : Registry) (name : Str) : Registry × Bool :=
  (fun n => if n = X.upper name then none else r n, (r (X.upper name)).isSome)

/-- Models `src/custom.rs:93-95` (`has_function`). -/
def has (X : Ext) (r : Registry) (name : Str) : Bool := (r (X.upper name)).isSome

/-- Models `src/custom.rs:98-124` (`execute`). -/
def execute (X : Ext) (r : Registry) (name : Str) (args : List Value) : Res Value :=
  match get X r name with
  | none => fail "Unknown custom function: {}" [name]
  | some f =>
    if args.length < f.minArgs then
      fail "{} expects at least {} arguments, got {}"
        [name, Str.showInt f.minArgs, Str.showInt args.length]
    else match f.maxArgs with
      | some m =>
        if args.length > m then
          fail "{} expects at most {} arguments, got {}" [name, Str.showInt m, Str.showInt args.length]
        else f.run args
      | none => f.run args

end Registry
