import Verif.Model.Value
/-! The registry of extensions and the example components: `src/traits.rs`.

A trait object is modelled by its methods, which do not change their answers. The traits `ExpressionEvaluator` and `EvaluationContext` have no code of their own but a default
that refuses assignments (`src/traits.rs:91-93`) and are not modelled. -/

namespace Extensions

/-- Models `src/traits.rs:6-36` (`CustomFunction`), without its description. -/
structure Function where
  name : Str
  arity : Option Nat
  execute : List Value → Res Value

/-- Models the default of `src/traits.rs:24-35` (`validate_args`). -/
def Function.validate (f : Function) (args : List Value) : Res Unit :=
  match f.arity with
  | some n => if args.length ≠ n then fail "{} expects {} arguments, got {}" [f.name, Nat.toDigits 10 n, Nat.toDigits 10 args.length] else .ok ()
  | none => .ok ()

/-- Models `src/traits.rs:39-48` (`TypeConverter`). -/
structure Converter where
  target : Str
  convert : Value → Res Value
  canConvert : Value → Bool

/-- Models `src/traits.rs:63-77` (`MethodHandler`). -/
structure Handler where
  canHandle : Value → Str → Bool
  execute : Value → Str → List Value → Res Value

/-- Models `src/traits.rs:108-122` (`DataSource`); `refresh` does nothing by default. -/
structure Source where
  name : Str
  fetch : Str → Res Value
  exists_ : Str → Bool

/-- Models `src/traits.rs:125-130` (`ExtensionRegistry`). -/
structure Registry where
  functions : Str → Option Function
  converters : Str → Option Converter
  handlers : List Handler
  sources : Str → Option Source

/-- Models `src/traits.rs:133-140`. -/
def Registry.new : Registry := ⟨fun _ => none, fun _ => none, [], fun _ => none⟩

/-- `HashMap::insert` (std). -/
def insert {α : Type} (m : Str → Option α) (k : Str) (a : α) : Str → Option α := fun k' => if k' = k then some a else m k'

/-- Models `src/traits.rs:143-145`. -/
def Registry.registerFunction (r : Registry) (f : Function) : Registry := { r with functions := insert r.functions f.name f }
/-- Models `src/traits.rs:148-150`. -/
def Registry.registerConverter (r : Registry) (c : Converter) : Registry := { r with converters := insert r.converters c.target c }
/-- Models `src/traits.rs:153-155`. -/
def Registry.registerHandler (r : Registry) (h : Handler) : Registry := { r with handlers := r.handlers ++ [h] }
/-- Models `src/traits.rs:158-160`. -/
def Registry.registerSource (r : Registry) (s : Source) : Registry := { r with sources := insert r.sources s.name s }
/-- Models `src/traits.rs:163-165`. -/
def Registry.getFunction (r : Registry) (name : Str) : Option Function := r.functions name
/-- Models `src/traits.rs:168-170`. -/
def Registry.getConverter (r : Registry) (target : Str) : Option Converter := r.converters target
/-- Models `src/traits.rs:173-178`. -/
def Registry.findHandler (r : Registry) (v : Value) (method : Str) : Option Handler := r.handlers.find? fun h => h.canHandle v method
/-- Models `src/traits.rs:181-183`. -/
def Registry.getSource (r : Registry) (name : Str) : Option Source := r.sources name

/-- Models `src/traits.rs:195-203` (`MemoryVariableResolver`). -/
structure Resolver where
  variables : Str → Option Value
/-- Models `src/traits.rs:206-208`. -/
def Resolver.resolve (r : Resolver) (name : Str) : Res (Option Value) := .ok (r.variables name)
/-- Models `src/traits.rs:210-212` (`has_variable`). -/
def Resolver.has (r : Resolver) (name : Str) : Bool := (r.variables name).isSome
/-- Models `src/traits.rs:214-216` (`get_all_variables`). -/
def Resolver.all (r : Resolver) : Str → Option Value := r.variables

/-- Models `src/traits.rs:220-246` (`ConstantDataSource`). -/
def constantSource (name : Str) (data : Str → Option Value) : Source where
  name := name
  fetch key := match data key with
    | some v => .ok v
    | none => fail "Key '{}' not found in data source '{}'" [key, name]
  exists_ key := (data key).isSome

/-- What is done to a registry. -/
inductive Op where
  | function (f : Function)
  | converter (c : Converter)
  | handler (h : Handler)
  | source (s : Source)

/-- One registration. -/
def Registry.apply (r : Registry) : Op → Registry
  | .function f => r.registerFunction f
  | .converter c => r.registerConverter c
  | .handler h => r.registerHandler h
  | .source s => r.registerSource s

/-- The registry after a history of registrations. -/
def after (h : List Op) : Registry := h.foldl Registry.apply .new

end Extensions
