import Verif.Model.Registry
/-! `src/concurrent_registry.rs`: the registry on top of `DashMap`, and the per-thread cache in front of it.

Every method of the registry makes one access to the map, which `DashMap` performs atomically (it locks one shard): concurrent executions are
sequences of these methods. -/

/-- Models `src/concurrent_registry.rs:9-11`: the entries of the map, in any order. -/
abbrev ConcReg := List (Str × CustomFn)

namespace ConcReg

/-- Models `src/concurrent_registry.rs:14-18` (`new`). -/
def empty : ConcReg := []

/-- `DashMap::get`. -/
def lookup (r : ConcReg) (k : Str) : Option CustomFn := (r.find? fun e => e.1 = k).map (·.2)

/-- `DashMap::remove`: the map afterwards. -/
def erase (r : ConcReg) (k : Str) : ConcReg := r.filter fun e => e.1 ≠ k

/-- `DashMap::insert`. -/
def insert (r : ConcReg) (k : Str) (f : CustomFn) : ConcReg := (k, f) :: erase r k

/-- Models `src/concurrent_registry.rs:21-34` (`register`). -/
def register (X : Ext) (r : ConcReg) (f : CustomFn) : Res ConcReg :=
  let name := X.upper f.name
  if name.isEmpty then fail "Function name cannot be empty"
  else if f.minArgs > f.maxArgs.getD Registry.usizeMax then fail "min_args cannot be greater than max_args"
  else .ok (insert r name f)

/-- Models `src/concurrent_registry.rs:37-39` (`has_function`). -/
def has (X : Ext) (r : ConcReg) (name : Str) : Bool := (lookup r (X.upper name)).isSome

/-- The checks and the call common to `src/concurrent_registry.rs:47-68` and `:138-159`. -/
def call (name : Str) (f : CustomFn) (args : List Value) : Res Value :=
  if args.length < f.minArgs then
    fail "{} expects at least {} arguments, got {}" [name, Str.showInt f.minArgs, Str.showInt args.length]
  else match f.maxArgs with
    | some m =>
      if args.length > m then
        fail "{} expects at most {} arguments, got {}" [name, Str.showInt m, Str.showInt args.length]
      else f.run args
    | none => f.run args

/-- Models `src/concurrent_registry.rs:42-72` (`execute`). -/
def execute (X : Ext) (r : ConcReg) (name : Str) (args : List Value) : Res Value :=
  match lookup r (X.upper name) with
  | some f => call name f args
  | none => fail "Unknown custom function: {}" [name]

/-- Models `src/concurrent_registry.rs:75-77` (`list_functions`). -/
def list (r : ConcReg) : List Str := r.map (·.1)

/-- Models `src/concurrent_registry.rs:80-82` (`unregister`): the map afterwards and whether the name was there. -/
def unregister (X : Ext) (r : ConcReg) (name : Str) : ConcReg × Bool :=
  (erase r (X.upper name), (lookup r (X.upper name)).isSome)

/-- Models `src/concurrent_registry.rs:85-87` (`len`). -/
def len (r : ConcReg) : Nat := r.length

/-- Models `src/concurrent_registry.rs:90-92` (`is_empty`). -/
def isEmpty (r : ConcReg) : Bool := r.length == 0

end ConcReg

/-- Models `src/custom.rs:83-85` (`list_functions` of the simple registry), as a set. -/
def Registry.names (r : Registry) (n : Str) : Prop := (r n).isSome

/-- Models `src/concurrent_registry.rs:103-108` (`ThreadLocalFunctionCache`), without the reference to the registry. -/
structure LocalCache where
  cache : Str → Option CustomFn
  hits : Nat
  misses : Nat

namespace LocalCache

/-- Models `src/concurrent_registry.rs:111-118` (`new`). -/
def new : LocalCache := ⟨fun _ => none, 0, 0⟩

/-- Models `src/concurrent_registry.rs:120-138` (`get_function`). -/
def get (X : Ext) (r : ConcReg) (c : LocalCache) (name : Str) : LocalCache × Option CustomFn :=
  let key := X.upper name
  match c.cache key with
  | some f => ({ c with hits := c.hits + 1 }, some f)
  | none => match r.lookup key with
    | some f => (⟨fun k => if k = key then some f else c.cache k, c.hits, c.misses + 1⟩, some f)
    | none => (c, none)

/-- Models `src/concurrent_registry.rs:140-167` (`execute`). -/
def execute (X : Ext) (r : ConcReg) (c : LocalCache) (name : Str) (args : List Value) : LocalCache × Res Value :=
  match get X r c name with
  | (c', some f) => (c', ConcReg.call name f args)
  | (c', none) => (c', fail "Unknown custom function: {}" [name])

/-- Models `src/concurrent_registry.rs:169-178` (`cache_stats`); the rate is in `Model/Rates.lean`. -/
def stats (c : LocalCache) : Nat × Nat := (c.hits, c.misses)

/-- Models `src/concurrent_registry.rs:180-184` (`clear_cache`). -/
def clear (_ : LocalCache) : LocalCache := ⟨fun _ => none, 0, 0⟩

end LocalCache
