import Verif.Model.Value
/-! `src/memory_pool.rs`: the pool of variable contexts and the copy-on-write context.

`HashMap<String, Value>` is the function `Str → Option Value`; its capacity is not modelled. `acquire` and `release` hold the mutex of the pool for all
they do, so a concurrent execution is a sequence of them; nothing panics while the mutex is held, so it is never poisoned. -/

namespace MemPool

/-- `HashMap::clear`. -/
def clear (_ : Env) : Env := fun _ => none

/-- `HashMap::insert`: the map afterwards. -/
def put (m : Env) (k : Str) (v : Value) : Env := fun n => if n = k then some v else m n

/-- `HashMap::extend`. -/
def extend (m b : Env) : Env := fun n => (b n).orElse fun _ => m n

/-- Models `src/memory_pool.rs:7-12`. -/
structure Pool where
  pool : List Env
  maxSize : Nat
  created : Nat
  reused : Nat

/-- Models `src/memory_pool.rs:15-22` (`new`). -/
def Pool.new (maxSize : Nat) : Pool := ⟨[], maxSize, 0, 0⟩

/-- Models `src/memory_pool.rs:25-41` (`acquire`). The vector is used as a stack, its top being the head of the list. -/
def Pool.acquire (p : Pool) : Env × Pool :=
  match p.pool with
  | ctx :: rest => (clear ctx, { p with pool := rest, reused := p.reused + 1 })
  | [] => (fun _ => none, { p with created := p.created + 1 })

/-- Models `src/memory_pool.rs:44-53` (`release`). -/
def Pool.release (p : Pool) (ctx : Env) : Pool :=
  if p.pool.length < p.maxSize then { p with pool := clear ctx :: p.pool } else p

/-- Models `src/memory_pool.rs:55-70` (`stats`): pool size, created, reused; the rate is in `Model/Rates.lean`. -/
def Pool.stats (p : Pool) : Nat × Nat × Nat := (p.pool.length, p.created, p.reused)

/-- What the users of a pool can do; contexts are named by the number of the `acquire` that returned them. -/
inductive Op where
  | acquire
  | insert (h : Nat) (k : Str) (v : Value)
  | withBase (h : Nat) (base : Env)
  | drop (h : Nat)

/-- A pool and the contexts acquired from it so far, `none` for those that were dropped. -/
structure World where
  pool : Pool
  contexts : List (Option Env)

/-- Models `PooledContext`, `src/memory_pool.rs:85-131`: `with_base` (`:99-103`), `insert` (`:106-108`) and `drop` (`:126-131`). -/
def World.step (w : World) : Op → World
  | .acquire => ⟨w.pool.acquire.2, w.contexts ++ [some w.pool.acquire.1]⟩
  | .insert h k v => { w with contexts := w.contexts.modify h (Option.map fun m => put m k v) }
  | .withBase h b => { w with contexts := w.contexts.modify h (Option.map fun m => extend m b) }
  | .drop h =>
    match w.contexts[h]? with
    | some (some ctx) => ⟨w.pool.release ctx, w.contexts.set h none⟩
    | _ => w

/-- The world after a history. -/
def World.after (maxSize : Nat) (ops : List Op) : World := ops.foldl World.step ⟨Pool.new maxSize, []⟩

/-- `get` and `as_ref` of an acquired context. Models `src/memory_pool.rs:111-118`. -/
def World.read (w : World) (h : Nat) : Option Env := (w.contexts[h]?).join

/-- Models `src/memory_pool.rs:135-138`. -/
structure Cow where
  base : Env
  overlay : Option Env

namespace Cow

/-- Models `src/memory_pool.rs:141-153` (`new`, `from_shared`). -/
def new (base : Env) : Cow := ⟨base, none⟩

/-- Models `src/memory_pool.rs:155-163` (`get`). -/
def get (c : Cow) (k : Str) : Option Value :=
  match c.overlay with
  | some o =>
    match o k with
    | some v => some v
    | none => c.base k
  | none => c.base k

/-- Models `src/memory_pool.rs:165-170` (`insert`). -/
def insert (c : Cow) (k : Str) (v : Value) : Cow := { c with overlay := some (put (c.overlay.getD fun _ => none) k v) }

/-- Models `src/memory_pool.rs:173-179` (`to_combined`). -/
def combined (c : Cow) : Env :=
  match c.overlay with
  | some o => extend c.base o
  | none => c.base

/-- Models `src/memory_pool.rs:182-184` (`is_modified`). -/
def isModified (c : Cow) : Bool := c.overlay.isSome

end Cow

end MemPool
