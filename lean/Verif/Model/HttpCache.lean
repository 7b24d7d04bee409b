import Verif.Model.Lib
/-! The evaluation cache of the HTTP server: `src/bin/http_server/cache.rs`.

The mutex of the cache is held for each of `get`, `put`, `clear` and `get_stats`, so a concurrent execution is a sequence of them. Times (`execution_time_ms`, `last_accessed`,
`total_saved_time_ms`) are in `Model/TimedCache.lean`. -/

namespace HttpCache

/-- Models `src/bin/http_server/cache.rs:20-26` (`CacheEntry`), without times. -/
structure Entry where
  result : Value
  context : Option Env
  hitCount : Nat

/-- Models `src/bin/http_server/cache.rs:36-42` (`CacheStats`), without times. -/
structure Stats where
  hits : Nat
  misses : Nat
  entries : Nat
  evictions : Nat
deriving DecidableEq, Repr

/-- Models `src/bin/http_server/cache.rs:29-32` (`ExpressionCache`). `lru::LruCache` is the list of its entries, most recently used first. -/
structure Cache where
  cap : Nat
  items : List (Str × Entry)
  stats : Stats

/-- Models `src/bin/http_server/cache.rs:60-65` (`new`); a capacity of 0 would panic, the server uses 1000 (`:55-57`). -/
def Cache.new (cap : Nat) : Cache := ⟨cap, [], ⟨0, 0, 0, 0⟩⟩

/-- `LruCache::get_mut`: the entry, and what is in front of and behind it. -/
def find (k : Str) : List (Str × Entry) → Option Entry
  | [] => none
  | (k', e) :: rest => if k' = k then some e else find k rest

/-- The entries other than `k`'s, in order. -/
def without (k : Str) (items : List (Str × Entry)) : List (Str × Entry) := items.filter fun p => p.1 ≠ k

/-- Models `src/bin/http_server/cache.rs:67-78` (`get`): `get_mut` makes the entry the most recently used one, and its hit count is increased in place. -/
def Cache.get (c : Cache) (k : Str) : Option Entry × Cache :=
  match find k c.items with
  | some e =>
    let e := { e with hitCount := e.hitCount + 1 }
    (some e, { c with items := (k, e) :: without k c.items, stats := { c.stats with hits := c.stats.hits + 1 } })
  | none => (none, { c with stats := { c.stats with misses := c.stats.misses + 1 } })

/-- `LruCache::put`: an entry for the key is replaced and returned; otherwise the least recently used entry is dropped if the cache is full. -/
def lruPut (cap : Nat) (items : List (Str × Entry)) (k : Str) (e : Entry) : Option Entry × List (Str × Entry) :=
  match find k items with
  | some old => (some old, (k, e) :: without k items)
  | none => (none, (k, e) :: if items.length = cap then items.dropLast else items)

/-- Models `src/bin/http_server/cache.rs:80-85` (`put`). -/
def Cache.put (c : Cache) (k : Str) (e : Entry) : Cache :=
  let r := lruPut c.cap c.items k e
  { c with items := r.2
           stats := { c.stats with evictions := if r.1.isSome then c.stats.evictions + 1 else c.stats.evictions
                                   entries := r.2.length } }

/-- Models `src/bin/http_server/cache.rs:91-94` (`clear`). -/
def Cache.clear (c : Cache) : Cache := Cache.new c.cap

/-- Variables as a list of entries in the iteration order of the `HashMap`. -/
abbrev Vars := List (Str × Value)

/-- The map they make up. -/
def envOf (vs : Vars) : Env := fun n => (vs.find? fun p => p.1 = n).map (·.2)

/-- Insertion into a list sorted by `str` order (used for `sort`). -/
def insertSorted (s : Str) : List Str → List Str
  | [] => [s]
  | t :: ts => if Str.le s t then s :: t :: ts else t :: insertSorted s ts

/-- `Vec<String>::sort`: there is one sorted arrangement of a list of strings. -/
def sort : List Str → List Str
  | [] => []
  | s :: ss => insertSorted s (sort ss)

/-- Models `src/bin/http_server/cache.rs:98-110` (`generate_cache_key`). -/
def key (X : Ext) (expr : Str) (vs : Vars) : Str :=
  if vs.isEmpty then expr
  else expr ++ '|' :: Str.join c!"," (sort (vs.map fun p => p.1 ++ ':' :: X.dbg p.2))

/-- What is asked of `evaluate_cached`. -/
structure Request where
  expr : Str
  vars : Vars
  includeVars : Bool

/-- The key of a request. -/
def Request.key (X : Ext) (r : Request) : Str := HttpCache.key X r.expr r.vars

/-- Models `src/bin/http_server/cache.rs:134-145`: the evaluation done on a miss. -/
def fresh (X : Ext) (reg : Registry) (r : Request) : Res (Value × Option Env) :=
  if Str.contains r.expr c!";" || Str.contains r.expr c!":=" then
    if r.includeVars then do
      let (v, ctx) ← Lib.evaluateWithAssignmentsCtx X r.expr (envOf r.vars)
      return (v, some ctx)
    else do
      return (← Lib.evaluateWithAssignments X r.expr (envOf r.vars), none)
  else do
    return (← Lib.evaluateWithCustom X reg r.expr (envOf r.vars), none)

/-- The server as far as the cache is concerned: the outside world and the registry as they are now, the cache, and the results computed but not yet put into the cache. -/
structure Server where
  X : Ext
  reg : Registry
  cache : Cache
  pending : List (Str × Entry)

/-- What can happen: a request looks into the cache, and evaluates if it is not answered there; a request that evaluated stores its result; time passes; the
registry changes; the cache is cleared. -/
inductive Event where
  | request (r : Request)
  | store (i : Nat)
  | clock (now today : Int) (secs : Nat)
  | registry (reg : Registry)
  | clear

/-- Models `src/bin/http_server/cache.rs:113-175` (`evaluate_cached`), the part before `:153`: the answer and the server afterwards. The evaluation is taken to read the
clock and the registry once, at its start. -/
def Server.ask (s : Server) (r : Request) : Res (Value × Option Env) × Server :=
  let k := r.key s.X
  match s.cache.get k with
  | (some e, c) => (.ok (e.result, e.context), { s with cache := c })
  | (none, c) =>
    match fresh s.X s.reg r with
    | .ok (v, ctx) => (.ok (v, ctx), { s with cache := c, pending := s.pending ++ [(k, ⟨v, ctx, 0⟩)] })
    | .error f => (.error f, { s with cache := c })

/-- One event; storing is `src/bin/http_server/cache.rs:150-165`. -/
def Server.step (s : Server) : Event → Server
  | .request r => (s.ask r).2
  | .store i =>
    match s.pending[i]? with
    | some (k, e) => { s with cache := s.cache.put k e, pending := s.pending.eraseIdx i }
    | none => s
  | .clock now today secs => { s with X := { s.X with now := now, today := today, secsOfDay := secs } }
  | .registry reg => { s with reg := reg }
  | .clear => { s with cache := s.cache.clear }

/-- The server after a history. -/
def Server.after (s : Server) (h : List Event) : Server := h.foldl Server.step s

/-- At the start the cache is empty. -/
def Server.start (X : Ext) (reg : Registry) (cap : Nat) : Server := ⟨X, reg, Cache.new cap, []⟩

end HttpCache
