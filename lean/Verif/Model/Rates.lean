import Verif.Model.MemoryPool
import Verif.Model.ConcurrentRegistry
/-! The rates, in ratePercent, that the pool of contexts and the caches of functions report. -/

/-- Models `src/memory_pool.rs:64-68` and `src/concurrent_registry.rs:173-177`: the share of `part` in `part + rest`. Counters do not overflow. -/
def ratePercent (part rest : Nat) : F64 :=
  if part + rest > 0 then F64.mul (F64.div (F64.ofNat part) (F64.ofNat (part + rest))) (.fin 100) else .zero false

/-- Models `src/memory_pool.rs:64-68` (`reuse_rate` of `stats`). -/
def MemPool.Pool.reuseRate (p : MemPool.Pool) : F64 := ratePercent p.reused p.created

/-- Models `src/concurrent_registry.rs:169-178` (the rate of `cache_stats`). -/
def LocalCache.hitRate (c : LocalCache) : F64 := ratePercent c.hits c.misses
