import Verif.Model.Http
import Verif.Model.Stats
/-! The health report of the HTTP server, `src/bin/http_server/eval.rs:133-161`, and the server as far as the report shows it. -/

namespace Health
open Http

/-- Models `src/bin/http_server/cache.rs:45-51` (`hit_rate`). -/
def hitRate (hits misses : Nat) : F64 :=
  if hits + misses = 0 then .zero false else F64.div (F64.ofNat hits) (F64.ofNat (hits + misses))

/-- Models `src/bin/http_server/types.rs:128-145` (`HealthResponse`, `CacheStatsResponse`), without the constant `status` and `version` and without `total_saved_time_ms`. -/
structure Report where
  requests : Nat
  average : F64
  hits : Nat
  misses : Nat
  hitRate : F64
  entries : Nat
  evictions : Nat

/-- The server: what `Http.handle` works on, and the `ServerStats` of `src/bin/sk_http_server.rs:147`. -/
structure Live where
  site : Site
  counters : Stats.Counters

/-- Models `src/bin/sk_http_server.rs:147-148` and `src/bin/http_server/cache.rs:55-57`: the server when it begins, with the files and functions it finds. -/
def Live.start (fs : Fs) (reg : Registry) : Live := ⟨⟨fs, reg, .new 1000, 0⟩, Stats.Server.start.c⟩

/-- Models `src/bin/http_server/eval.rs:142-157`. -/
def Live.report (l : Live) : Report where
  requests := l.counters.count
  average := Stats.average l.counters.count l.counters.total
  hits := l.site.cache.stats.hits
  misses := l.site.cache.stats.misses
  hitRate := hitRate l.site.cache.stats.hits l.site.cache.stats.misses
  entries := l.site.cache.stats.entries
  evictions := l.site.cache.stats.evictions

/-- Models `src/bin/http_server/stats.rs:16-19` (`record_request`), not interleaved with anything (see `Stats` for the interleavings). -/
def record (c : Stats.Counters) (micros : Nat) : Stats.Counters :=
  (Stats.act (Stats.act c (.starts micros)).1 (.counted micros)).1

/-- Did the request reach `src/bin/http_server/eval.rs:236`? What follows there cannot panic, so exactly then the reply is the response of an evaluation. -/
def recorded : Option Reply → Bool
  | some r => r.eval.isSome
  | none => false

/-- Does the request go to `handle_health`? `src/bin/sk_http_server.rs:51-71`. -/
def asksHealth (request : Str) : Bool :=
  match Str.lines request with
  | [] => false
  | first :: _ =>
    match Str.splitWs first with
    | method :: path :: _ :: _ => method = c!"GET" ∧ (Str.split path c!"?").headD path = c!"/health"
    | _ => false

/-- What a client receives. -/
structure Answer where
  reply : Option Reply
  report : Option Report

/-- One request, whose evaluation takes `micros` by the server's clock. Models `src/bin/sk_http_server.rs:51-88`, with `src/bin/http_server/eval.rs:236` and `:133-161`. -/
def Live.visit (X : Ext) (H : HttpExt) (cfg : Config) (l : Live) (request : Str) (micros : Nat) : Answer × Live :=
  match handle X H cfg request l.site with
  | (r, s) => (⟨r, if asksHealth request then some l.report else none⟩, ⟨s, if recorded r then record l.counters micros else l.counters⟩)

end Health
