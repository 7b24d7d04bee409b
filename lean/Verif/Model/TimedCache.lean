import Verif.Model.HttpCache
/-! The times in the evaluation cache of the HTTP server, beside what `Model/HttpCache.lean` models. -/

namespace HttpCache

/-- The server with the times kept in the cache: `execution_time_ms` of the entries, by their keys (`src/bin/http_server/cache.rs:23`; the time of an entry that was dropped is never read, since its key is not found),
those of the results that are computed but not yet stored, and `total_saved_time_ms` (`:41`). -/
structure Timed where
  server : Server
  times : Str → F64
  pendingTimes : List F64
  saved : F64

/-- At the start nothing is saved. Models `src/bin/http_server/cache.rs:35,60-65`. -/
def Timed.start (X : Ext) (reg : Registry) (cap : Nat) : Timed := ⟨.start X reg cap, fun _ => .zero false, [], .zero false⟩

/-- One event; an evaluation takes `ms` milliseconds. Models `src/bin/http_server/cache.rs:67-78` (a hit adds the time of the entry), `:147-165` (the time is kept with the result) and `:91-94` (clearing). -/
def Timed.step (s : Timed) (e : Event) (ms : F64) : Timed :=
  match e with
  | .request r =>
    match s.server.cache.get (r.key s.server.X) with
    | (some _, _) => { s with server := s.server.step e, saved := F64.add s.saved (s.times (r.key s.server.X)) }
    | (none, _) =>
      match fresh s.server.X s.server.reg r with
      | .ok _ => { s with server := s.server.step e, pendingTimes := s.pendingTimes ++ [ms] }
      | .error _ => { s with server := s.server.step e }
  | .store i =>
    match s.server.pending[i]?, s.pendingTimes[i]? with
    | some (k, _), some t => { s with server := s.server.step e, times := fun k' => if k' = k then t else s.times k', pendingTimes := s.pendingTimes.eraseIdx i }
    | _, _ => { s with server := s.server.step e }
  | .clear => { s with server := s.server.step e, saved := .zero false }
  | _ => { s with server := s.server.step e }

/-- The server after a history of events and times. -/
def Timed.after (s : Timed) (h : List (Event × F64)) : Timed := h.foldl (fun s p => s.step p.1 p.2) s

end HttpCache
