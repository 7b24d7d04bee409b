import Verif.Base.F64
/-! The statistics of the servers: `src/bin/http_server/stats.rs`; `src/bin/sk_server.rs:30-57` is the same. -/

namespace Stats

/-- Models `src/bin/http_server/stats.rs:3-6` (`ServerStats`): two atomic numbers of 64 bits. -/
structure Counters where
  count : Nat
  total : Nat

/-- What a thread is doing, and how far it has come. -/
inductive Actor where
  /-- `record_request(t)` is about to begin, `stats.rs:16`. -/
  | starts (t : Nat)
  /-- It has counted the request, `stats.rs:17`. -/
  | counted (t : Nat)
  /-- It has added the time, `stats.rs:18`. -/
  | recorded (t : Nat)
  /-- `get_stats` is about to begin, `stats.rs:21`. -/
  | asks
  /-- It has loaded the count, `stats.rs:22`. -/
  | seen (count : Nat)
  /-- It has loaded the time, `stats.rs:23`. -/
  | told (count total : Nat)

/-- The counters and the threads. -/
structure Server where
  c : Counters
  actors : List Actor

/-- Models `src/bin/http_server/stats.rs:9-14` (`new`). -/
def Server.start : Server := ⟨⟨0, 0⟩, []⟩

/-- What happens: a thread begins to record a request or to ask, or a thread goes on. -/
inductive Event where
  | request (t : Nat)
  | health
  | go (i : Nat)

/-- One atomic operation of a thread; `fetch_add` wraps. Models `src/bin/http_server/stats.rs:17`, `:18`, `:22`, `:23`. -/
def act (c : Counters) : Actor → Counters × Actor
  | .starts t => ({ c with count := (c.count + 1) % 2 ^ 64 }, .counted t)
  | .counted t => ({ c with total := (c.total + t) % 2 ^ 64 }, .recorded t)
  | .asks => (c, .seen c.count)
  | .seen n => (c, .told n c.total)
  | a => (c, a)

/-- One event. -/
def Server.step (s : Server) : Event → Server
  | .request t => { s with actors := s.actors ++ [.starts t] }
  | .health => { s with actors := s.actors ++ [.asks] }
  | .go i =>
    match s.actors[i]? with
    | none => s
    | some a => ⟨(act s.c a).1, s.actors.set i (act s.c a).2⟩

/-- A history, oldest event first. -/
def Server.after (h : List Event) : Server := h.foldl Server.step Server.start

/-- Models `src/bin/http_server/stats.rs:24-26`: the average in milliseconds. -/
def average (count total : Nat) : F64 :=
  if 0 < count then F64.div (F64.div (F64.ofNat total) (F64.ofNat count)) (.fin 1000) else .zero false

end Stats
