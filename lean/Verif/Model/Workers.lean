import Verif.Base.Str
/-! The accept loops of the servers and their workers: `src/bin/sk_http_server.rs:153-185`, `src/bin/sk_server.rs:490-519`.

The thread pool is that of the crate `threadpool`: jobs start in the order of `execute`, a worker whose job panics is replaced, `join` waits until no job is queued or running.
What a job does is not modelled here (`HttpRead.serve`, `Tcp.Conn.go`). Not modelled: failures of `accept` (the loop goes on). -/

namespace Workers

/-- Which server. -/
inductive Kind where
  | http
  | tcp
deriving DecidableEq

/-- Where `main` is. -/
inductive Phase where
  /-- in the accept loop -/
  | serving
  /-- in `pool.join()` -/
  | joining
  /-- the process has ended, with all its threads -/
  | exited
deriving DecidableEq

/-- The state of a server; connections are numbered as they are accepted. -/
structure State where
  phase : Phase
  /-- The flag `running` of `src/bin/http_server/daemon.rs:73-81` is false. -/
  stop : Bool
  accepted : Nat
  queue : List Nat
  active : List Nat
  finished : List Nat
deriving DecidableEq

/-- What can happen. -/
inductive Event where
  /-- The signal handler runs: `src/bin/http_server/daemon.rs:76-79`, `src/bin/sk_server.rs:317-320`. -/
  | signal
  /-- A turn of the loop, with a connection waiting or none. -/
  | turn (waiting : Bool)
  /-- An idle worker takes a job. -/
  | take
  /-- The job of a connection ends, by a return or a panic. -/
  | finish (c : Nat)
  /-- `pool.join()` returns. -/
  | joined

/-- At the start. -/
def State.start : State := ⟨.serving, false, 0, [], [], []⟩

/-- Models one step, with `workers` worker threads. Steps that are not possible change nothing. `turn`: `src/bin/sk_http_server.rs:159-181`, `src/bin/sk_server.rs:494-515`;
what follows the loop: `src/bin/sk_http_server.rs:183-186`, `src/bin/sk_server.rs:517-519`. -/
def State.step (k : Kind) (workers : Nat) (s : State) (e : Event) : State :=
  if s.phase = .exited then s
  else match e with
  | .signal => { s with stop := true }
  | .turn waiting =>
    if s.phase ≠ .serving then s
    else if s.stop then { s with phase := match k with
      | .http => .exited
      | .tcp => .joining }
    else if waiting then { s with accepted := s.accepted + 1, queue := s.queue ++ [s.accepted] }
    else s
  | .take =>
    match s.queue with
    | c :: rest => if s.active.length < workers then { s with queue := rest, active := s.active ++ [c] } else s
    | [] => s
  | .finish c => if c ∈ s.active then { s with active := s.active.erase c, finished := s.finished ++ [c] } else s
  | .joined => if s.phase = .joining ∧ s.queue = [] ∧ s.active = [] then { s with phase := .exited } else s

/-- The state after a history. -/
def State.after (k : Kind) (workers : Nat) (h : List Event) : State := h.foldl (State.step k workers) .start

end Workers
