import Verif.Model.Startup
import Verif.Model.Utf8
/-! The benchmark of the HTTP server: `src/bin/sk_http_bench.rs`.

Not modelled: what is printed, the clock (a latency is given with the answer), failures of sockets (an answer without success), the pauses of the warm-up. -/

namespace Bench

/-! ### Arguments -/

/-- Models `src/bin/sk_http_bench.rs:11-18` (`BenchConfig`), without `duration`, which is never set. The numbers are the defaults of `:83-90`. -/
structure Config where
  host : Str
  port : Nat
  concurrent : Nat := 10
  requests : Nat := 100
  warmup : Nat := 20
deriving DecidableEq

/-- `str::rfind(':')` and the slices on both sides (`src/bin/sk_http_bench.rs:75-77`), on the reversed text: `tail` is what stands after the colon. -/
def lastColon : Str → Str → Option (Str × Str)
  | [], _ => none
  | c :: cs, tail => if c = ':' then some (cs.reverse, tail) else lastColon cs (c :: tail)

/-- Models the loop of `src/bin/sk_http_bench.rs:92-126`. -/
def options : List Str → Config → Res Config
  | [], c => .ok c
  | w :: rest, c =>
    if w = c!"-c" ∨ w = c!"--concurrent" then
      match rest with
      | v :: rest =>
        match Str.parseUsize v with
        | some n => options rest { c with concurrent := n }
        | none => fail "Invalid concurrent value"
      | [] => fail "--concurrent requires a value"
    else if w = c!"-n" ∨ w = c!"--requests" then
      match rest with
      | v :: rest =>
        match Str.parseUsize v with
        | some n => options rest { c with requests := n }
        | none => fail "Invalid requests value"
      | [] => fail "--requests requires a value"
    else if w = c!"-w" ∨ w = c!"--warmup" then
      match rest with
      | v :: rest =>
        match Str.parseUsize v with
        | some n => options rest { c with warmup := n }
        | none => fail "Invalid warmup value"
      | [] => fail "--warmup requires a value"
    else fail "Unknown argument: {}" [w]

/-- Models `src/bin/sk_http_bench.rs:69-129` (`parse_args`), after the name of the program. -/
def parseArgs : List Str → Res Config
  | [] => fail "Missing host:port argument"
  | hp :: rest =>
    match lastColon hp.reverse [] with
    | none => fail "Host:port format required (e.g., 127.0.0.1:8080)"
    | some (host, port) =>
      match Startup.parsePort port with
      | none => fail "Invalid port number"
      | some p => options rest { host := host, port := p }

/-! ### Requests -/

/-- A digit of `{:02X}`. -/
def hexUpper (n : Nat) : Char := (c!"0123456789ABCDEF").getD n '0'

/-- Models the closure of `src/bin/sk_http_bench.rs:423-436`: `c as u8` is the low byte. -/
def encodeChar (c : Char) : Str :=
  if c = '+' then c!"%2B"
  else if c = ':' then c!"%3A"
  else if c = ';' then c!"%3B"
  else if c = '=' then c!"%3D"
  else if c = '*' then c!"%2A"
  else if c = '(' then c!"%28"
  else if c = ')' then c!"%29"
  else if c = '[' then c!"%5B"
  else if c = ']' then c!"%5D"
  else if c = ',' then c!"%2C"
  else if c = ' ' then c!"%20"
  else if Str.asciiAlnum c ∨ c = '-' ∨ c = '_' ∨ c = '.' ∨ c = '~' then [c]
  else ['%', hexUpper (c.toNat % 256 / 16), hexUpper (c.toNat % 256 % 16)]

/-- Models `src/bin/sk_http_bench.rs:421-439` (`url_encode`). -/
def urlEncode (s : Str) : Str := s.flatMap encodeChar

/-- Models `src/bin/sk_http_bench.rs:156`: what `make_request` writes to the socket. -/
def sent (host request : Str) : Str := Str.replace request c!"{}" host

/-- Models `src/bin/sk_http_bench.rs:398-405` (`make_eval_request`): what is written to the socket. -/
def evalRequest (host expr : Str) : Str :=
  sent host (c!"GET /eval?expr=" ++ (urlEncode expr ++ (c!" HTTP/1.1\r\nHost: " ++ (host ++ c!"\r\nConnection: close\r\n\r\n"))))

/-- Models `src/bin/sk_http_bench.rs:145`: the health check. -/
def healthRequest (host : Str) : Str := sent host c!"GET /health HTTP/1.1\r\nHost: {}\r\nConnection: close\r\n\r\n"

/-! ### Counting -/

/-- Models `src/bin/sk_http_bench.rs:322-337`: how many requests thread `i` makes. -/
def share (total concurrent i : Nat) : Nat := if i < total % concurrent then total / concurrent + 1 else total / concurrent

/-- What a thread does to the shared counters: `src/bin/sk_http_bench.rs:351-356`. Latencies are in nanoseconds. -/
inductive Step where
  /-- `latencies.lock().unwrap().push(latency)` -/
  | push (latency : Nat)
  /-- `success_count.fetch_add(1, …)` -/
  | success
  /-- `error_count.fetch_add(1, …)` -/
  | error

/-- Models `src/bin/sk_http_bench.rs:346-359`: the steps after an answer: `some latency` for a response that says success. -/
def stepsOf : Option Nat → List Step
  | some d => [.push d, .success]
  | none => [.error]

/-- The counters: `src/bin/sk_http_bench.rs:325-327`. -/
structure Counters where
  success : Nat := 0
  errors : Nat := 0
  latencies : List Nat := []

/-- One atomic step. -/
def Counters.step (c : Counters) : Step → Counters
  | .push d => { c with latencies := c.latencies ++ [d] }
  | .success => { c with success := c.success + 1 }
  | .error => { c with errors := c.errors + 1 }

/-- The steps the threads have still to make, and the counters. -/
structure Machine where
  threads : List (List Step)
  counters : Counters

/-- Thread `i` makes its next step. -/
inductive Machine.Next : Machine → Machine → Prop
  | step {before after : List (List Step)} {s : Step} {rest : List Step} {c : Counters} :
      Machine.Next ⟨before ++ (s :: rest) :: after, c⟩ ⟨before ++ rest :: after, c.step s⟩

/-- Any number of steps, in any order of the threads. -/
inductive Machine.Steps : Machine → Machine → Prop
  | refl (m : Machine) : Machine.Steps m m
  | tail {a b c : Machine} : Machine.Steps a b → Machine.Next b c → Machine.Steps a c

/-- The threads have ended: the calls of `join` have returned (`src/bin/sk_http_bench.rs:363-365`). -/
def Machine.Done (m : Machine) : Prop := ∀ t ∈ m.threads, t = []

/-- Models `src/bin/sk_http_bench.rs:339-361`: the threads at the start; `answers i` are the answers thread `i` gets. -/
def start (answers : List (List (Option Nat))) : Machine := ⟨answers.map fun as => as.flatMap stepsOf, {}⟩

/-- What is reported: `src/bin/sk_http_bench.rs:20-29` without the times of the whole. -/
structure Report where
  success : Nat
  errors : Nat
  min : Nat
  max : Nat
  avg : Nat
deriving DecidableEq

/-- Models `src/bin/sk_http_bench.rs:368-395`. The division of a `Duration` by a `u32` rounds down; `len() as u32` keeps the low 32 bits, and a division by zero panics.
The overflow of the sum of durations (more than 10^11 years) is not modelled. -/
def report (c : Counters) : Res Report :=
  match c.latencies with
  | [] => .ok ⟨c.success, c.errors, 0, 0, 0⟩
  | d :: ds =>
    if (ds.length + 1) % 2 ^ 32 = 0 then panics "divide by zero error when dividing duration by scalar"
    else .ok ⟨c.success, c.errors, ds.foldl Nat.min d, ds.foldl Nat.max d, (d + ds.sum) / ((ds.length + 1) % 2 ^ 32)⟩

/-- Models `src/bin/sk_http_bench.rs:256-261`: the numbers of threads that are tried. -/
def levels (c : Config) : List Nat := [1, 5, 10, 20, 50].filter fun n => ¬ n > c.requests

/-- Models `src/bin/sk_http_bench.rs:182-202` (`run_warmup`): how many requests each thread makes. Division by zero panics. -/
def warmup (c : Config) : Res (List Nat) :=
  let concurrent := min c.warmup 10
  if concurrent = 0 then panics "attempt to divide by zero"
  else .ok (List.replicate concurrent (c.warmup / concurrent))

end Bench
