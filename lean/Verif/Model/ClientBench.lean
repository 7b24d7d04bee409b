import Verif.Model.Client
import Verif.Model.Statistical
/-! The benchmark mode of the client: `src/bin/sk_client.rs:44-94`, `:201-326`.

Not modelled: what is printed besides the numbers, the clock (how long an answer took is given with it), the throughput and the figures computed from the server's average. -/

namespace Client

/-- Models the loop of `src/bin/sk_client.rs:54-77`; the number is that of the iterations. -/
def benchArgs (X : Ext) : List Str → Args → Nat → Except Outcome (Args × Nat)
  | [], a, n => .ok (a, n)
  | s :: rest, a, n =>
    if s = c!"--json" then
      match rest with
      | [] => .error .refused
      | j :: rest => benchArgs X rest { a with json := some j } n
    else if s = c!"--output-json" then benchArgs X rest { a with outputJson := true } n
    else if s = c!"--token" then
      match rest with
      | [] => .error .refused
      | t :: rest => benchArgs X rest { a with token := some t } n
    else match Str.splitOnce c!"=" s with
      | some (name, text) =>
        match parseValue X text with
        | .ok j => benchArgs X rest { a with vars := put a.vars name j } n
        | .error _ => .error .panicked
      | none =>
        match Str.parseUsize s with
        | some m => benchArgs X rest a m
        | none => .error .refused

/-- Models `src/bin/sk_client.rs:45-93`: the request and the number of iterations, from the arguments after `--benchmark`. -/
def benchPlan (X : Ext) (token : Option Str) : List Str → Except Outcome (Tcp.Request × Nat)
  | [] => .error .refused
  | expr :: rest =>
    match benchArgs X rest ⟨none, false, token, []⟩ 100 with
    | .error o => .error o
    | .ok (a, n) =>
      match request X expr a with
      | .error o => .error o
      | .ok q => .ok (q, n)

/-- An answer: how long it took in whole milliseconds (`as_millis`), the time the server gives, and whether it says success. -/
structure Sample where
  ms : Nat
  serverMs : F64
  success : Bool

/-- `f64::MAX`. -/
def f64Max : F64 := .fin ((2 ^ 1024 - 2 ^ 971 : Nat) : Rat)

/-- What the loop counts: `src/bin/sk_client.rs:222-225`. The two counts are of type `i32`; their overflow is not modelled. -/
structure Tally where
  durations : List F64 := []
  serverTimes : List F64 := []
  successful : Nat := 0
  failed : Nat := 0

/-- Models `src/bin/sk_client.rs:235-258`: one iteration; `none` is an error on the way. -/
def Tally.add (t : Tally) : Option Sample → Tally
  | some s =>
    let t := { t with durations := t.durations ++ [F64.ofNat s.ms], serverTimes := t.serverTimes ++ [s.serverMs] }
    if s.success then { t with successful := t.successful + 1 } else { t with failed := t.failed + 1 }
  | none => { t with failed := t.failed + 1, durations := t.durations ++ [f64Max], serverTimes := t.serverTimes ++ [.zero false] }

/-- Models `src/bin/sk_client.rs:348-351` (`percentile`); the slice is not empty. -/
def percentile (sorted : List F64) (p : F64) : Res F64 :=
  let index := (F64.mul (F64.div p (.fin 100)) (F64.ofNat (sorted.length - 1))).toUsize
  match sorted[min index (sorted.length - 1)]? with
  | some x => .ok x
  | none => panics "index out of bounds"

/-- The numbers of the report. -/
structure Report where
  iterations : Nat
  successful : Nat
  failed : Nat
  rate : F64
  avg : F64
  min : F64
  max : F64
  p50 : F64
  p95 : F64
  p99 : F64
  serverAvg : F64
  serverMin : F64
  serverMax : F64

/-- How the benchmark ends: with a report (status 0), with status 1 after a warm-up that failed or without any answer, with a panic. -/
inductive BenchEnd where
  | report (r : Report)
  | warmupFailed
  | allFailed
  | panicked

/-- Models `src/bin/sk_client.rs:264-290`: the statistics. -/
def statistics (iterations : Nat) (t : Tally) : BenchEnd :=
  let valid := t.durations.filter fun d => F64.fne d f64Max
  let server := t.serverTimes.filter fun d => F64.fgt d (.zero false)
  if valid.isEmpty then .allFailed
  else
    match (do
      let sorted ← Arr.sortNums valid
      return (← percentile sorted (.fin 50), ← percentile sorted (.fin 95), ← percentile sorted (.fin 99)) : Res (F64 × F64 × F64)) with
    | .error _ => .panicked
    | .ok (p50, p95, p99) => .report {
        iterations := iterations
        successful := t.successful
        failed := t.failed
        rate := F64.mul (F64.div (F64.ofNat t.successful) (F64.ofNat iterations)) (.fin 100)
        avg := F64.div (Stat.fsum valid) (F64.ofNat valid.length)
        min := valid.foldl F64.fmin f64Max
        max := valid.foldl F64.fmax (.zero false)
        p50 := p50
        p95 := p95
        p99 := p99
        serverAvg := F64.div (Stat.fsum server) (F64.ofNat server.length)
        serverMin := server.foldl F64.fmin f64Max
        serverMax := server.foldl F64.fmax (.zero false) }

/-- Models `src/bin/sk_client.rs:201-326` (`run_benchmark_with_request`): `warm` are the ten answers of the warm-up, `answers` those of the iterations. -/
def benchmark (warm answers : List (Option Sample)) : BenchEnd :=
  if warm.any Option.isNone then .warmupFailed
  else statistics answers.length (answers.foldl Tally.add {})

end Client
