import Verif.Model.TcpServer
import Verif.Model.Cli
/-! The command-line client of the TCP server: `src/bin/sk_client.rs`.

Not modelled: the usage text; the layout of printed JSON is in `JsonPretty`, the benchmark mode is in `ClientBench`. What is sent and received passes through `exchange`:
the request is written as one line of JSON, one line is read back (`sk_client.rs:187-199`, `send_request`); `none` is an error on the way, a closed connection included. -/

namespace Client

/-- Models `src/bin/sk_client.rs:329-346` (`parse_value_to_json`). `Number::from_f64` refuses NaN and the infinities (serde_json). -/
def parseValue (X : Ext) (s : Str) : Res Json :=
  if (Str.startsWith s c!"\"" && Str.endsWith s c!"\"") || (Str.startsWith s c!"'" && Str.endsWith s c!"'") then do
    return .str (← Cli.between s)
  else if s = c!"true" then .ok (.bool true)
  else if s = c!"false" then .ok (.bool false)
  else if s = c!"null" then .ok .null
  else if Str.startsWith s c!"[" && Str.endsWith s c!"]" then
    match X.jsonParse s with
    | .ok j => .ok j
    | .error _ => .ok (.str s)
  else match F64.parse s with
    | some n => .ok (.num (if n.isFinite then .float n else .int 0))
    | none => .ok (.str s)

/-- How a run of the client ends. -/
inductive Outcome where
  /-- Exit status 0: this is printed. -/
  | printed (j : Json)
  /-- Exit status 1: the arguments are refused. -/
  | refused
  /-- Exit status 2: the server reports an error (`none`: without a text). -/
  | failed (e : Option Tcp.ErrText)
  /-- Exit status 3: no answer. -/
  | noAnswer
  /-- Exit status 101: a panic. -/
  | panicked
  /-- The benchmark mode. -/
  | benchmark

/-- What the loop of `src/bin/sk_client.rs:105-133` has found so far. -/
structure Args where
  json : Option Str
  outputJson : Bool
  token : Option Str
  vars : List (Str × Json)

/-- `HashMap::insert`. -/
def put (vars : List (Str × Json)) (name : Str) (j : Json) : List (Str × Json) := vars.filter (fun m => m.1 ≠ name) ++ [(name, j)]

/-- Models the loop of `src/bin/sk_client.rs:105-133`. -/
def parseArgs (X : Ext) : List Str → Args → Except Outcome Args
  | [], a => .ok a
  | s :: rest, a =>
    if s = c!"--json" then
      match rest with
      | [] => .error .refused
      | j :: rest => parseArgs X rest { a with json := some j }
    else if s = c!"--output-json" then parseArgs X rest { a with outputJson := true }
    else if s = c!"--token" then
      match rest with
      | [] => .error .refused
      | t :: rest => parseArgs X rest { a with token := some t }
    else match Str.splitOnce c!"=" s with
      | some (name, text) =>
        match parseValue X text with
        | .ok j => parseArgs X rest { a with vars := put a.vars name j }
        | .error _ => .error .panicked
      | none => .error .refused

/-- Models `src/bin/sk_client.rs:135-164`: the request. -/
def request (X : Ext) (expr : Str) (a : Args) : Except Outcome Tcp.Request :=
  match a.json with
  | some text =>
    match X.jsonParse text with
    | .ok (.obj ms) => .ok ⟨expr, some ms, some a.outputJson, a.token⟩
    | _ => .error .refused
  | none => .ok ⟨expr, if a.vars.isEmpty then none else some a.vars, some a.outputJson, a.token⟩

/-- Models `src/bin/sk_client.rs:166-184`: the answer is shown. -/
def outcome : Option Tcp.Response → Outcome
  | none => .noAnswer
  | some r => if r.success then .printed (r.result.getD .null) else .failed r.error

/-- Models `src/bin/sk_client.rs:25-185` (`main`), after the address. `token` is the variable `SKILLET_SERVER_TOKEN` of the environment. -/
def run (X : Ext) (exchange : Tcp.Request → Option Tcp.Response) (token : Option Str) : List Str → Outcome
  | [] => .refused
  | expr :: rest =>
    if rest ≠ [] ∧ expr = c!"--benchmark" then .benchmark
    else match parseArgs X rest ⟨none, false, token, []⟩ with
      | .error o => o
      | .ok a =>
        match request X expr a with
        | .error o => o
        | .ok q => outcome (exchange q)

end Client
