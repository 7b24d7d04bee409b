import Verif.Model.JsonText
import Verif.Model.Client
import Verif.Model.HttpBody
import Verif.Model.HttpReplies
/-! The lines between `sk_client` and the TCP server: `src/bin/sk_client.rs:7-23`, `:187-199` and `src/bin/sk_server.rs:13-28`, `:79-118`.

Both ends use serde_json on structures with derived readers and writers; the texts are those of `JsonText`. Simplified: a member that the reader does not know is passed over as a document
is read, whereas serde_json checks less of what it passes over (numbers out of range, nesting). Neither end writes such members. -/

namespace Wire

open JsonText

/-- The order in which a `HashMap` with these members is gone through. -/
abbrev Order := List (Str × Json) → List (Str × Json)

/-- `Option<T>` (serde): `None` is null. -/
def optional {α : Type} (f : α → Json) : Option α → Json
  | none => .null
  | some a => f a

/-! ### Requests -/

/-- Models what `#[derive(Serialize)]` makes of `src/bin/sk_client.rs:7-13` (`EvalRequest`): the fields in order. -/
def requestTree (order : Order) (q : Tcp.Request) : Json :=
  .obj [(c!"expression", .str q.expression), (c!"variables", optional (fun vs => .obj (order vs)) q.variables), (c!"output_json", optional .bool q.outputJson),
    (c!"token", optional .str q.token)]

/-- Models `src/bin/sk_client.rs:190`: the line of a request, without its end. -/
def requestLine (N : Floats) (order : Order) (q : Tcp.Request) : Str := print N (requestTree order q)

/-- `HashMap<String, serde_json::Value>` (serde): an object; of repeated names the last counts. -/
def mapOf (order : Order) : Json → Option (List (Str × Json))
  | .obj ms => some (order (normMembers [] ms))
  | _ => none

/-- `String` (serde). -/
def textOf : Json → Option Str
  | .str s => some s
  | _ => none

/-- The members of a request met so far. -/
structure Fields where
  expression : Option Str := none
  variables : Option (Option (List (Str × Json))) := none
  outputJson : Option (Option Bool) := none
  token : Option (Option Str) := none

/-- The `visit_map` that `#[derive(Deserialize)]` makes for `src/bin/sk_server.rs:13-19`: a member given twice is an error, others are passed over. -/
def requestMembers (order : Order) : List (Str × Json) → Fields → Option Fields
  | [], f => some f
  | (k, j) :: rest, f =>
    if k = c!"expression" then
      if f.expression.isSome then none else (textOf j).bind fun v => requestMembers order rest { f with expression := some v }
    else if k = c!"variables" then
      if f.variables.isSome then none else (Http.nullable (mapOf order) j).bind fun v => requestMembers order rest { f with variables := some v }
    else if k = c!"output_json" then
      if f.outputJson.isSome then none else (Http.nullable Http.boolOf j).bind fun v => requestMembers order rest { f with outputJson := some v }
    else if k = c!"token" then
      if f.token.isSome then none else (Http.nullable textOf j).bind fun v => requestMembers order rest { f with token := some v }
    else requestMembers order rest f

/-- Models what `#[derive(Deserialize)]` makes of `src/bin/sk_server.rs:13-19` (`EvalRequest`): an object, or the four members in order as an array; only the expression
must be there. -/
def requestOf (order : Order) : Json → Option Tcp.Request
  | .obj ms => (requestMembers order ms {}).bind fun f => f.expression.map fun e => ⟨e, f.variables.getD none, f.outputJson.getD none, f.token.getD none⟩
  | .arr [e, v, o, t] =>
    (textOf e).bind fun e => (Http.nullable (mapOf order) v).bind fun v => (Http.nullable Http.boolOf o).bind fun o => (Http.nullable textOf t).map fun t => ⟨e, v, o, t⟩
  | _ => none

/-- The server set up to read lines this way (`src/bin/sk_server.rs:79`); `why` gives the text of an error. -/
def setup (N : Floats) (order : Order) (why : Str → Str) (reg : Registry) (token : Option Str) : Tcp.Setup where
  decode line := match (tree N line).bind (requestOf order) with
    | some q => .ok q
    | none => .error (why line)
  reg := reg
  token := token

/-! ### Replies -/

/-- The texts of `src/bin/sk_server.rs:86`, `:102` and `:236`. -/
def errorText : Tcp.ErrText → Str
  | .unauthorized => c!"Unauthorized: invalid token"
  | .invalid why => c!"Invalid JSON request: " ++ why
  | .failed f => HttpReply.display f

/-- Models what `#[derive(Serialize)]` makes of `src/bin/sk_server.rs:21-28` (`EvalResponse`); `time` is `execution_time_ms`. -/
def replyTree (time : F64) (r : Tcp.Response) : Json :=
  .obj [(c!"success", .bool r.success), (c!"result", optional id r.result), (c!"error", optional (fun e => .str (errorText e)) r.error),
    (c!"execution_time_ms", .num (.float time)), (c!"request_id", .num (.int r.id))]

/-- Models `src/bin/sk_server.rs:110-114`: the line of a response, with its end. -/
def replyLine (N : Floats) (time : F64) (r : Tcp.Response) : Str := print N (replyTree time r) ++ ['\n']

/-- Models `src/bin/sk_client.rs:15-23` (`EvalResponse`). -/
structure Reply where
  success : Bool
  result : Option Json
  error : Option Str
  time : F64
  id : Nat

/-- `f64` (serde): any number. -/
def doubleOf : Json → Option F64
  | .num (.float x) => some x
  | .num (.int i) => some (F64.ofInt i)
  | _ => none

/-- `u64` (serde). -/
def countOf : Json → Option Nat
  | .num (.int i) => if 0 ≤ i && i < 2 ^ 64 then some i.toNat else none
  | _ => none

/-- The members of a response met so far. -/
structure ReplyFields where
  success : Option Bool := none
  result : Option (Option Json) := none
  error : Option (Option Str) := none
  time : Option F64 := none
  id : Option Nat := none

/-- The `visit_map` that `#[derive(Deserialize)]` makes for `src/bin/sk_client.rs:15-23`. -/
def replyMembers : List (Str × Json) → ReplyFields → Option ReplyFields
  | [], f => some f
  | (k, j) :: rest, f =>
    if k = c!"success" then
      if f.success.isSome then none else (Http.boolOf j).bind fun v => replyMembers rest { f with success := some v }
    else if k = c!"result" then
      if f.result.isSome then none else (Http.nullable (fun j => some (norm j)) j).bind fun v => replyMembers rest { f with result := some v }
    else if k = c!"error" then
      if f.error.isSome then none else (Http.nullable textOf j).bind fun v => replyMembers rest { f with error := some v }
    else if k = c!"execution_time_ms" then
      if f.time.isSome then none else (doubleOf j).bind fun v => replyMembers rest { f with time := some v }
    else if k = c!"request_id" then
      if f.id.isSome then none else (countOf j).bind fun v => replyMembers rest { f with id := some v }
    else replyMembers rest f

/-- Models what `#[derive(Deserialize)]` makes of `src/bin/sk_client.rs:15-23` (`EvalResponse`): an object, or the five members in order as an array. -/
def replyOf : Json → Option Reply
  | .obj ms => (replyMembers ms {}).bind fun f => f.success.bind fun s => f.time.bind fun t => f.id.map fun i => ⟨s, f.result.getD none, f.error.getD none, t, i⟩
  | .arr [s, r, e, t, i] =>
    (Http.boolOf s).bind fun s => (Http.nullable (fun j => some (norm j)) r).bind fun r => (Http.nullable textOf e).bind fun e => (doubleOf t).bind fun t =>
      (countOf i).map fun i => ⟨s, r, e, t, i⟩
  | _ => none

/-- Models `src/bin/sk_client.rs:193-198`: the line read back. If the server closes the connection, it is empty. -/
def readReply (N : Floats) (line : Str) : Option Reply := (tree N line).bind replyOf

/-! ### The client -/

/-- Models `src/bin/sk_client.rs:187-199` (`send_request`) against a server that answers the line: it writes the line and reads one back; if the evaluation panics, the
connection is closed. -/
def sendRequest (X : Ext) (N : Floats) (order : Order) (S : Tcp.Setup) (time : F64) (id : Nat) (q : Tcp.Request) : Option Reply :=
  match Tcp.answer X S (requestLine N order q) id with
  | .ok r => readReply N (replyLine N time r)
  | .error _ => readReply N []

/-- How a run of the client ends: before anything is sent, with the document printed (exit status 0), with the text of an error (2), or without an answer (3). -/
inductive End where
  | before (o : Client.Outcome)
  | printed (j : Json)
  | error (text : Str)
  | noAnswer

/-- Models `src/bin/sk_client.rs:166-184`. -/
def shown : Option Reply → End
  | none => .noAnswer
  | some r => if r.success then .printed (r.result.getD .null) else .error (r.error.getD c!"Unknown error")

/-- Models `src/bin/sk_client.rs:25-185` (`main`) with the lines; `token` is the variable `SKILLET_SERVER_TOKEN`. -/
def run (X : Ext) (send : Tcp.Request → Option Reply) (token : Option Str) : List Str → End
  | [] => .before .refused
  | expr :: rest =>
    if rest ≠ [] ∧ expr = c!"--benchmark" then .before .benchmark
    else match Client.parseArgs X rest ⟨none, false, token, []⟩ with
      | .error o => .before o
      | .ok a =>
        match Client.request X expr a with
        | .error o => .before o
        | .ok q => shown (send q)

end Wire
