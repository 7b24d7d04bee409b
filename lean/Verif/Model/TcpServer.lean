import Verif.Model.HttpRead
/-! The line-based TCP server: `src/bin/sk_server.rs`.

Not modelled: execution times, the statistics and log lines, the arguments of `main`, daemon mode. The registry is filled before the first connection (`sk_server.rs:446-461`) and does not change afterwards. -/

namespace Tcp

/-- Models `src/bin/sk_server.rs:13-19` (`EvalRequest`). -/
structure Request where
  expression : Str
  variables : Option (List (Str × Json))
  outputJson : Option Bool
  token : Option Str

/-- The error texts of a response. -/
inductive ErrText where
  | unauthorized
  | invalid (why : Str)
  | failed (f : Fail)

/-- Models `src/bin/sk_server.rs:21-28` (`EvalResponse`), without the time. -/
structure Response where
  success : Bool
  result : Option Json
  error : Option ErrText
  id : Nat

/-- How the server was set up. -/
structure Setup where
  /-- `serde_json::from_str::<EvalRequest>`; the error is its message. -/
  decode : Str → Except Str Request
  /-- The functions registered at the start. -/
  reg : Registry
  /-- Models `src/bin/sk_server.rs:62` (`server_token`). -/
  token : Option Str

/-- Models `src/bin/sk_server.rs:131-151`: the variables of a request; names are taken as they are. -/
def bind (X : Ext) : List (Str × Json) → Env → Env
  | [], env => env
  | (k, j) :: rest, env => bind X rest (env.insert k (Json.toValue X j))

/-- Models `src/bin/sk_server.rs:173-182` and `:208-217`: an element of an array; an inner array is sent as its debug text. -/
def element (X : Ext) (wrapped : Bool) : Value → Json
  | .num n => Json.ofF64 n
  | .str s => .str s
  | .bool b => .bool b
  | .cur c => Json.ofF64 c
  | .dt t => if wrapped then .num (.int t) else .str (Str.showInt t)
  | .null => .null
  | .arr vs => .str (X.dbg (.arr vs))
  | .json s => match X.jsonParse s with
    | .ok j => j
    | .error _ => .str s

/-- Models `src/bin/sk_server.rs:166-192` and `:201-222`: the value of a response. -/
def output (X : Ext) (wrapped : Bool) : Value → Json
  | .arr vs => .arr (vs.map (element X wrapped))
  | v => element X wrapped v

/-- The type names of `src/bin/sk_server.rs:166-192`. -/
def typeName : Value → Str
  | .num _ => c!"Number"
  | .str _ => c!"String"
  | .bool _ => c!"Boolean"
  | .cur _ => c!"Currency"
  | .dt _ => c!"DateTime"
  | .arr _ => c!"Array"
  | .null => c!"Null"
  | .json _ => c!"Json"

/-- Models `src/bin/sk_server.rs:164-223`; the time of the wrapped form is left out. -/
def resultJson (X : Ext) (outputJson : Option Bool) (v : Value) : Json :=
  if outputJson.getD false then .obj [(c!"result", output X true v), (c!"type", .str (typeName v))] else output X false v

/-- Models `src/bin/sk_server.rs:127-241` (`process_request`). A panic of the evaluation is the error. -/
def process (X : Ext) (reg : Registry) (q : Request) (id : Nat) : Res Response :=
  let vars := match q.variables with
    | some js => bind X js (fun _ => none)
    | none => fun _ => none
  let r := if Str.contains q.expression c!";" || Str.contains q.expression c!":=" then
      Lib.evaluateWithAssignments X q.expression vars
    else Lib.evaluateWithCustom X reg q.expression vars
  match r with
  | .ok v => .ok ⟨true, some (resultJson X q.outputJson v), none, id⟩
  | .error (.err m a p) => .ok ⟨false, none, some (.failed (.err m a p)), id⟩
  | .error (.panic w) => .error (.panic w)

/-- Models `src/bin/sk_server.rs:79-105`: the response to a line. -/
def answer (X : Ext) (S : Setup) (line : Str) (id : Nat) : Res Response :=
  match S.decode line with
  | .ok q =>
    match S.token with
    | some t => if q.token.getD [] ≠ t then .ok ⟨false, none, some .unauthorized, id⟩ else process X S.reg q id
    | none => process X S.reg q id
  | .error e => .ok ⟨false, none, some (.invalid e), id⟩

/-! ### Connections -/

/-- The text of one line: without a carriage return at its end; `none` if it is not UTF-8. -/
def lineText (rev : HttpRead.Bytes) : Option Str :=
  HttpRead.utf8 (match rev with
    | 13 :: rest => rest.reverse
    | _ => rev.reverse)

/-- Worker for `linesOf`. `acc` is the current line reversed. -/
def linesGo (closes : Bool) : HttpRead.Bytes → HttpRead.Bytes → List (Option Str)
  | acc, [] => if closes then (if acc.isEmpty then [] else [HttpRead.utf8 acc.reverse]) else [none]
  | acc, b :: bs => if b = 10 then lineText acc :: linesGo closes [] bs else linesGo closes (b :: acc) bs

/-- `BufRead::lines` over what a client sends (std library): `none` is an error, of the socket or because a line is not UTF-8. -/
def linesOf (c : HttpRead.Client) : List (Option Str) := linesGo c.closes [] c.bytes

/-- Why the handling of a connection has ended. -/
inductive End where
  | finished
  | badLine
  | writeFailed
  | panicked
  deriving DecidableEq

/-- A connection: the lines still to be read, the line being evaluated with its id, the responses sent, and whether the handling has ended. -/
structure Conn where
  todo : List (Option Str)
  work : Option (Str × Nat)
  sent : List Response
  ended : Option End

/-- The server: the request counter and the connections accepted so far. -/
structure Server where
  counter : Nat
  conns : List Conn

/-- The server at the start (`src/bin/sk_server.rs:480-481`). -/
def Server.start : Server := ⟨0, []⟩

/-- A connection goes on. Models one pass through `src/bin/sk_server.rs:66-124` as two steps, so that other connections can act in between: taking a line and its id (`:66-77`), and answering it (`:79-116`). `writes` says whether the client can still be written to. Gives the connection and the counter afterwards; `AtomicU64::fetch_add` wraps. -/
def Conn.go (X : Ext) (S : Setup) (writes : Bool) (counter : Nat) (c : Conn) : Conn × Nat :=
  match c.ended with
  | some _ => (c, counter)
  | none =>
    match c.work with
    | some (line, id) =>
      match answer X S line id with
      | .error _ => ({ c with work := none, ended := some .panicked }, counter)
      | .ok r => if writes then ({ c with work := none, sent := c.sent ++ [r] }, counter)
                 else ({ c with work := none, ended := some .writeFailed }, counter)
    | none =>
      match c.todo with
      | [] => ({ c with ended := some .finished }, counter)
      | none :: rest => ({ c with todo := rest, ended := some .badLine }, counter)
      | some line :: rest =>
        if (Str.strip line).isEmpty then ({ c with todo := rest }, counter)
        else ({ c with todo := rest, work := some (line, counter) }, (counter + 1) % 2 ^ 64)

/-- What happens: a client connects (`src/bin/sk_server.rs:499-508`), or the handling of a connection goes on. `X` has the time of day of the step. -/
inductive Event where
  | accept (c : HttpRead.Client)
  | go (i : Nat) (X : Ext) (writes : Bool)

/-- One event. -/
def Server.step (S : Setup) (s : Server) : Event → Server
  | .accept c => { s with conns := s.conns ++ [⟨linesOf c, none, [], none⟩] }
  | .go i X writes =>
    match s.conns[i]? with
    | none => s
    | some c => ⟨(c.go X S writes s.counter).2, s.conns.set i (c.go X S writes s.counter).1⟩

/-- A history, oldest event first. -/
def Server.after (S : Setup) (h : List Event) : Server := h.foldl (Server.step S) Server.start

end Tcp
