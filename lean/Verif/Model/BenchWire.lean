import Verif.Model.Bench
import Verif.Model.HttpWire
import Verif.Model.HttpReplies
/-! The benchmark of the HTTP server, its requests with a body and what it makes of responses: `src/bin/sk_http_bench.rs`. -/

namespace Bench

/-- Models `src/bin/sk_http_bench.rs:408-412`: the body of `make_json_request`; nothing is escaped. -/
def jsonText (expr inc : Str) : Str :=
  if inc = c!"true" ∨ inc = c!"false" then c!"{\"expression\":\"" ++ (expr ++ (c!"\",\"include_variables\":" ++ (inc ++ c!"}")))
  else c!"{\"expression\":\"" ++ (expr ++ (c!"\",\"include_variables\":\"" ++ (inc ++ c!"\"}")))

/-- Models `src/bin/sk_http_bench.rs:407-419` (`make_json_request`): what is written to the socket. -/
def jsonRequest (host expr inc : Str) : Str :=
  sent host (c!"POST /eval HTTP/1.1\r\nHost: " ++ (host ++ (c!"\r\nContent-Type: application/json\r\nContent-Length: " ++ (Nat.toDigits 10 (Str.byteLen (jsonText expr inc)) ++
    (c!"\r\nConnection: close\r\n\r\n" ++ jsonText expr inc)))))

/-- Models `src/bin/sk_http_bench.rs:159-162`: everything the server sends until it closes, if it is UTF-8. A server that sends nothing has sent the empty text. -/
def received (X : Ext) (o : Option HttpReply.Message) : Option Str :=
  HttpRead.utf8 (match o with
    | some m => m.bytes X
    | none => [])

/-- Models the guards at `src/bin/sk_http_bench.rs:227`, `:299` and `:349`: the response says success. -/
def counted (X : Ext) (o : Option HttpReply.Message) : Bool :=
  match received X o with
  | some t => Str.contains t c!"\"success\":true"
  | none => false

/-- Models `src/bin/sk_http_bench.rs:144-149` (`check_server_health`). -/
def healthy (X : Ext) (o : Option HttpReply.Message) : Bool :=
  match received X o with
  | some t => Str.contains t c!"\"status\":\"healthy\""
  | none => false

/-- One request of the benchmark as the server gets it: the outside world then, and how the bytes arrive. -/
structure Visit where
  X : Ext
  W : HttpReply.World
  report : Health.Report
  want : HttpRead.Schedule

/-- Models the loops of `src/bin/sk_http_bench.rs:224-233`, `:296-306` and `:346-358` against a server that handles the requests in turn: for each request, whether it is counted. -/
def visits (H : Http.HttpExt) (cfg : Http.Config) (request : Str) : List Visit → Http.Site → List Bool × Http.Site
  | [], s => ([], s)
  | v :: vs, s =>
    let (o, s) := HttpReply.connection v.X H v.W cfg v.report v.want ⟨request.flatMap String.utf8EncodeChar, false⟩ s
    let (bs, s) := visits H cfg request vs s
    (counted v.X o :: bs, s)

/-- Models `src/bin/sk_http_bench.rs:208-215`: the expressions of the first part. -/
def cases : List Str := [c!"2+2", c!"10*5+3/2-1", c!"2^10+sqrt(144)*3", c!":a:=10;:b:=20;:c:=:a*:b", c!"range(1,50).sum()",
  c!"[1,2,3,4,5,6,7,8,9,10].map(:x*2).filter(:x>10).sum()"]

/-- Models `src/bin/sk_http_bench.rs:265` and `:281`: the expressions of the second and third part. -/
def concurrentCase : Str := c!"10*5+sqrt(25)"
@[inherit_doc concurrentCase] def variableCase : Str := c!":a:=10;:b:=20;:c:=30;:d:=40;:result:=:a*:b+:c*:d"

/-- Models `src/bin/sk_http_bench.rs:283-287`. -/
def scenarios : List Str := [c!"false", c!"true", c!":a,:result"]

end Bench
