import Verif.Model.TcpServer
/-! How the HTTP server writes results: `src/bin/http_server/eval.rs:239-317`. -/

namespace Http

/-- Models `src/bin/http_server/eval.rs:293-310`: the value of the structured form. -/
def structuredValue (X : Ext) : Value → Json
  | .dt t => .num (.int t)
  | v => simpleOutput X v

/-- Models `src/bin/http_server/eval.rs:292-317` (`format_structured_output`), without the time. -/
def structuredOutput (X : Ext) (v : Value) : Json := .obj [(c!"result", structuredValue X v), (c!"type", .str (Tcp.typeName v))]

/-- Models `src/bin/http_server/eval.rs:240-244`: the result of a response. -/
def resultJson (X : Ext) (outputJson : Option Bool) (v : Value) : Json :=
  if outputJson.getD false then structuredOutput X v else simpleOutput X v

end Http
