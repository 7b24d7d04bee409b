import Verif.Model.TcpServer
import Verif.Model.Cli
/-! What `sk` prints: `src/bin/sk.rs:152-159`, and with `--output-json` `src/bin/sk.rs:167-202`. -/

namespace Cli

/-- Models the closure of `src/bin/sk.rs:175-184`: an element of an array. -/
def jsonElement (X : Ext) : Value → Json
  | .num n => Json.ofF64 n
  | .str s => .str s
  | .bool b => .bool b
  | .cur c => Json.ofF64 c
  | .dt t => .num (.int t)
  | .null => .null
  | .arr vs => .str (X.dbg (.arr vs))
  | .json s => match X.jsonParse s with
    | .ok j => j
    | .error _ => .str s

/-- Models the `match` of `src/bin/sk.rs:168-194`. -/
def jsonResult (X : Ext) : Value → Json × Str
  | .num n => (Json.ofF64 n, c!"Number")
  | .str s => (.str s, c!"String")
  | .bool b => (.bool b, c!"Boolean")
  | .cur c => (Json.ofF64 c, c!"Currency")
  | .dt t => (.num (.int t), c!"DateTime")
  | .arr vs => (.arr (vs.map (jsonElement X)), c!"Array")
  | .null => (.null, c!"Null")
  | .json s => (match X.jsonParse s with
    | .ok j => j
    | .error _ => .str s, c!"Json")

/-- Models `src/bin/sk.rs:167-202` (`format_json_output`), without the time. -/
def jsonOutput (X : Ext) (v : Value) : Json :=
  let (r, t) := jsonResult X v
  .obj [(c!"result", r), (c!"type", .str t)]

/-- Models `src/bin/sk.rs:157` (`println!("{:?}", val)`): what is printed without `--output-json`. -/
def plainOutput (X : Ext) (v : Value) : Str := X.dbg v ++ ['\n']

/-- Models `src/bin/sk.rs:152-164`: what is printed on standard output. `pretty` is `serde_json::to_string_pretty`, `time` the text for the execution time;
the JSON library sorts the members by name. Usage texts and errors go to the standard error. -/
def Outcome.stdout (X : Ext) (pretty : Json → Str) (time : Str) : Outcome → Str
  | .printed v false => plainOutput X v
  | .printed v true => pretty (.obj [(c!"execution_time", .str time), (c!"result", (jsonResult X v).1), (c!"type", .str (jsonResult X v).2)]) ++ ['\n']
  | .refused => []
  | .failed _ => []
  | .panicked => []

end Cli
