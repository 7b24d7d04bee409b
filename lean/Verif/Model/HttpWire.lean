import Verif.Model.Wire
import Verif.Model.HttpJsBody
/-! The JSON bodies of requests to the HTTP server as texts: `src/bin/http_server/utils.rs:168-177` with the readers of `src/bin/http_server/types.rs`.

`Verif.Model.HttpBody` and `Verif.Model.HttpJsBody` have what the readers make of a tree; here trees come from texts, as in `JsonText`. As in `Verif.Model.Wire`, members that the reader does
not know are read like others, whereas serde_json checks less of them. -/

namespace HttpWire

open JsonText

/-- Reading a text with a reader of trees; `why` gives the text of an error. -/
def decode {α : Type} (N : Floats) (why : Str → Str) (read : Json → Option α) (body : Str) : Except Str α :=
  match (tree N body).bind read with
  | some a => .ok a
  | none => .error (why body)

/-- Models `serde_json::from_str` at `src/bin/http_server/utils.rs:173` for the requests of `src/bin/http_server/types.rs:68-75`, `:147-172` and `:183-186`. -/
def reading (N : Floats) (order : Wire.Order) (why : Str → Str) (H : Http.HttpExt) : Http.HttpExt :=
  { H with
    decodeEval := decode N why (Http.bodyTree fun ms => order (normMembers [] ms))
    decodeJs := decode N why Http.jsTree
    decodeDelete := decode N why Http.deleteTree }

end HttpWire
