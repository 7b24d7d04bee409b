import Verif.Model.HttpBody
/-! The bodies of uploads, updates and deletions, from their JSON tree: `src/bin/http_server/types.rs`. As in `Model/HttpBody.lean`, how serde reads a text into a tree is
not modelled, a tree keeps repeated members, and of errors only that there is one is modelled. -/

namespace Http

/-- `String` (serde). -/
def stringOf : Json → Option Str
  | .str s => some s
  | _ => none

/-- The members of an upload met so far. -/
structure JsFields where
  filename : Option Str := none
  jsCode : Option (Option Str) := none
  fileContent : Option (Option Str) := none

/-- The `visit_map` that `#[derive(Deserialize)]` makes for `src/bin/http_server/types.rs:147-154` (`UploadJSRequest`) and `:165-172` (`UpdateJSRequest`), which have the
same members: one given twice is an error, others are passed over. -/
def jsMembers : List (Str × Json) → JsFields → Option JsFields
  | [], f => some f
  | (k, j) :: rest, f =>
    if k = c!"filename" then
      if f.filename.isSome then none else (stringOf j).bind fun v => jsMembers rest { f with filename := some v }
    else if k = c!"js_code" then
      if f.jsCode.isSome then none else (nullable stringOf j).bind fun v => jsMembers rest { f with jsCode := some v }
    else if k = c!"file_content" then
      if f.fileContent.isSome then none else (nullable stringOf j).bind fun v => jsMembers rest { f with fileContent := some v }
    else jsMembers rest f

/-- The upload or update a JSON tree stands for (`src/bin/http_server/types.rs:147-154`, `:165-172`): an object, or the three members in order as an array. -/
def jsTree : Json → Option JsRequest
  | .obj ms => (jsMembers ms {}).bind fun f => f.filename.map fun n => ⟨n, f.jsCode.getD none, f.fileContent.getD none⟩
  | .arr [n, c, t] => (stringOf n).bind fun n => (nullable stringOf c).bind fun c => (nullable stringOf t).map fun t => ⟨n, c, t⟩
  | _ => none

/-- The `visit_map` that `#[derive(Deserialize)]` makes for `src/bin/http_server/types.rs:183-186` (`DeleteJSRequest`). -/
def deleteMembers : List (Str × Json) → Option Str → Option (Option Str)
  | [], f => some f
  | (k, j) :: rest, f =>
    if k = c!"filename" then
      if f.isSome then none else (stringOf j).bind fun v => deleteMembers rest (some v)
    else deleteMembers rest f

/-- The name in a deletion (`src/bin/http_server/types.rs:183-186`): an object, or the name alone in an array. -/
def deleteTree : Json → Option Str
  | .obj ms => (deleteMembers ms none).bind id
  | .arr [n] => stringOf n
  | _ => none

end Http
