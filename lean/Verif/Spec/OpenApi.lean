import Verif.Model.HttpReplies
/-! The published description of the HTTP server, `openapi.yml`: its operations, statuses and schemas. -/

namespace OpenApi.Spec

/-- The kinds of schemas used in `openapi.yml`. -/
inductive Schema where
  /-- no type is given -/
  | any
  | boolean
  | integer
  | number
  | string
  /-- `enum` -/
  | oneOf (values : List Json)
  | array (items : Schema)
  /-- `properties` and `required`; other members are allowed -/
  | object (properties : List (Str × Schema)) (required : List Str)

/-- What is said about a member. -/
def schemaOf (properties : List (Str × Schema)) (name : Str) : Option Schema := (properties.find? fun p => p.1 = name).map (·.2)

/-- The document is as the schema says. If `lenient`, a member that is not required may be null (which OpenAPI 3.0 allows only with `nullable: true`, and `openapi.yml` never says so). -/
inductive Conforms (lenient : Bool) : Schema → Json → Prop where
  | any (j : Json) : Conforms lenient .any j
  | boolean (b : Bool) : Conforms lenient .boolean (.bool b)
  | integer (i : Int) : Conforms lenient .integer (.num (.int i))
  | whole (i : Int) : Conforms lenient .number (.num (.int i))
  | number (x : F64) : x.isFinite = true → Conforms lenient .number (.num (.float x))
  | string (t : Str) : Conforms lenient .string (.str t)
  | oneOf {values : List Json} {j : Json} : j ∈ values → Conforms lenient (.oneOf values) j
  | array {items : Schema} {js : List Json} : (∀ j ∈ js, Conforms lenient items j) → Conforms lenient (.array items) (.arr js)
  | object {properties : List (Str × Schema)} {required : List Str} {ms : List (Str × Json)} :
      (∀ n ∈ required, ∃ j, (n, j) ∈ ms) → (ms.map (·.1)).Nodup →
      (∀ n j s, (n, j) ∈ ms → schemaOf properties n = some s → ¬ (lenient = true ∧ j = .null ∧ n ∉ required) → Conforms lenient s j) →
      Conforms lenient (.object properties required) (.obj ms)

/-- `openapi.yml:537-562` (`EvalResponse`) -/
def evalResponse : Schema := .object
  [(c!"success", .boolean), (c!"result", .any), (c!"variables", .object [] []), (c!"error", .string), (c!"execution_time_ms", .number), (c!"request_id", .integer)]
  [c!"success", c!"execution_time_ms", c!"request_id"]

/-- `openapi.yml:587-607` (`CacheStatsResponse`) -/
def cacheStats : Schema := .object
  [(c!"hits", .integer), (c!"misses", .integer), (c!"hit_rate", .number), (c!"entries", .integer), (c!"evictions", .integer), (c!"total_saved_time_ms", .number)] []

/-- `openapi.yml:564-585` (`HealthResponse`) -/
def healthResponse : Schema := .object
  [(c!"status", .oneOf [.str c!"healthy"]), (c!"version", .string), (c!"requests_processed", .integer), (c!"avg_execution_time_ms", .number), (c!"cache_stats", cacheStats)]
  [c!"status", c!"version", c!"requests_processed", c!"avg_execution_time_ms"]

/-- `openapi.yml:760-776` (`ValidationResults`) -/
def validationResults : Schema := .object
  [(c!"syntax_valid", .boolean), (c!"structure_valid", .boolean), (c!"example_test_passed", .boolean), (c!"example_result", .string), (c!"example_error", .string)]
  [c!"syntax_valid", c!"structure_valid", c!"example_test_passed"]

/-- `openapi.yml:625-641` (`UploadJSResponse`) and `:658-673` (`UpdateJSResponse`), which are the same. -/
def storeResponse : Schema := .object
  [(c!"success", .boolean), (c!"message", .string), (c!"function_name", .string), (c!"validation_results", validationResults), (c!"error", .string)]
  [c!"success", c!"message"]

/-- `openapi.yml:684-695` (`DeleteJSResponse`) -/
def deleteResponse : Schema := .object [(c!"success", .boolean), (c!"message", .string), (c!"error", .string)] [c!"success", c!"message"]

/-- `openapi.yml:715-742` (`JSFunctionInfo`) -/
def functionInfo : Schema := .object
  [(c!"filename", .string), (c!"function_name", .string), (c!"description", .string), (c!"example", .string), (c!"min_args", .integer), (c!"max_args", .integer),
    (c!"file_size", .integer), (c!"last_modified", .string), (c!"is_valid", .boolean), (c!"validation_error", .string)]
  [c!"filename", c!"file_size", c!"last_modified", c!"is_valid"]

/-- `openapi.yml:697-713` (`ListJSResponse`) -/
def listResponse : Schema := .object
  [(c!"success", .boolean), (c!"functions", .array functionInfo), (c!"total_count", .integer), (c!"error", .string)]
  [c!"success", c!"functions", c!"total_count"]

/-- `openapi.yml:744-758` (`ReloadHooksResponse`) -/
def reloadResponse : Schema := .object
  [(c!"success", .boolean), (c!"message", .string), (c!"functions_loaded", .integer), (c!"error", .string)]
  [c!"success", c!"message", c!"functions_loaded"]

/-- `openapi.yml:778-791` (`ErrorResponse`) -/
def errorResponse : Schema := .object [(c!"success", .oneOf [.bool false]), (c!"error", .string)] [c!"success", c!"error"]

/-- `openapi.yml:477-490`: the answer of `DELETE /cache`. -/
def clearResponse : Schema := .object [(c!"success", .boolean), (c!"message", .string)] []

/-- What is sent: a page, or a document that is as a schema says. -/
inductive Content where
  | html
  | json (schema : Schema)

/-- The body of a message is of this kind. -/
def Has (lenient : Bool) : Content → HttpReply.Body → Prop
  | .html, b => ∃ text, b = .page c!"text/html" text
  | .json s, b => ∃ doc, b = .json doc ∧ Conforms lenient s doc

/-- `openapi.yml:39-490`: the operations, each with the answers it may give. -/
def operations : List ((Str × Str) × List (Nat × Content)) := [
  ((c!"GET", c!"/"), [(200, .html)]),
  ((c!"GET", c!"/health"), [(200, .json healthResponse)]),
  ((c!"POST", c!"/eval"), [(200, .json evalResponse), (400, .json errorResponse), (401, .json errorResponse), (413, .json errorResponse)]),
  ((c!"GET", c!"/eval"), [(200, .json evalResponse), (400, .json errorResponse)]),
  ((c!"POST", c!"/upload-js"), [(200, .json storeResponse), (400, .json storeResponse), (401, .json errorResponse)]),
  ((c!"PUT", c!"/update-js"), [(200, .json storeResponse), (400, .json storeResponse), (404, .json storeResponse)]),
  ((c!"DELETE", c!"/delete-js"), [(200, .json deleteResponse), (400, .json deleteResponse), (404, .json deleteResponse)]),
  ((c!"GET", c!"/list-js"), [(200, .json listResponse), (401, .json errorResponse)]),
  ((c!"POST", c!"/reload-hooks"), [(200, .json reloadResponse)]),
  ((c!"DELETE", c!"/cache"), [(200, .json clearResponse)])]

/-- Not in `openapi.yml`: the answers the operations give beyond what is described there. -/
def departures : List ((Str × Str) × List (Nat × Content)) := [
  ((c!"GET", c!"/"), []),
  ((c!"GET", c!"/health"), []),
  ((c!"POST", c!"/eval"), []),
  ((c!"GET", c!"/eval"), [(401, .json errorResponse)]),
  ((c!"POST", c!"/upload-js"), [(400, .json errorResponse), (500, .json storeResponse)]),
  ((c!"PUT", c!"/update-js"), [(400, .json errorResponse), (401, .json errorResponse), (500, .json storeResponse)]),
  ((c!"DELETE", c!"/delete-js"), [(400, .json errorResponse), (401, .json errorResponse), (500, .json deleteResponse)]),
  ((c!"GET", c!"/list-js"), [(500, .json listResponse)]),
  ((c!"POST", c!"/reload-hooks"), [(401, .json errorResponse), (500, .json reloadResponse)]),
  ((c!"DELETE", c!"/cache"), [(401, .json errorResponse)])]

/-- The message is one of these answers. -/
def Among (lenient : Bool) (answers : List (Nat × Content)) (m : HttpReply.Message) : Prop := ∃ a ∈ answers, m.status = a.1 ∧ Has lenient a.2 m.body

/-- The answers of an operation in a table. -/
def answers (table : List ((Str × Str) × List (Nat × Content))) (op : Str × Str) : List (Nat × Content) := ((table.find? fun p => p.1 = op).map (·.2)).getD []

/-- `openapi.yml:506-535` (`EvalRequest`): the body of `POST /eval`. `include_variables` is a boolean or a text. -/
structure EvalBody (ms : List (Str × Json)) : Prop where
  once : (ms.map (·.1)).Nodup
  expression : ∃ e, (c!"expression", .str e) ∈ ms
  arguments : ∀ j, (c!"arguments", j) ∈ ms → ∃ as, j = .obj as
  outputJson : ∀ j, (c!"output_json", j) ∈ ms → ∃ b, j = .bool b
  includeVariables : ∀ j, (c!"include_variables", j) ∈ ms → (∃ b, j = .bool b) ∨ ∃ t, j = .str t

/-- `openapi.yml:609-623` (`UploadJSRequest`) and `:643-656` (`UpdateJSRequest`), which are the same. -/
def storeRequest : Schema := .object [(c!"filename", .string), (c!"js_code", .string), (c!"file_content", .string)] [c!"filename"]

/-- `openapi.yml:675-682` (`DeleteJSRequest`) -/
def deleteRequest : Schema := .object [(c!"filename", .string)] [c!"filename"]

end OpenApi.Spec
