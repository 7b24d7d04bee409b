import Verif.Model.Health
import Verif.Model.HttpList
import Verif.Model.HttpOutput
import Verif.Model.HttpWrite
/-! What the HTTP server writes back: the bodies of all replies. `src/bin/http_server/eval.rs`, `js_management.rs`, `types.rs`, `utils.rs`, `src/bin/sk_http_server.rs:21-110`.

`Verif.Model.Http` has the statuses and what happens to the server. Here every handler is written down once more with the texts and documents it sends.
Structures are printed by serde in the order of their fields, documents made with `json!` in the order of their keys. -/

namespace HttpReply
open Http

/-! ### Texts -/

/-- `format!` (standard library): the arguments are put into the holes from left to right. -/
def fill : Str → List Str → Str
  | [], _ => []
  | '{' :: '}' :: cs, a :: as => a ++ fill cs as
  | c :: cs, as => c :: fill cs as

/-- Models `src/error.rs:18-26` (`Display for Error`). A panic has no text. -/
def display : Fail → Str
  | .err m as (some p) => fill m.toList as ++ c!" at position " ++ Str.showInt p
  | .err m as none => fill m.toList as
  | .panic _ => []

/-- What the server finds out from the operating system, the clock and its hash maps while it answers a request. -/
structure World where
  /-- the text of a failure of an operation on a path -/
  osError : Str → Str → Str
  /-- `src/bin/http_server/js_management.rs:565-573`: the time of the last change, as text -/
  modified : Path → Str
  /-- `execution_time_ms`, and the same with two decimals -/
  ms : F64
  msText : Str
  /-- the variables of an evaluation, in the order of the map they are sent in -/
  entries : Env → List (Str × Value)
  /-- `total_saved_time_ms` -/
  saved : F64
  /-- the pages: `src/bin/sk_http_server.rs:89-110` -/
  root : Str
  docs : Str
  openapi : Str
  /-- was it a timeout, when reading failed? -/
  timedOut : Bool

/-! ### Messages -/

/-- What is written after the head of a reply. -/
inductive Body where
  | json (j : Json)
  | page (contentType text : Str)
  | preflight

/-- A reply. -/
structure Message where
  status : Nat
  body : Body

/-- The bytes written: `src/bin/http_server/utils.rs:122-167`. -/
def Message.bytes (X : Ext) (m : Message) : HttpRead.Bytes :=
  match m.body with
  | .json j => HttpWrite.response m.status c!"application/json" (X.jsonPrint j)
  | .page t s => HttpWrite.response m.status t s
  | .preflight => HttpWrite.preflight

/-- What happens to a request: a message, or nothing (an empty request, or a panic in the worker). -/
abbrev Out := Option Message × Site

/-- Send a document. -/
def send (s : Site) (status : Nat) (j : Json) : Out := (some ⟨status, .json j⟩, s)

/-- The document of `src/bin/http_server/utils.rs:151-154`; also `src/bin/http_server/auth.rs:24-27` and `:39-42`. -/
def errorDoc (message : Str) : Json := .obj [(c!"error", .str message), (c!"success", .bool false)]

/-- Models `src/bin/http_server/utils.rs:150-156` (`send_http_error`). -/
def sendError (s : Site) (status : Nat) (message : Str) : Out := send s status (errorDoc message)

/-- A step that may fail with a text, or panic. -/
def guarded {α : Type} (s : Site) (r : Res α) (onErr : Str → Out) (k : α → Out) : Out :=
  match r with
  | .ok a => k a
  | .error (.err m as p) => onErr (display (.err m as p))
  | .error (.panic _) => (none, s)

/-- The text of `src/bin/http_server/auth.rs:26`. -/
def unauthorized : Str := c!"Unauthorized: invalid token"

/-- The text of `src/bin/http_server/auth.rs:41`. -/
def unauthorizedAdmin : Str := c!"Unauthorized: invalid admin token. JavaScript function management requires admin authentication."

/-- Models the first lines of every handler that checks a token, e.g. `src/bin/http_server/eval.rs:20-24`. -/
def withToken (X : Ext) (request : Str) (token : Option Str) (message : Str) (s : Site) (k : Out) : Out :=
  guarded s (passes X request token) (sendError s 500) fun ok => if ok then k else sendError s 401 message

/-- `Option<String>` as serde prints it. -/
def optStr : Option Str → Json
  | some t => .str t
  | none => .null

/-- `Option<usize>` as serde prints it. -/
def optNat : Option Nat → Json
  | some n => .num (.int n)
  | none => .null

/-! ### Evaluation -/

/-- Models `src/bin/http_server/eval.rs:312-316`. -/
def structured (X : Ext) (W : World) (v : Value) : Json :=
  .obj [(c!"execution_time", .str (W.msText ++ c!" ms")), (c!"result", structuredValue X v), (c!"type", .str (Tcp.typeName v))]

/-- Models `src/bin/http_server/eval.rs:247-272`: the variables sent, in the order of the map. -/
def sentVariables (X : Ext) (W : World) (vars : Env) (inc : Option Include) : Option Env → List (Str × Json)
  | none => []
  | some ctx => (W.entries ctx).filterMap fun p => (reported X vars inc (some ctx) p.1).map fun j => (p.1, j)

/-- Models `src/bin/http_server/types.rs:117-126` (`EvalResponse`): `variables` is left out if there are none. -/
def evalDoc (success : Bool) (result : Json) (variables : List (Str × Json)) (error : Option Str) (ms : F64) (id : Nat) : Json :=
  .obj ([(c!"success", .bool success), (c!"result", result)] ++ (if variables.isEmpty then [] else [(c!"variables", .obj variables)]) ++
    [(c!"error", optStr error), (c!"execution_time_ms", Json.ofF64 ms), (c!"request_id", .num (.int id))])

/-- Models `src/bin/http_server/eval.rs:185-290` (`process_eval_request`) and `:34-36`. -/
def sendEval (X : Ext) (W : World) (s : Site) (q : EvalRequest) : Out :=
  let id := s.counter
  let s := { s with counter := s.counter + 1 }
  let vars := varsOf X q.arguments
  match evaluateCached X s ⟨q.expression, vars, wantsVariables q.includeVariables⟩ with
  | (.ok (v, ctx), s) =>
    send s 200 (evalDoc true (if q.outputJson.getD false then structured X W v else simpleOutput X v)
      (sentVariables X W (HttpCache.envOf vars) q.includeVariables ctx) none W.ms id)
  | (.error (.err m as p), s) => send s 400 (evalDoc false .null [] (some (display (.err m as p))) W.ms id)
  | (.error (.panic _), s) => (none, s)

/-- Models `src/bin/http_server/eval.rs:13-37` (`handle_eval_post`). -/
def evalPost (X : Ext) (H : HttpExt) (W : World) (cfg : Config) (request : Str) (s : Site) : Out :=
  withToken X request cfg.authToken unauthorized s <|
    guarded s (jsonBody H.decodeEval request) (sendError s 400) fun q => sendEval X W s q

/-- Models `src/bin/http_server/eval.rs:39-131` (`handle_eval_get`). -/
def evalGet (X : Ext) (W : World) (cfg : Config) (request : Str) (s : Site) : Out :=
  withToken X request cfg.authToken unauthorized s <|
    match Str.splitWs ((Str.lines request).headD []) with
    | _ :: path :: _ =>
      let query := match Str.splitOnce c!"?" path with
        | some (_, q) => q
        | none => []
      let q := queryParams (Str.split query c!"&") {}
      if q.expression.isEmpty then sendError s 400 c!"Missing expression parameter"
      else sendEval X W s ⟨q.expression, if q.variables.isEmpty then none else some q.variables, some q.outputJson, some q.includeVariables⟩
    | _ => sendError s 400 c!"Bad Request"

/-- Models `src/bin/http_server/types.rs:128-145` and `src/bin/http_server/eval.rs:144-157`; the version is that of `Cargo.toml`. -/
def healthDoc (W : World) (r : Health.Report) : Json :=
  .obj [(c!"status", .str c!"healthy"), (c!"version", .str c!"0.5.3"), (c!"requests_processed", .num (.int r.requests)),
    (c!"avg_execution_time_ms", Json.ofF64 r.average),
    (c!"cache_stats", .obj [(c!"hits", .num (.int r.hits)), (c!"misses", .num (.int r.misses)), (c!"hit_rate", Json.ofF64 r.hitRate),
      (c!"entries", .num (.int r.entries)), (c!"evictions", .num (.int r.evictions)), (c!"total_saved_time_ms", Json.ofF64 W.saved)])]

/-- Models `src/bin/http_server/eval.rs:163-183` (`handle_cache_clear`), which uses the check of evaluations. -/
def clearCache (X : Ext) (cfg : Config) (request : Str) (s : Site) : Out :=
  withToken X request cfg.adminToken unauthorized s <|
    send { s with cache := s.cache.clear } 200 (.obj [(c!"message", .str c!"Expression cache cleared successfully"), (c!"success", .bool true)])

/-! ### Function files -/

/-- Models `src/bin/http_server/types.rs:225-232` (`ValidationResults`) of a function that could be parsed: both of the first fields are true then. -/
structure Results where
  passed : Bool
  result : Option Str
  error : Option Str

/-- The document of `ValidationResults`. -/
def Results.doc (r : Results) : Json :=
  .obj [(c!"syntax_valid", .bool true), (c!"structure_valid", .bool true), (c!"example_test_passed", .bool r.passed),
    (c!"example_result", optStr r.result), (c!"example_error", optStr r.error)]

/-- Models `src/bin/http_server/js_management.rs:390-424` (`test_js_function_example`): what came out, as a text, and whether it is what the example says. -/
def testExample (X : Ext) (H : HttpExt) (f : JsFunction) (example_ : Str) : Res (Except Str Str) :=
  match Str.splitOnce c!" returns " example_ with
  | none => .ok (.error c!"Invalid example format: expected 'FUNCTION(args) returns result'")
  | some (call, expected) =>
    let expected := Str.strip expected
    match Str.stripPrefix (Str.strip call) (f.name ++ c!"(") with
    | none => .ok (.error c!"Invalid example format: cannot parse function call")
    | some rest =>
      if Str.endsWith rest c!")" then
        let args := rest.dropLast
        match (if (Str.strip args).isEmpty then .ok [] else exampleArgs (Str.split args c!",")) with
        | .error (.panic p) => .error (.panic p)
        | .error (.err m as p) => .ok (.error (display (.err m as p)))
        | .ok vs => match H.runJs f.code vs with
          | .error (.panic p) => .error (.panic p)
          | .error (.err m as p) => .ok (.error (c!"Function execution failed: " ++ display (.err m as p)))
          | .ok v =>
            let got := comparable X v
            if got = expected ∨ c!"\"" ++ got ++ c!"\"" = expected then .ok (.ok (c!"Expected: " ++ expected ++ c!", Got: " ++ got ++ c!" ✓"))
            else .ok (.error (c!"Expected: " ++ expected ++ c!", Got: " ++ got))
      else .ok (.error c!"Invalid example format: cannot parse function call")

/-- Models `src/bin/http_server/js_management.rs:348-388` (`validate_js_function`). -/
def validate (X : Ext) (H : HttpExt) (code : Str) : Res (JsFunction × Results) :=
  match parseJs code with
  | .error (.panic p) => .error (.panic p)
  | .error (.err m as p) => fail "Syntax/structure validation failed: {}" [display (.err m as p)]
  | .ok f => match f.example_ with
    | some e => do
      match ← testExample X H f e with
      | .ok t => return (f, ⟨true, some t, none⟩)
      | .error t => return (f, ⟨false, none, some t⟩)
    | none => .ok (f, ⟨true, some c!"No example provided to test", none⟩)

/-- Models `src/bin/http_server/types.rs:156-163` (`UploadJSResponse`) and `:174-181` (`UpdateJSResponse`), which have the same fields. -/
def storeDoc (success : Bool) (message : Str) (name : Option Str) (results : Option Results) (error : Option Str) : Json :=
  .obj [(c!"success", .bool success), (c!"message", .str message), (c!"function_name", optStr name),
    (c!"validation_results", match results with
      | some r => r.doc
      | none => .null), (c!"error", optStr error)]

/-- The texts in which `handle_upload_js` and `handle_update_js` differ. -/
structure Wording where
  done : Str → Str
  unsaved : Str

/-- Models `src/bin/http_server/js_management.rs:274,284`. -/
def uploading : Wording := ⟨fun name => c!"JavaScript function '" ++ name ++ c!"' uploaded and validated successfully", c!"Validation passed but failed to save file"⟩

/-- Models `src/bin/http_server/js_management.rs:124,134`. -/
def updating : Wording := ⟨fun name => c!"JavaScript function '" ++ name ++ c!"' updated successfully", c!"Validation passed but failed to update file"⟩

/-- Why `save_js_file` failed: `src/bin/http_server/js_management.rs:482-491`. -/
def saveError (W : World) (cfg : Config) (fs : Fs) (filename : Str) : Str :=
  if (ensureHooks cfg fs).2 then c!"Failed to write JS file: " ++ W.osError c!"write" (joinPath cfg.hooksDir filename)
  else c!"Failed to create hooks directory: " ++ W.osError c!"mkdir" cfg.hooksDir

/-- Validating and saving: `src/bin/http_server/js_management.rs:99-157` and `:248-307`. -/
def storeJs (X : Ext) (H : HttpExt) (W : World) (w : Wording) (cfg : Config) (s : Site) (filename : Str) (code : Option Str) : Out :=
  match code with
  | none => send s 400 (storeDoc false c!"Either js_code or file_content must be provided" none none (some c!"Missing JS content"))
  | some code =>
    guarded s (validate X H code) (fun e => send s 400 (storeDoc false c!"JavaScript function validation failed" none none (some e))) fun (f, r) =>
      match saveJs H cfg s.fs filename code with
      | (fs, true) => send { s with fs := fs } 200 (storeDoc true (w.done f.name) (some f.name) (some r) none)
      | (fs, false) => send { s with fs := fs } 500 (storeDoc false w.unsaved (some f.name) (some r) (some (saveError W cfg s.fs filename)))

/-- The reply to a name without `.js`: `src/bin/http_server/js_management.rs:67-80` and `:232-245`. -/
def badName (s : Site) : Out := send s 400 (storeDoc false c!"Filename must end with .js extension" none none (some c!"Invalid file extension"))

/-- Models `src/bin/http_server/js_management.rs:215-308` (`handle_upload_js`). -/
def uploadJs (X : Ext) (H : HttpExt) (W : World) (cfg : Config) (request : Str) (s : Site) : Out :=
  withToken X request cfg.adminToken unauthorizedAdmin s <|
    guarded s (jsRequest X H request) (sendError s 400) fun q =>
      if Str.endsWith q.filename c!".js" then storeJs X H W uploading cfg s q.filename q.code else badName s

/-- Models `src/bin/http_server/js_management.rs:49-158` (`handle_update_js`). -/
def updateJs (X : Ext) (H : HttpExt) (W : World) (cfg : Config) (request : Str) (s : Site) : Out :=
  withToken X request cfg.adminToken unauthorizedAdmin s <|
    guarded s (jsRequest X H request) (sendError s 400) fun q =>
      if !Str.endsWith q.filename c!".js" then badName s
      else if !s.fs.exists cfg.cwd (joinPath cfg.hooksDir q.filename) then
        send s 404 (storeDoc false (c!"File '" ++ q.filename ++ c!"' does not exist") none none (some c!"File not found"))
      else storeJs X H W updating cfg s q.filename q.code

/-- Models `src/bin/http_server/types.rs:188-193` (`DeleteJSResponse`). -/
def deleteDoc (success : Bool) (message : Str) (error : Option Str) : Json :=
  .obj [(c!"success", .bool success), (c!"message", .str message), (c!"error", optStr error)]

/-- Why `delete_js_file` failed: `src/bin/http_server/js_management.rs:503-509`. -/
def deleteError (W : World) (cfg : Config) (fs : Fs) (filename : Str) : Str :=
  if fs.exists cfg.cwd (joinPath cfg.hooksDir filename) then c!"Failed to delete JS file: " ++ W.osError c!"unlink" (joinPath cfg.hooksDir filename)
  else c!"File '" ++ filename ++ c!"' does not exist"

/-- Models `src/bin/http_server/js_management.rs:160-213` (`handle_delete_js`). -/
def deleteJsRequest (X : Ext) (H : HttpExt) (W : World) (cfg : Config) (request : Str) (s : Site) : Out :=
  withToken X request cfg.adminToken unauthorizedAdmin s <|
    guarded s (jsonBody H.decodeDelete request) (sendError s 400) fun filename =>
      if !Str.endsWith filename c!".js" then send s 400 (deleteDoc false c!"Filename must end with .js extension" (some c!"Invalid file extension"))
      else match deleteJs H cfg s.fs filename with
        | (fs, true) => send { s with fs := fs } 200 (deleteDoc true (c!"JavaScript function file '" ++ filename ++ c!"' deleted successfully") none)
        | (fs, false) => send { s with fs := fs } 500 (deleteDoc false (c!"Failed to delete file '" ++ filename ++ c!"'") (some (deleteError W cfg s.fs filename)))

/-- Models `src/js_plugin.rs:87-88`: the description of a function file. -/
def describe (code : Str) : Option Str :=
  (Str.lines code).foldl (fun d l => match Str.stripPrefix (Str.strip l) c!"// @description:" with
    | some r => some (Str.strip r)
    | none => d) none

/-- Models `src/bin/http_server/types.rs:195-207` (`JSFunctionInfo`) and `js_management.rs:556-601`: what is said about a function file. -/
structure Entry where
  info : FileInfo
  description : Option Str
  modified : Str
  error : Option Str

/-- Models `src/bin/http_server/js_management.rs:556-601`. -/
def entryOf (W : World) (dir : Path) (f : Path × Str) : Entry :=
  match parseJs f.2 with
  | .ok _ => ⟨fileInfo dir f, describe f.2, W.modified f.1, none⟩
  | .error e => ⟨fileInfo dir f, none, W.modified f.1, some (display e)⟩

/-- The document of `JSFunctionInfo`. -/
def Entry.doc (e : Entry) : Json :=
  .obj [(c!"filename", .str e.info.filename), (c!"function_name", optStr (e.info.function.map (·.name))), (c!"description", optStr e.description),
    (c!"example", optStr (e.info.function.bind (·.example_))), (c!"min_args", optNat (e.info.function.map (·.minArgs))),
    (c!"max_args", optNat (e.info.function.bind (·.maxArgs))), (c!"file_size", .num (.int e.info.size)), (c!"last_modified", .str e.modified),
    (c!"is_valid", .bool e.info.function.isSome), (c!"validation_error", optStr e.error)]

/-- Models `src/bin/http_server/js_management.rs:514-611` (`list_js_functions`, `scan_directory_for_js`), as `Http.listFunctions`. -/
def entries (H : HttpExt) (W : World) (cfg : Config) (fs : Fs) : Except Str (List Entry) :=
  if fs.exists cfg.cwd cfg.hooksDir then
    match fs.resolve cfg.cwd cfg.hooksDir with
    | some dir =>
      if fs.isDir dir then
        .ok ((((H.listing fs.files).filter fun f => dir.isPrefixOf f.1 && isJs f.1).map (entryOf W dir)).mergeSort fun a b => Str.le a.info.filename b.info.filename)
      else .error (c!"Failed to read directory: " ++ W.osError c!"readdir" cfg.hooksDir)
    | none => .ok []
  else .ok []

/-- Models `src/bin/http_server/types.rs:209-215` (`ListJSResponse`). -/
def listDoc (success : Bool) (es : List Entry) (error : Option Str) : Json :=
  .obj [(c!"success", .bool success), (c!"functions", .arr (es.map Entry.doc)), (c!"total_count", .num (.int es.length)), (c!"error", optStr error)]

/-- Models `src/bin/http_server/js_management.rs:12-47` (`handle_list_js`). -/
def listJs (X : Ext) (H : HttpExt) (W : World) (cfg : Config) (request : Str) (s : Site) : Out :=
  withToken X request cfg.adminToken unauthorizedAdmin s <|
    match entries H W cfg s.fs with
    | .ok es => send s 200 (listDoc true es none)
    | .error e => send s 500 (listDoc false [] (some e))

/-- Models the loop of `src/js_plugin.rs:335-337` as `Http.registerAll`, with the error. -/
def registerEach (X : Ext) (H : HttpExt) : Registry → List JsFunction → Registry × Option Fail
  | reg, [] => (reg, none)
  | reg, f :: fs =>
    match reg.register X (f.custom H) with
    | .ok reg => registerEach X H reg fs
    | .error e => (reg, some e)

/-- Models `src/bin/http_server/types.rs:217-223` (`ReloadHooksResponse`). -/
def reloadDoc (success : Bool) (message : Str) (count : Nat) (error : Option Str) : Json :=
  .obj [(c!"success", .bool success), (c!"message", .str message), (c!"functions_loaded", .num (.int count)), (c!"error", optStr error)]

/-- The reply of a reload that worked: `src/bin/http_server/js_management.rs:325-332`. -/
def reloaded (s : Site) (count : Nat) : Out :=
  send s 200 (reloadDoc true (c!"Successfully reloaded " ++ HttpWrite.number count ++ c!" JavaScript function(s)") count none)

/-- The reply of a reload that failed: `src/bin/http_server/js_management.rs:335-342`. -/
def notReloaded (s : Site) (error : Str) : Out := send s 500 (reloadDoc false c!"Failed to reload JavaScript functions" 0 (some error))

/-- Models `src/bin/http_server/js_management.rs:310-346` (`handle_reload_hooks`) and `src/js_plugin.rs:286-340` (`load_functions`, `auto_register`). -/
def reloadHooks (X : Ext) (H : HttpExt) (W : World) (cfg : Config) (request : Str) (s : Site) : Out :=
  withToken X request cfg.adminToken unauthorizedAdmin s <|
    if s.fs.exists cfg.cwd cfg.hooksDir then
      if hooksReadable cfg s.fs then
        match registerEach X H s.reg (loadJs H cfg s.fs) with
        | (reg, none) => reloaded { s with reg := reg } (loadJs H cfg s.fs).length
        | (reg, some e) => notReloaded { s with reg := reg } (display e)
      else notReloaded s (c!"Failed to read directory: " ++ W.osError c!"readdir" cfg.hooksDir)
    else match s.fs.createDirs cfg.cwd cfg.hooksDir with
      | (fs, true) => reloaded { s with fs := fs } 0
      | (fs, false) => notReloaded { s with fs := fs } (c!"Failed to create hooks directory: " ++ W.osError c!"mkdir" cfg.hooksDir)

/-! ### Routes -/

/-- Send a page. -/
def sendPage (s : Site) (contentType text : Str) : Out := (some ⟨200, .page contentType text⟩, s)

/-- Models `src/bin/sk_http_server.rs:69-110`: the routes and the pages. `report` is what the health page says. -/
def route (X : Ext) (H : HttpExt) (W : World) (cfg : Config) (report : Health.Report) (method path request : Str) (s : Site) : Out :=
  if method = c!"GET" ∧ path = c!"/health" then send s 200 (healthDoc W report)
  else if method = c!"GET" ∧ path = c!"/" then sendPage s c!"text/html" W.root
  else if method = c!"GET" ∧ path = c!"/docs" then sendPage s c!"text/html" W.docs
  else if method = c!"GET" ∧ path = c!"/openapi.yml" then sendPage s c!"application/x-yaml" W.openapi
  else if method = c!"POST" ∧ path = c!"/eval" then evalPost X H W cfg request s
  else if method = c!"GET" ∧ path = c!"/eval" then evalGet X W cfg request s
  else if method = c!"POST" ∧ path = c!"/upload-js" then uploadJs X H W cfg request s
  else if method = c!"PUT" ∧ path = c!"/update-js" then updateJs X H W cfg request s
  else if method = c!"DELETE" ∧ path = c!"/delete-js" then deleteJsRequest X H W cfg request s
  else if method = c!"GET" ∧ path = c!"/list-js" then listJs X H W cfg request s
  else if method = c!"POST" ∧ path = c!"/reload-hooks" then reloadHooks X H W cfg request s
  else if method = c!"DELETE" ∧ path = c!"/cache" then clearCache X cfg request s
  else if method = c!"OPTIONS" then (some ⟨200, .preflight⟩, s)
  else sendError s 404 c!"Not Found"

/-- Models `src/bin/sk_http_server.rs:51-88` (`handle_http_request` after the request has been read). -/
def handle (X : Ext) (H : HttpExt) (W : World) (cfg : Config) (report : Health.Report) (request : Str) (s : Site) : Out :=
  match Str.lines request with
  | [] => (none, s)
  | first :: _ =>
    match Str.splitWs first with
    | method :: path :: _ :: _ => route X H W cfg report method ((Str.split path c!"?").headD path) request s
    | _ => sendError s 400 c!"Bad Request"

/-- The texts of the errors of `src/bin/http_server/utils.rs:20-104` that are made there. -/
def readText : HttpRead.ReadErr → Option Str
  | .requestTooLarge => some c!"Request too large (max 1MB)"
  | .bodyTooLarge => some c!"Request body too large (max 1MB)"
  | .exceeded => some c!"Request exceeded size limit during body read"
  | .notUtf8 => some c!"Invalid UTF-8"
  | .io => none

/-- Models `src/bin/sk_http_server.rs:35-45`: those made in `read_complete_http_request` are `InvalidData`. -/
def readErrorText (W : World) (e : HttpRead.ReadErr) : Str :=
  match readText e with
  | some t => if Str.contains t c!"too large" then c!"413 Payload Too Large" else c!"400 Bad Request"
  | none => if W.timedOut then c!"408 Request Timeout" else c!"500 Internal Server Error"

/-- Models `src/bin/sk_http_server.rs:21-88` (`handle_http_request`): the request is read and answered. -/
def connection (X : Ext) (H : HttpExt) (W : World) (cfg : Config) (report : Health.Report) (want : HttpRead.Schedule) (c : HttpRead.Client) (s : Site) : Out :=
  match (HttpRead.readRequest X want c []).1 with
  | .ok request => handle X H W cfg report request s
  | .error e => sendError s 400 (readErrorText W e)

end HttpReply
