import Verif.Model.HttpCache
import Verif.Model.Utf8
/-! The HTTP server: texts, authentication, multipart bodies, the function files and the routes. `src/bin/sk_http_server.rs`, `src/bin/http_server/`.

Not modelled: sockets (reading a request is `Verif.Model.HttpRead`), timing figures, the texts of the documentation pages and of success messages, daemon mode. -/

namespace Str

/-- A line and its end: the newline has been taken off, a carriage return before it goes too. The line is given reversed. -/
def stripCr : Str → Str
  | '\r' :: rest => rest.reverse
  | rev => rev.reverse

/-- Worker for `lines`; `acc` is the current line reversed. -/
def linesGo : Str → Str → List Str
  | acc, [] => if acc.isEmpty then [] else [acc.reverse]
  | acc, c :: cs => if c = '\n' then stripCr acc :: linesGo [] cs else linesGo (c :: acc) cs

/-- `str::lines` (core library). -/
def lines (s : Str) : List Str := linesGo [] s

/-- Worker for `splitWs`. -/
def splitWsGo : Str → Str → List Str
  | acc, [] => if acc.isEmpty then [] else [acc.reverse]
  | acc, c :: cs =>
    if isWs c then (if acc.isEmpty then splitWsGo [] cs else acc.reverse :: splitWsGo [] cs) else splitWsGo (c :: acc) cs

/-- `str::split_whitespace` (core library). -/
def splitWs (s : Str) : List Str := splitWsGo [] s

/-- `str::split_once` with a non-empty pattern (core library); also `find` followed by slicing around the match. -/
def splitOnce (p : Str) : Str → Option (Str × Str)
  | [] => none
  | c :: cs =>
    match stripPrefix (c :: cs) p with
    | some rest => some ([], rest)
    | none => (splitOnce p cs).map fun r => (c :: r.1, r.2)

/-- Worker for `trimEndMatches`, on the reversed text. -/
def trimStartPairs (a : Char) : Str → Str
  | x :: y :: rest => if x = a ∧ y = a then trimStartPairs a rest else x :: y :: rest
  | s => s

/-- `str::trim_end_matches("--")` (core library). -/
def trimEndDashes (s : Str) : Str := (trimStartPairs '-' s.reverse).reverse

/-- Worker for `parseUsize`. -/
def digitsGo : Nat → Str → Option Nat
  | n, [] => some n
  | n, c :: cs => if asciiDigit c then digitsGo (10 * n + (c.toNat - 48)) cs else none

/-- `str::parse::<usize>` (core library): an optional `+`, then digits, in the range of 64 bits. -/
def parseUsize (s : Str) : Option Nat :=
  let body := match s with
    | '+' :: rest => rest
    | _ => s
  if body.isEmpty then none
  else match digitsGo 0 body with
    | some n => if n < 2 ^ 64 then some n else none
    | none => none

/-- `str::trim`. -/
def strip (s : Str) : Str := trim isWs s

end Str

namespace Http

/-! ### Authentication: `src/bin/http_server/auth.rs` -/

/-- The slice `&s[n..]`; a panic if `n` is not at a character boundary. -/
def sliceFrom (s : Str) (n : Nat) : Res Str :=
  match Str.dropBytes s n with
  | some r => .ok r
  | none => panics "byte index is not a char boundary"

/-- One line of `src/bin/http_server/auth.rs:6-15`: `none` if it is not an authorization line. -/
def authLine (X : Ext) (line : Str) : Res (Option Str) :=
  let line := Str.strip line
  if Str.startsWith (X.lower line) c!"authorization:" then do
    let value := Str.strip (← sliceFrom line 14)
    if Str.startsWith (X.lower value) c!"bearer " then
      return some (Str.strip (← sliceFrom value 7))
    else return some value
  else return none

/-- Models `src/bin/http_server/auth.rs:3-17` (`extract_auth_header`), the loop over the lines. -/
def authOf (X : Ext) : List Str → Res (Option Str)
  | [] => .ok none
  | l :: ls => do
    match ← authLine X l with
    | some t => return some t
    | none => authOf X ls

/-- Models `src/bin/http_server/auth.rs:19-32` (`check_authentication`) and `:34-47` (`check_admin_authentication`), which differ in the message: whether the request passes. -/
def passes (X : Ext) (request : Str) (token : Option Str) : Res Bool :=
  match token with
  | none => .ok true
  | some t => do
    let supplied := (← authOf X (Str.lines request)).getD []
    return supplied == t

/-- Models `src/bin/http_server/auth.rs:59-84` (`TokenConfig::new`), the tokens. -/
def tokens : Option Str → Option Str → Option Str × Option Str
  | none, none => (none, none)
  | some a, none => (some a, some a)
  | none, some b => (some b, some b)
  | some a, some b => (some a, some b)

/-! ### Multipart bodies: `src/bin/http_server/multipart.rs` -/

/-- Models `src/bin/http_server/multipart.rs:3-9` (`MultipartField`). The content is a piece of the request, which is text. -/
structure Field where
  name : Str
  filename : Option Str
  contentType : Option Str
  content : Str
deriving DecidableEq, Repr

/-- A `HashMap<String, String>` filled by `insert`, as the list of insertions, latest first. -/
abbrev Params := List (Str × Str)

/-- `HashMap::get`. -/
def Params.get (ps : Params) (k : Str) : Option Str := (ps.find? fun p => p.1 = k).map (·.2)

/-- Models `src/bin/http_server/multipart.rs:127-131`: the quotes around a value. A lone quote starts and ends with one, and `[1..0]` panics. -/
def unquote (v : Str) : Res Str :=
  match v with
  | ['"'] => panics "slice index starts at 1 but ends at 0"
  | '"' :: rest => .ok (if Str.endsWith v c!"\"" then rest.dropLast else v)
  | _ => .ok v

/-- Models the loop of `src/bin/http_server/multipart.rs:118-135`. -/
def dispositionParams : List Str → Params → Res Params
  | [], acc => .ok acc
  | p :: ps, acc =>
    match Str.splitOnce c!"=" (Str.strip p) with
    | some (k, v) => do
      let v ← unquote (Str.strip v)
      dispositionParams ps ((Str.strip k, v) :: acc)
    | none => dispositionParams ps acc

/-- Models `src/bin/http_server/multipart.rs:109-138` (`parse_content_disposition`): what is between the first and the second colon. -/
def disposition (header : Str) : Res Params :=
  match Str.split header c!":" with
  | _ :: v :: _ => dispositionParams (Str.split (Str.strip v) c!";") []
  | _ => fail "Invalid Content-Disposition header"

/-- The second piece between colons, trimmed. -/
def afterColon (line : Str) : Option Str :=
  match Str.split line c!":" with
  | _ :: v :: _ => some (Str.strip v)
  | _ => none

/-- Models the loop of `src/bin/http_server/multipart.rs:67-88`; the state is name, filename and content type. -/
def fieldHeaders (X : Ext) : List Str → Str × Option Str × Option Str → Res (Str × Option Str × Option Str)
  | [], st => .ok st
  | l :: ls, (name, filename, ctype) =>
    let line := Str.strip l
    if Str.startsWith (X.lower line) c!"content-disposition:" then do
      let ps ← disposition line
      fieldHeaders X ls (((ps.get c!"name").getD name), ps.get c!"filename", ctype)
    else if Str.startsWith (X.lower line) c!"content-type:" then
      fieldHeaders X ls (name, filename, some ((afterColon line).getD c!"application/octet-stream"))
    else fieldHeaders X ls (name, filename, ctype)

/-- Models `src/bin/http_server/multipart.rs:61-107` (`parse_multipart_field`). -/
def field (X : Ext) (headers content : Str) : Res Field := do
  let (name, filename, ctype) ← fieldHeaders X (Str.lines headers) ([], none, none)
  if name.isEmpty then fail "Missing field name in multipart data"
  return ⟨name, filename, ctype, Str.strip (Str.trimEndDashes content)⟩

/-- Models the loop of `src/bin/http_server/multipart.rs:39-56`; the fields are listed latest first. -/
def multipartParts (X : Ext) (boundary : Str) : List Str → List Field → Res (List Field)
  | [], acc => .ok acc
  | p :: ps, acc =>
    let part := Str.strip p
    if Str.startsWith part (boundary ++ c!"--") || part.isEmpty then multipartParts X boundary ps acc
    else match Str.splitOnce c!"\r\n\r\n" part with
      | some (h, c) => do multipartParts X boundary ps ((← field X h c) :: acc)
      | none => match Str.splitOnce c!"\n\n" part with
        | some (h, c) => do multipartParts X boundary ps ((← field X h c) :: acc)
        | none => multipartParts X boundary ps acc

/-- Models `src/bin/http_server/multipart.rs:32-59` (`parse_multipart_data`). -/
def multipart (X : Ext) (body boundary : Str) : Res (List Field) :=
  multipartParts X boundary ((Str.split body (c!"--" ++ boundary)).drop 1) []

/-- Models `src/bin/http_server/multipart.rs:21-24` (`get_text_field`); the content is always UTF-8. -/
def textField (fs : List Field) (n : Str) : Option Str := (fs.find? fun f => f.name = n).map (·.content)

/-- Models `src/bin/http_server/multipart.rs:26-29` (`get_file_field`), its content. -/
def fileField (fs : List Field) (n : Str) : Option Str :=
  match fs.find? fun f => f.name = n with
  | some f => if f.filename.isSome then some f.content else none
  | none => none

/-- Models `src/bin/http_server/multipart.rs:140-152` (`extract_boundary_from_content_type`), the loop. -/
def boundaryOf : List Str → Option Str
  | [] => none
  | p :: ps => match Str.stripPrefix (Str.strip p) c!"boundary=" with
    | some b => some b
    | none => boundaryOf ps

/-! ### Bodies -/

/-- Models `src/bin/http_server/types.rs:147-154` (`UploadJSRequest`) and `:165-172` (`UpdateJSRequest`). -/
structure JsRequest where
  filename : Str
  jsCode : Option Str
  fileContent : Option Str
deriving DecidableEq, Repr

/-- Models `src/bin/http_server/types.rs:5-9` (`IncludeVariables`). -/
inductive Include where
  | all
  | none
  | selected (names : List Str)
deriving DecidableEq, Repr

/-- Models `src/bin/http_server/types.rs:68-75` (`EvalRequest`). The arguments are listed in the iteration order of the `HashMap`. -/
structure EvalRequest where
  expression : Str
  arguments : Option (List (Str × Json))
  outputJson : Option Bool
  includeVariables : Option Include

/-- What the server calls outside the code: serde's decoding of bodies, the JavaScript engine, file system errors, the order of directory listings. -/
structure HttpExt where
  decodeJs : Str → Except Str JsRequest
  decodeDelete : Str → Except Str Str
  decodeEval : Str → Except Str EvalRequest
  runJs : Str → List Value → Res Value
  ioError : Str → Bool
  listing : List (List Str × Str) → List (List Str × Str)

/-- Models `src/bin/http_server/utils.rs:168-177` (`parse_json_body`). -/
def jsonBody {α : Type} (decode : Str → Except Str α) (request : Str) : Res α :=
  match Str.splitOnce c!"\r\n\r\n" request with
  | none => fail "Invalid HTTP request"
  | some (_, body) => match decode body with
    | .ok a => .ok a
    | .error e => fail "Invalid JSON: {}" [e]

/-- Models `src/bin/http_server/js_management.rs:693-700` (`extract_content_type`). -/
def contentType (X : Ext) : List Str → Option Str
  | [] => none
  | l :: ls => if Str.startsWith (X.lower l) c!"content-type:" then afterColon l else contentType X ls

/-- Models `src/bin/http_server/js_management.rs:702-710` (`extract_request_body`). -/
def requestBody (request : Str) : Res Str :=
  match Str.splitOnce c!"\r\n\r\n" request with
  | some (_, b) => .ok b
  | none => match Str.splitOnce c!"\n\n" request with
    | some (_, b) => .ok b
    | none => fail "Could not find request body separator"

/-- Models `src/bin/http_server/js_management.rs:613-651` (`parse_upload_request`) and `:653-691` (`parse_update_request`), which are the same. -/
def jsRequest (X : Ext) (H : HttpExt) (request : Str) : Res JsRequest :=
  let ctype := (contentType X (Str.lines request)).getD []
  if Str.startsWith (X.lower ctype) c!"multipart/form-data" then
    match boundaryOf (Str.split ctype c!";") with
    | none => fail "Missing boundary in multipart Content-Type"
    | some boundary => do
      let fs ← multipart X (← requestBody request) boundary
      match textField fs c!"filename" with
      | none => fail "Missing 'filename' field in multipart data"
      | some filename =>
        match textField fs c!"js_code" with
        | some code => return ⟨filename, some code, none⟩
        | none => match fileField fs c!"file" with
          | some content => return ⟨filename, none, some content⟩
          | none => fail "Either 'js_code' text field or 'file' upload field must be provided"
  else jsonBody H.decodeJs request

/-! ### Function files: `src/js_plugin.rs`, `src/bin/http_server/js_management.rs` -/

/-- Models `src/js_plugin.rs:9-16` (`JavaScriptFunction`), without its description. -/
structure JsFunction where
  name : Str
  minArgs : Nat
  maxArgs : Option Nat
  example_ : Option Str
  code : Str
deriving DecidableEq, Repr

/-- What the loop of `src/js_plugin.rs:72-91` has found so far. -/
structure JsMeta where
  name : Option Str := none
  minArgs : Nat := 1
  maxArgs : Option Nat := none
  example_ : Option Str := none

/-- Models the loop of `src/js_plugin.rs:72-91`. -/
def jsMeta : List Str → JsMeta → Res JsMeta
  | [], m => .ok m
  | l :: ls, m =>
    let line := Str.strip l
    match Str.stripPrefix line c!"// @name:" with
    | some r => jsMeta ls { m with name := some (Str.strip r) }
    | none => match Str.stripPrefix line c!"// @min_args:" with
      | some r => match Str.parseUsize (Str.strip r) with
        | some n => jsMeta ls { m with minArgs := n }
        | none => fail "Invalid min_args value"
      | none => match Str.stripPrefix line c!"// @max_args:" with
        | some r =>
          if Str.strip r = c!"unlimited" then jsMeta ls { m with maxArgs := none }
          else match Str.parseUsize (Str.strip r) with
            | some n => jsMeta ls { m with maxArgs := some n }
            | none => fail "Invalid max_args value"
        | none => match Str.stripPrefix line c!"// @description:" with
          | some _ => jsMeta ls m
          | none => match Str.stripPrefix line c!"// @example:" with
            | some r => jsMeta ls { m with example_ := some (Str.strip r) }
            | none => jsMeta ls m

/-- Models `src/js_plugin.rs:64-96` (`parse_js_function_internal`). -/
def parseJs (code : Str) : Res JsFunction := do
  let m ← jsMeta (Str.lines code) {}
  match m.name with
  | some name => return ⟨name, m.minArgs, m.maxArgs, m.example_, code⟩
  | none => fail "JavaScript function must have @name annotation"

/-- The custom function it is registered as (`src/js_plugin.rs:211-272`). -/
def JsFunction.custom (H : HttpExt) (f : JsFunction) : CustomFn := ⟨f.name, f.minArgs, f.maxArgs, H.runJs f.code⟩

/-- Models `src/bin/http_server/js_management.rs:426-454` (`parse_function_arguments`), the loop; a lone quote panics. -/
def exampleArgs : List Str → Res (List Value)
  | [] => .ok []
  | a :: as => do
    let arg := Str.strip a
    let v ← (if Str.startsWith arg c!"\"" && Str.endsWith arg c!"\"" then do return .str (← unquote arg)
      else if arg = c!"true" then .ok (.bool true)
      else if arg = c!"false" then .ok (.bool false)
      else match F64.parse arg with
        | some x => .ok (.num x)
        | none => fail "Cannot parse argument: {}" [arg] : Res Value)
    return v :: (← exampleArgs as)

mutual
/-- Models `src/bin/http_server/js_management.rs:456-476` (`format_value_for_comparison`). -/
def comparable (X : Ext) : Value → Str
  | .num n => if F64.feq (F64.fract n) (.zero false) then Str.showInt n.toI64 else X.fmt n
  | .str s => s
  | .bool b => Str.showBool b
  | .null => c!"null"
  | .arr items => c!"[" ++ Str.join c!", " (comparables X items) ++ c!"]"
  | .cur c => X.fmt c
  | .dt t => Str.showInt t
  | .json s => s
/-- The elements of an array. -/
def comparables (X : Ext) : List Value → List Str
  | [] => []
  | v :: vs => comparable X v :: comparables X vs
end

/-- Models `src/bin/http_server/js_management.rs:390-424` (`test_js_function_example`): whether the example comes out as it says. -/
def exampleHolds (X : Ext) (H : HttpExt) (f : JsFunction) (example_ : Str) : Res Bool :=
  match Str.splitOnce c!" returns " example_ with
  | none => .ok false
  | some (call, expected) =>
    match Str.stripPrefix (Str.strip call) (f.name ++ c!"(") with
    | none => .ok false
    | some rest =>
      if Str.endsWith rest c!")" then
        let args := rest.dropLast
        match (if (Str.strip args).isEmpty then .ok [] else exampleArgs (Str.split args c!",")) with
        | .error (.panic p) => .error (.panic p)
        | .error (.err ..) => .ok false
        | .ok vs => match H.runJs f.code vs with
          | .error (.panic p) => .error (.panic p)
          | .error (.err ..) => .ok false
          | .ok v => .ok (comparable X v == Str.strip expected || (c!"\"" ++ comparable X v ++ c!"\"") == Str.strip expected)
      else .ok false

/-- Models `src/bin/http_server/js_management.rs:348-388` (`validate_js_function`): the function and whether the example test passed. -/
def validateJs (X : Ext) (H : HttpExt) (code : Str) : Res (JsFunction × Bool) :=
  match parseJs code with
  | .error (.panic p) => .error (.panic p)
  | .error (.err m _ _) => fail "Syntax/structure validation failed: {}" [m.toList]
  | .ok f => match f.example_ with
    | some e => do return (f, ← exampleHolds X H f e)
    | none => .ok (f, true)

/-- An absolute path, by its components. -/
abbrev Path := List Str

/-- A file system without symbolic links: the directories other than the root, and the files with their contents. -/
structure Fs where
  dirs : List Path
  files : List (Path × Str)

/-- Whether there is such a directory. -/
def Fs.isDir (fs : Fs) (p : Path) : Bool := p == [] || fs.dirs.contains p

/-- The content of a file. -/
def Fs.read (fs : Fs) (p : Path) : Option Str := (fs.files.find? fun f => f.1 = p).map (·.2)

/-- The file is there with this content afterwards. -/
def Fs.write (fs : Fs) (p : Path) (s : Str) : Fs := { fs with files := (p, s) :: fs.files.filter fun f => f.1 ≠ p }

/-- The file is not there afterwards. -/
def Fs.remove (fs : Fs) (p : Path) : Fs := { fs with files := fs.files.filter fun f => f.1 ≠ p }

/-- The components of a path text: empty ones and `.` do not count. -/
def components (s : Str) : List Str := (Str.split s c!"/").filter fun c => c ≠ [] ∧ c ≠ c!"."

/-- How the operating system finds a file: component by component, going up at `..`; all but the last must be directories. -/
def walk (fs : Fs) : Path → List Str → Option Path
  | cur, [] => some cur
  | cur, c :: rest =>
    if c = c!".." then walk fs cur.dropLast rest
    else if rest.isEmpty then some (cur ++ [c])
    else if fs.isDir (cur ++ [c]) then walk fs (cur ++ [c]) rest
    else none

/-- The file a path text names. -/
def Fs.resolve (fs : Fs) (cwd : Path) (s : Str) : Option Path :=
  walk fs (if Str.startsWith s c!"/" then [] else cwd) (components s)

/-- `Path::exists` (standard library). -/
def Fs.exists (fs : Fs) (cwd : Path) (s : Str) : Bool :=
  match fs.resolve cwd s with
  | some p => fs.isDir p || (fs.read p).isSome
  | none => false

/-- `Path::join` (standard library): an absolute path replaces the base. -/
def joinPath (base name : Str) : Str :=
  if Str.startsWith name c!"/" || base.isEmpty then name
  else if Str.endsWith base c!"/" then base ++ name
  else base ++ c!"/" ++ name

/-- `fs::create_dir_all` (standard library): the directories on the way, and whether it succeeded; it does not if there is a file on the way. -/
def mkdirs : Fs → Path → List Str → Fs × Bool
  | fs, _, [] => (fs, true)
  | fs, cur, c :: rest =>
    if c = c!".." then mkdirs fs cur.dropLast rest
    else if fs.isDir (cur ++ [c]) then mkdirs fs (cur ++ [c]) rest
    else if (fs.read (cur ++ [c])).isSome then (fs, false)
    else mkdirs { fs with dirs := (cur ++ [c]) :: fs.dirs } (cur ++ [c]) rest

/-- `fs::create_dir_all` of a path text. -/
def Fs.createDirs (fs : Fs) (cwd : Path) (s : Str) : Fs × Bool :=
  mkdirs fs (if Str.startsWith s c!"/" then [] else cwd) (components s)

/-- Configuration of a server: `src/bin/sk_http_server.rs:128-131`, the environment variable `SKILLET_HOOKS_DIR`, the working directory. -/
structure Config where
  authToken : Option Str
  adminToken : Option Str
  hooksDir : Str
  cwd : Path

/-- Models `src/bin/http_server/js_management.rs:481-486` and `src/js_plugin.rs:289-294`: the hooks directory is made if nothing is there. That the operating system
may refuse for other reasons than a file on the way is not modelled. -/
def ensureHooks (cfg : Config) (fs : Fs) : Fs × Bool :=
  if fs.exists cfg.cwd cfg.hooksDir then (fs, true) else fs.createDirs cfg.cwd cfg.hooksDir

/-- Models `src/bin/http_server/js_management.rs:488-493`: the file is written. -/
def writeJs (H : HttpExt) (cfg : Config) (fs : Fs) (filename code : Str) : Fs × Bool :=
  let file := joinPath cfg.hooksDir filename
  match fs.resolve cfg.cwd file with
  | some p => if fs.isDir p || H.ioError file then (fs, false) else (fs.write p code, true)
  | none => (fs, false)

/-- Models `src/bin/http_server/js_management.rs:478-494` (`save_js_file`): the file system afterwards and whether it succeeded. -/
def saveJs (H : HttpExt) (cfg : Config) (fs : Fs) (filename code : Str) : Fs × Bool :=
  match ensureHooks cfg fs with
  | (fs, true) => writeJs H cfg fs filename code
  | (fs, false) => (fs, false)

/-- Models `src/bin/http_server/js_management.rs:496-512` (`delete_js_file`). -/
def deleteJs (H : HttpExt) (cfg : Config) (fs : Fs) (filename : Str) : Fs × Bool :=
  let file := joinPath cfg.hooksDir filename
  match fs.resolve cfg.cwd file with
  | some p => if (fs.read p).isSome && !H.ioError file then (fs.remove p, true) else (fs, false)
  | none => (fs, false)

/-- `Path::extension` (standard library) is `js`: something, a dot, `js`. -/
def isJs (p : Path) : Bool :=
  match p.getLast? with
  | some n => Str.endsWith n c!".js" && 3 < n.length
  | none => false

/-- Whether `fs::read_dir` of the hooks directory works: `src/js_plugin.rs:303-304`, `src/bin/http_server/js_management.rs:540-541`. -/
def hooksReadable (cfg : Config) (fs : Fs) : Bool :=
  match fs.resolve cfg.cwd cfg.hooksDir with
  | some dir => fs.isDir dir
  | none => false

/-- Models `src/js_plugin.rs:286-328` (`load_functions`) when the hooks directory can be read: the functions in the files below the hooks directory, in the order of the directory listings; files that cannot
be parsed are skipped. -/
def loadJs (H : HttpExt) (cfg : Config) (fs : Fs) : List JsFunction :=
  match fs.resolve cfg.cwd cfg.hooksDir with
  | some dir => ((H.listing fs.files).filter fun f => dir.isPrefixOf f.1 && isJs f.1).filterMap fun f =>
      match parseJs f.2 with
      | .ok g => some g
      | .error _ => none
  | none => []

/-- Models the loop of `src/js_plugin.rs:335-337`: the registry afterwards and whether all were registered. -/
def registerAll (X : Ext) (H : HttpExt) : Registry → List JsFunction → Registry × Bool
  | reg, [] => (reg, true)
  | reg, f :: fs =>
    match reg.register X (f.custom H) with
    | .ok reg => registerAll X H reg fs
    | .error _ => (reg, false)

/-! ### Evaluation requests: `src/bin/http_server/eval.rs` -/

/-- `HashMap::insert` on variables kept as a list. -/
def setVar (vs : HttpCache.Vars) (k : Str) (v : Value) : HttpCache.Vars := (k, v) :: vs.filter fun p => p.1 ≠ k

/-- Models the loop of `src/bin/http_server/eval.rs:202-219`. -/
def argVars (X : Ext) : List (Str × Json) → HttpCache.Vars → HttpCache.Vars
  | [], vs => vs
  | (k, j) :: rest, vs => argVars X rest (setVar vs (Lib.sanitize X k) (Json.toValue X j))

/-- Models `src/bin/http_server/eval.rs:194-223`: the variables of a request. -/
def varsOf (X : Ext) : Option (List (Str × Json)) → HttpCache.Vars
  | none => []
  | some js => argVars X js [(c!"arguments", .json (X.jsonPrint (.obj js)))]

mutual
/-- Models `src/bin/http_server/eval.rs:319-333` (`format_simple_output`). -/
def simpleOutput (X : Ext) : Value → Json
  | .num n => Json.ofF64 n
  | .str s => .str s
  | .bool b => .bool b
  | .cur c => Json.ofF64 c
  | .dt t => .str (Str.showInt t)
  | .arr items => .arr (simpleOutputs X items)
  | .null => .null
  | .json s => match X.jsonParse s with
    | .ok j => j
    | .error _ => .str s
/-- The elements of an array. -/
def simpleOutputs (X : Ext) : List Value → List Json
  | [] => []
  | v :: vs => simpleOutput X v :: simpleOutputs X vs
end

/-- Models `src/bin/http_server/eval.rs:253-261`: whether a changed variable is reported. -/
def Include.admits : Option Include → Str → Bool
  | some .all, _ => true
  | some (.selected ns), n => ns.contains n
  | _, _ => false

/-- Models `src/bin/http_server/eval.rs:247-272`: the reported variables. A report without variables and no report are not told apart. -/
def reported (X : Ext) (vars : Env) (inc : Option Include) (ctx : Option Env) : Str → Option Json := fun n =>
  match ctx with
  | none => none
  | some c =>
    match c n with
    | none => none
    | some v =>
      let unchanged := match vars n with
        | some w => Value.equal w v
        | none => false
      if !unchanged && Include.admits inc n then some (simpleOutput X v) else none

/-- Models `src/bin/http_server/types.rs:117-126` (`EvalResponse`), without the time. With `output_json` the result is wrapped together with its type (`eval.rs:292-317`), which is not modelled. -/
structure EvalResponse where
  success : Bool
  result : Option Value
  variables : Str → Option Json
  error : Option Fail
  requestId : Nat

/-- Models `src/bin/http_server/eval.rs:226`. -/
def wantsVariables : Option Include → Bool
  | some .all => true
  | some (.selected _) => true
  | _ => false

/-- What the server keeps: files, registry, response cache, request counter. -/
structure Site where
  fs : Fs
  reg : Registry
  cache : HttpCache.Cache
  counter : Nat

/-- Models `src/bin/http_server/cache.rs:113-175` (`evaluate_cached`) as one step (see `HttpCache.Server` for its interleavings). -/
def evaluateCached (X : Ext) (s : Site) (r : HttpCache.Request) : Res (Value × Option Env) × Site :=
  let k := r.key X
  match s.cache.get k with
  | (some e, c) => (.ok (e.result, e.context), { s with cache := c })
  | (none, c) =>
    match HttpCache.fresh X s.reg r with
    | .ok (v, ctx) => (.ok (v, ctx), { s with cache := c.put k ⟨v, ctx, 0⟩ })
    | .error f => (.error f, { s with cache := c })

/-- Models `src/bin/http_server/eval.rs:185-290` (`process_eval_request`). A panic ends the request without a response. -/
def evalRequest (X : Ext) (s : Site) (q : EvalRequest) : Res EvalResponse × Site :=
  let id := s.counter
  let s := { s with counter := s.counter + 1 }
  let vars := varsOf X q.arguments
  match evaluateCached X s ⟨q.expression, vars, wantsVariables q.includeVariables⟩ with
  | (.ok (v, ctx), s) => (.ok ⟨true, some v, reported X (HttpCache.envOf vars) q.includeVariables ctx, none, id⟩, s)
  | (.error (.err m a p), s) => (.ok ⟨false, none, fun _ => none, some (.err m a p), id⟩, s)
  | (.error (.panic p), s) => (.error (.panic p), s)

/-- Models `src/bin/http_server/eval.rs:78-90`: the variables to report (also `src/bin/http_server/types.rs:38-57`). -/
def selectedNames (v : Str) : List Str :=
  ((Str.split v c!",").map Str.strip).filter (fun s => !s.isEmpty) |>.map fun s => match s with
    | ':' :: rest => rest
    | _ => s

/-- Models `src/bin/http_server/eval.rs:74-98`. -/
def includeOf (v : Str) : Include :=
  if v = c!"true" then .all
  else if v = c!"false" then .none
  else match selectedNames v with
    | [] => .none
    | ns => .selected ns

/-- What the loop of `src/bin/http_server/eval.rs:68-114` has found so far. -/
structure Query where
  expression : Str := []
  variables : List (Str × Json) := []
  outputJson : Bool := false
  includeVariables : Include := .none

/-- Models `src/bin/http_server/eval.rs:100-111`: the value of a variable. -/
def queryValue (v : Str) : Json :=
  match F64.parse v with
  | some x => Json.ofF64 x
  | none => if v = c!"true" then .bool true else if v = c!"false" then .bool false else .str v

/-- Models the loop of `src/bin/http_server/eval.rs:68-114`. -/
def queryParams : List Str → Query → Query
  | [], q => q
  | p :: ps, q =>
    match Str.splitOnce c!"=" p with
    | none => queryParams ps q
    | some (k, v) =>
      let v := (HttpRead.urlDecode v).getD []
      queryParams ps <|
        if k = c!"expr" ∨ k = c!"expression" then { q with expression := v }
        else if k = c!"output_json" then { q with outputJson := v == c!"true" }
        else if k = c!"include_variables" then { q with includeVariables := includeOf v }
        else { q with variables := (k, queryValue v) :: q.variables.filter fun p => p.1 ≠ k }

/-! ### Routes -/

/-- What is sent back: a status, and the response of an evaluation. -/
structure Reply where
  status : Nat
  eval : Option EvalResponse := none

/-- What happens to a request: a reply, or nothing (an empty request, or a panic in the worker). -/
abbrev Outcome := Option Reply × Site

/-- Send a status. -/
def reply (s : Site) (status : Nat) : Outcome := (some { status }, s)

/-- A step that may panic. -/
def guarded {α : Type} (s : Site) (r : Res α) (onErr : Outcome) (k : α → Outcome) : Outcome :=
  match r with
  | .ok a => k a
  | .error (.err ..) => onErr
  | .error (.panic _) => (none, s)

/-- Models the first lines of every handler that checks a token, e.g. `src/bin/http_server/eval.rs:20-24`. -/
def withToken (X : Ext) (request : Str) (token : Option Str) (s : Site) (k : Outcome) : Outcome :=
  guarded s (passes X request token) (reply s 500) fun ok => if ok then k else reply s 401

/-- The response of an evaluation: `src/bin/http_server/eval.rs:34-36`. -/
def sendEval (X : Ext) (s : Site) (q : EvalRequest) : Outcome :=
  match evalRequest X s q with
  | (.ok r, s) => (some { status := if r.success then 200 else 400, eval := some r }, s)
  | (.error _, s) => (none, s)

/-- Models `src/bin/http_server/eval.rs:13-37` (`handle_eval_post`). -/
def evalPost (X : Ext) (H : HttpExt) (cfg : Config) (request : Str) (s : Site) : Outcome :=
  withToken X request cfg.authToken s <|
    guarded s (jsonBody H.decodeEval request) (reply s 400) fun q => sendEval X s q

/-- Models `src/bin/http_server/eval.rs:39-131` (`handle_eval_get`). -/
def evalGet (X : Ext) (cfg : Config) (request : Str) (s : Site) : Outcome :=
  withToken X request cfg.authToken s <|
    match Str.splitWs ((Str.lines request).headD []) with
    | _ :: path :: _ =>
      let query := match Str.splitOnce c!"?" path with
        | some (_, q) => q
        | none => []
      let q := queryParams (Str.split query c!"&") {}
      if q.expression.isEmpty then reply s 400
      else sendEval X s ⟨q.expression, if q.variables.isEmpty then none else some q.variables, some q.outputJson, some q.includeVariables⟩
    | _ => reply s 400

/-- Models `src/bin/http_server/js_management.rs:12-47` (`handle_list_js`): the status; the list is `listFunctions` in `Model/HttpList.lean`. It fails when the hooks
path is there but is not a directory. -/
def listJs (X : Ext) (cfg : Config) (request : Str) (s : Site) : Outcome :=
  withToken X request cfg.adminToken s <|
    if s.fs.exists cfg.cwd cfg.hooksDir && !hooksReadable cfg s.fs then reply s 500 else reply s 200

/-- The code of an upload: `src/bin/http_server/js_management.rs:248-263`. -/
def JsRequest.code (q : JsRequest) : Option Str := q.jsCode.or q.fileContent

/-- Validating and saving: `src/bin/http_server/js_management.rs:117-157` and `:266-307`. -/
def storeJs (X : Ext) (H : HttpExt) (cfg : Config) (s : Site) (filename : Str) (code : Option Str) : Outcome :=
  match code with
  | none => reply s 400
  | some code =>
    guarded s (validateJs X H code) (reply s 400) fun _ =>
      match saveJs H cfg s.fs filename code with
      | (fs, true) => reply { s with fs := fs } 200
      | (fs, false) => reply { s with fs := fs } 500

/-- Models `src/bin/http_server/js_management.rs:215-308` (`handle_upload_js`). -/
def uploadJs (X : Ext) (H : HttpExt) (cfg : Config) (request : Str) (s : Site) : Outcome :=
  withToken X request cfg.adminToken s <|
    guarded s (jsRequest X H request) (reply s 400) fun q =>
      if Str.endsWith q.filename c!".js" then storeJs X H cfg s q.filename q.code else reply s 400

/-- Models `src/bin/http_server/js_management.rs:49-158` (`handle_update_js`). -/
def updateJs (X : Ext) (H : HttpExt) (cfg : Config) (request : Str) (s : Site) : Outcome :=
  withToken X request cfg.adminToken s <|
    guarded s (jsRequest X H request) (reply s 400) fun q =>
      if !Str.endsWith q.filename c!".js" then reply s 400
      else if !s.fs.exists cfg.cwd (joinPath cfg.hooksDir q.filename) then reply s 404
      else storeJs X H cfg s q.filename q.code

/-- Models `src/bin/http_server/js_management.rs:160-213` (`handle_delete_js`). -/
def deleteJsRequest (X : Ext) (H : HttpExt) (cfg : Config) (request : Str) (s : Site) : Outcome :=
  withToken X request cfg.adminToken s <|
    guarded s (jsonBody H.decodeDelete request) (reply s 400) fun filename =>
      if !Str.endsWith filename c!".js" then reply s 400
      else match deleteJs H cfg s.fs filename with
        | (fs, true) => reply { s with fs := fs } 200
        | (fs, false) => reply { s with fs := fs } 500

/-- Models `src/bin/http_server/js_management.rs:310-346` (`handle_reload_hooks`) and `src/js_plugin.rs:331-340` (`auto_register`). -/
def reloadHooks (X : Ext) (H : HttpExt) (cfg : Config) (request : Str) (s : Site) : Outcome :=
  withToken X request cfg.adminToken s <|
    if s.fs.exists cfg.cwd cfg.hooksDir then
      if hooksReadable cfg s.fs then
        match registerAll X H s.reg (loadJs H cfg s.fs) with
        | (reg, true) => reply { s with reg := reg } 200
        | (reg, false) => reply { s with reg := reg } 500
      else reply s 500
    else match s.fs.createDirs cfg.cwd cfg.hooksDir with
      | (fs, true) => reply { s with fs := fs } 200
      | (fs, false) => reply { s with fs := fs } 500

/-- Models `src/bin/http_server/eval.rs:163-183` (`handle_cache_clear`). -/
def clearCache (X : Ext) (cfg : Config) (request : Str) (s : Site) : Outcome :=
  withToken X request cfg.adminToken s <| reply { s with cache := s.cache.clear } 200

/-- Models `src/bin/sk_http_server.rs:69-87`: the routes. -/
def route (X : Ext) (H : HttpExt) (cfg : Config) (method path request : Str) (s : Site) : Outcome :=
  if method = c!"GET" ∧ path = c!"/health" then reply s 200
  else if method = c!"GET" ∧ path = c!"/" then reply s 200
  else if method = c!"GET" ∧ path = c!"/docs" then reply s 200
  else if method = c!"GET" ∧ path = c!"/openapi.yml" then reply s 200
  else if method = c!"POST" ∧ path = c!"/eval" then evalPost X H cfg request s
  else if method = c!"GET" ∧ path = c!"/eval" then evalGet X cfg request s
  else if method = c!"POST" ∧ path = c!"/upload-js" then uploadJs X H cfg request s
  else if method = c!"PUT" ∧ path = c!"/update-js" then updateJs X H cfg request s
  else if method = c!"DELETE" ∧ path = c!"/delete-js" then deleteJsRequest X H cfg request s
  else if method = c!"GET" ∧ path = c!"/list-js" then listJs X cfg request s
  else if method = c!"POST" ∧ path = c!"/reload-hooks" then reloadHooks X H cfg request s
  else if method = c!"DELETE" ∧ path = c!"/cache" then clearCache X cfg request s
  else if method = c!"OPTIONS" then reply s 200
  else reply s 404

/-- Models `src/bin/sk_http_server.rs:51-88` (`handle_http_request` after the request has been read). -/
def handle (X : Ext) (H : HttpExt) (cfg : Config) (request : Str) (s : Site) : Outcome :=
  match Str.lines request with
  | [] => (none, s)
  | first :: _ =>
    match Str.splitWs first with
    | method :: path :: _ :: _ => route X H cfg method ((Str.split path c!"?").headD path) request s
    | _ => reply s 400

end Http
