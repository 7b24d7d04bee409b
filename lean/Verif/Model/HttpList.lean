import Verif.Model.Http
/-! The listing of function files: `src/bin/http_server/js_management.rs:514-606`. -/

namespace Http

/-- Models `src/bin/http_server/types.rs:196-207` (`JSFunctionInfo`), without the time and the description; `function` gives the name, the example and the
numbers of arguments, and is there when `is_valid`. -/
structure FileInfo where
  filename : Str
  function : Option JsFunction
  size : Nat

/-- Models `src/bin/http_server/js_management.rs:556-601`: what is reported of one file. -/
def fileInfo (dir : Path) (f : Path × Str) : FileInfo :=
  ⟨Str.join c!"/" (f.1.drop dir.length), (parseJs f.2).toOption, (f.2.flatMap String.utf8EncodeChar).length⟩

/-- Models `src/bin/http_server/js_management.rs:514-606` (`list_js_functions`, `scan_directory_for_js`). The recursion over directories is that over all files below
the hooks directory; files that cannot be read, and times, are not modelled. -/
def listFunctions (H : HttpExt) (cfg : Config) (fs : Fs) : Res (List FileInfo) :=
  if fs.exists cfg.cwd cfg.hooksDir then
    match fs.resolve cfg.cwd cfg.hooksDir with
    | some dir =>
      if fs.isDir dir then
        .ok ((((H.listing fs.files).filter fun f => dir.isPrefixOf f.1 && isJs f.1).map (fileInfo dir)).mergeSort fun a b => Str.le a.filename b.filename)
      else fail "Failed to read directory: {}"
    | none => .ok []
  else .ok []

end Http
