import Verif.Model.Utf8
import Verif.Model.Value
/-! The function `httpGet` that JavaScript functions can call: it runs the program `curl`. -/

namespace HttpGet

open HttpRead (Bytes)

/-- Models `std::process::Output`. -/
structure Output where
  success : Bool
  stdout : Bytes
  stderr : Bytes

/-- The computer: what a program gives that is run with arguments, or the text of the error if it cannot be run; and the text of the error for arguments with a null character, which the standard library
reports without running anything. -/
structure Computer where
  run : Str → List Str → Except Str Output
  nullError : Str

/-- A program that was asked to be run, with its arguments. -/
abbrev Command := Str × List Str

/-- `std::process::Command::output` for one program: no shell is involved. -/
def output (C : Computer) (c : Command) : List Command × Except Str Output :=
  if '\x00' ∈ c.1 ∨ ∃ a ∈ c.2, '\x00' ∈ a then ([], .error C.nullError) else ([c], C.run c.1 c.2)

/-- Models `src/js_plugin.rs:128-143` (`httpGet`): the programs run, and the text that the JavaScript function gets. -/
def get (C : Computer) (url : Str) : List Command × Str :=
  match output C (c!"curl", [c!"-sS", url]) with
  | (ran, .ok o) => (ran, if o.success then HttpRead.utf8Lossy o.stdout else c!"HTTP error: " ++ HttpRead.utf8Lossy o.stderr)
  | (ran, .error e) => (ran, c!"Failed to execute curl: " ++ e)

end HttpGet
