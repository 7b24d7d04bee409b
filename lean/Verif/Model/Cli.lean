import Verif.Model.Http
/-! The command-line tool: `src/bin/sk.rs`.

Not modelled: the usage text, the timing, the loading of custom functions (the registry is given). The text printed for a value is in `CliOutput.lean`. -/

namespace Cli

/-- Models `src/bin/sk.rs:209-211`: the text between the quotes, `&s[1..s.len()-1]`. -/
def between (s : Str) : Res Str :=
  match Str.sliceBytes s 1 (Str.byteLen s - 1) with
  | some t => .ok t
  | none => panics "begin <= end when slicing"

/-- Models `src/bin/sk.rs:205-242` (`parse_value`) with fuel, which never runs out (`Verif.Props.Cli`). Stack exhaustion on deeply nested brackets is not modelled. -/
def parseValueGo (X : Ext) : Nat → Str → Res Value
  | 0, _ => panics "out of fuel"
  | fuel + 1, s =>
    if (Str.startsWith s c!"\"" && Str.endsWith s c!"\"") || (Str.startsWith s c!"'" && Str.endsWith s c!"'") then do
      return .str (← between s)
    else if X.lower s = c!"true" then .ok (.bool true)
    else if X.lower s = c!"false" then .ok (.bool false)
    else if X.lower s = c!"null" then .ok .null
    else if Str.startsWith s c!"[" && Str.endsWith s c!"]" then do
      let inner ← between s
      if (Str.strip inner).isEmpty then return .arr []
      else return .arr (← (Str.split inner c!",").mapM fun item => parseValueGo X fuel (Str.strip item))
    else match F64.parse s with
      | some n => .ok (.num n)
      | none => .ok (.str s)

/-- Models `src/bin/sk.rs:205-242` (`parse_value`). -/
def parseValue (X : Ext) (s : Str) : Res Value := parseValueGo X (s.length + 1) s

/-- How a run of the tool ends. -/
inductive Outcome where
  /-- Exit status 0: the value is printed, plainly or as JSON. -/
  | printed (v : Value) (asJson : Bool)
  /-- Exit status 1: the arguments are refused. -/
  | refused
  /-- Exit status 2: the evaluation failed. -/
  | failed (f : Fail)
  /-- Exit status 101: a panic. -/
  | panicked

/-- The exit status: `src/bin/sk.rs:60`, `:82`, `:94`, `:161`; a Rust program that panics exits with 101. -/
def Outcome.status : Outcome → Nat
  | .printed _ _ => 0
  | .refused => 1
  | .failed _ => 2
  | .panicked => 101

/-- What the loop of `src/bin/sk.rs:70-99` has found so far. -/
structure Args where
  json : Option Str := none
  outputJson : Bool := false
  vars : Env := Env.empty

/-- Models the loop of `src/bin/sk.rs:70-99`, after the first argument. -/
def parseArgs (X : Ext) : List Str → Args → Except Outcome Args
  | [], a => .ok a
  | s :: rest, a =>
    if s = c!"--json" then
      match rest with
      | [] => .error .refused
      | j :: rest => parseArgs X rest { a with json := some j }
    else if s = c!"--output-json" then parseArgs X rest { a with outputJson := true }
    else match Str.splitOnce c!"=" s with
      | some (name, text) =>
        match parseValue X text with
        | .ok v => parseArgs X rest { a with vars := a.vars.insert name v }
        | .error _ => .error .panicked
      | none => .error .refused

/-- Models `src/bin/sk.rs:150-164`: the value or the error is shown. -/
def outcome (asJson : Bool) : Res Value → Outcome
  | .ok v => .printed v asJson
  | .error (.err m a p) => .failed (.err m a p)
  | .error (.panic _) => .panicked

/-- Models `src/bin/sk.rs:106` and `:143`. -/
def isProgram (expr : Str) : Bool := Str.contains expr c!";" || Str.contains expr c!":="

/-- Models `src/bin/sk.rs:19-165` (`main`); `reg` has the functions loaded at the start. -/
def run (X : Ext) (reg : Registry) : List Str → Outcome
  | [] => .refused
  | expr :: rest =>
    match parseArgs X rest {} with
    | .error o => o
    | .ok a =>
      match a.json with
      | some text =>
        if isProgram expr then
          match X.jsonParse text with
          | .ok (.obj ms) => outcome a.outputJson (Lib.evaluateWithAssignments X expr (Lib.bindMembers X ms (Env.empty.insert c!"arguments" (.json text))))
          | _ => .refused
        else outcome a.outputJson (Lib.evaluateWithJsonCustom X reg expr text)
      | none =>
        if isProgram expr then outcome a.outputJson (Lib.evaluateWithAssignments X expr a.vars)
        else outcome a.outputJson (Lib.evaluateWithCustom X reg expr a.vars)

end Cli
