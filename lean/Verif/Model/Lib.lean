import Verif.Model.Parser
import Verif.Model.Eval
/-! The public entry points: `src/lib.rs`. -/

namespace Lib

/-- Models `src/lib.rs:44-45`: the text handed to the parser. -/
def stripEq (input : Str) : Str :=
  match Str.trimStart Str.isWs input with
  | '=' :: rest => rest
  | _ => input

/-- Models `src/lib.rs:42-48` (`parse`) with explicit fuel; `.error none` is "out of fuel". -/
def parseWith (fuel : Nat) (input : Str) : PRes Expr := do
  let (e, _) ← Parser.parseTextWith fuel (stripEq input)
  return e

/-- Models `src/lib.rs:42-48` (`parse`). The "out of fuel" outcome never occurs
(`Verif.Props.Parsing`). -/
def parse (input : Str) : Res Expr :=
  match parseWith (Parser.fuelFor input) input with
  | .ok e => .ok e
  | .error (some f) => .error f
  | .error none => panics "out of fuel"

/-- Models `src/lib.rs:51-54` (`evaluate`). -/
def evaluate (X : Ext) (input : Str) : Res Value := do
  let e ← parse input
  evalPlain X e

/-- Models `src/lib.rs:57-60` (`evaluate_with`). -/
def evaluateWith (X : Ext) (input : Str) (vars : Env) : Res Value := do
  let e ← parse input
  evalVars X e vars

/-- Models `src/lib.rs:24-34` (`sanitize_json_key`). -/
def sanitize (X : Ext) (key : Str) : Str :=
  key.map fun c => if X.isAlnum c || c = '_' then c else '_'

/-- Models the loop of `src/lib.rs:77-81` (and `:174-178`), over the members in key order. -/
def bindMembers (X : Ext) : List (Str × Json) → Env → Env
  | [], env => env
  | (k, j) :: rest, env => bindMembers X rest (env.insert (sanitize X k) (Json.toValue X j))

/-- Models `src/lib.rs:67-85` (and `:164-182`): the variables made from a JSON text. -/
def jsonVars (X : Ext) (text : Str) : Res Env := do
  match ← parseJson X text with
  | .obj ms => return bindMembers X ms (Env.empty.insert c!"arguments" (.json text))
  | _ => fail "JSON must be an object with key-value pairs"

/-- Models `src/lib.rs:66-88` (`evaluate_with_json`). -/
def evaluateWithJson (X : Ext) (input text : Str) : Res Value := do
  let vars ← jsonVars X text
  evaluateWith X input vars

/-- Models `src/lib.rs:156-159` (`evaluate_with_custom`); `reg` is the content of the global registry. -/
def evaluateWithCustom (X : Ext) (reg : Registry) (input : Str) (vars : Env) : Res Value := do
  let e ← parse input
  evalCustom X reg e vars

/-- Models `src/lib.rs:163-185` (`evaluate_with_json_custom`). -/
def evaluateWithJsonCustom (X : Ext) (reg : Registry) (input text : Str) : Res Value := do
  let vars ← jsonVars X text
  evaluateWithCustom X reg input vars

/-- Models `src/lib.rs:189-192` (`evaluate_with_assignments`). -/
def evaluateWithAssignments (X : Ext) (input : Str) (vars : Env) : Res Value := do
  let e ← parse input
  evalAssign X e vars

/-- Models `src/lib.rs:195-198` (`evaluate_with_assignments_and_context`). -/
def evaluateWithAssignmentsCtx (X : Ext) (input : Str) (vars : Env) : Res (Value × Env) := do
  let e ← parse input
  evalAssignCtx X e vars

end Lib
