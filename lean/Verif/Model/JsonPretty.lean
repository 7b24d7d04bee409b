import Verif.Model.JsonText
import Verif.Model.CliOutput
import Verif.Model.Wire
/-! `serde_json::to_string_pretty` (`src/bin/sk.rs:202`, `src/bin/sk_client.rs:171`), from its documentation: every element and member on a line of its own, indented by two
spaces for each bracket or brace that is open, a space after a colon, nothing between the brackets of an empty array or object. -/

namespace JsonText

/-- A new line and the indentation of level `n`. -/
def newLine (n : Nat) : Str := '\n' :: List.replicate (2 * n) ' '

mutual
/-- `serde_json::to_string_pretty`, as called in `src/bin/sk.rs:202` and `src/bin/sk_client.rs:171`, inside `n` brackets and braces. -/
def pretty (N : Floats) (n : Nat) : Json → Str
  | .null => c!"null"
  | .bool b => Str.showBool b
  | .num (.int i) => Str.showInt i
  | .num (.float x) => N.write x
  | .str s => quote s
  | .arr [] => c!"[]"
  | .arr (j :: js) => '[' :: (newLine (n + 1) ++ (pretty N (n + 1) j ++ prettyItems N n js))
  | .obj [] => c!"{}"
  | .obj ((k, j) :: ms) => '{' :: (newLine (n + 1) ++ (quote k ++ ':' :: ' ' :: (pretty N (n + 1) j ++ prettyMembers N n ms)))
/-- The elements after the first, and the closing bracket. -/
def prettyItems (N : Floats) (n : Nat) : List Json → Str
  | [] => newLine n ++ c!"]"
  | j :: js => ',' :: (newLine (n + 1) ++ (pretty N (n + 1) j ++ prettyItems N n js))
/-- The members after the first, and the closing brace. -/
def prettyMembers (N : Floats) (n : Nat) : List (Str × Json) → Str
  | [] => newLine n ++ c!"}"
  | (k, j) :: ms => ',' :: (newLine (n + 1) ++ (quote k ++ ':' :: ' ' :: (pretty N (n + 1) j ++ prettyMembers N n ms)))
end

end JsonText

/-- Models `src/bin/sk_client.rs:166-184`: what the client prints on standard output. Errors go to the standard error. Not modelled: the benchmark's report. -/
def Wire.End.stdout (N : JsonText.Floats) : Wire.End → Str
  | .printed j => JsonText.pretty N 0 j ++ ['\n']
  | _ => []

/-- Models `src/bin/sk.rs:152-202`: what `sk` prints on standard output, with the library's layout. -/
def Cli.Outcome.printedText (X : Ext) (N : JsonText.Floats) (time : Str) (o : Cli.Outcome) : Str := o.stdout X (JsonText.pretty N 0) time
