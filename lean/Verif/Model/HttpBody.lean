import Verif.Model.Http
/-! The body of a POST evaluation, from its JSON tree: `src/bin/http_server/types.rs`. How serde reads a text into a tree is not modelled; a tree keeps
repeated members. Of errors only that there is one is modelled. -/

namespace Http

/-- The loop of `src/bin/http_server/types.rs:101-103`: all elements must be texts. -/
def textsOf : List Json → Option (List Str)
  | [] => some []
  | .str s :: rest => (textsOf rest).map (s :: ·)
  | _ :: _ => none

/-- Models `src/bin/http_server/types.rs:77-112` (`deserialize_expression`). -/
def expressionOf : Json → Option Str
  | .str s => some s
  | .arr items => (textsOf items).map List.flatten
  | _ => none

/-- Models `src/bin/http_server/types.rs:11-66` (`IncludeVariables::deserialize`). -/
def includeJson : Json → Option Include
  | .bool b => some (if b then .all else .none)
  | .str v => some (match selectedNames v with
    | [] => .none
    | ns => .selected ns)
  | _ => none

/-- `Option<T>` (serde): null is `None`. -/
def nullable {α : Type} (f : Json → Option α) : Json → Option (Option α)
  | .null => some none
  | j => (f j).map some

/-- `HashMap<String, serde_json::Value>` (serde): only objects. `map` is the map with these members, listed in its iteration order. -/
def argumentsOf (map : List (Str × Json) → List (Str × Json)) : Json → Option (List (Str × Json))
  | .obj ms => some (map ms)
  | _ => none

/-- `bool` (serde). -/
def boolOf : Json → Option Bool
  | .bool b => some b
  | _ => none

/-- The members of a request met so far. -/
structure Fields where
  expression : Option Str := none
  arguments : Option (Option (List (Str × Json))) := none
  outputJson : Option (Option Bool) := none
  includeVariables : Option (Option Include) := none

/-- The `visit_map` that `#[derive(Deserialize)]` makes for `src/bin/http_server/types.rs:68-75`: a member given twice is an error, others are passed over. -/
def bodyMembers (map : List (Str × Json) → List (Str × Json)) : List (Str × Json) → Fields → Option Fields
  | [], f => some f
  | (k, j) :: rest, f =>
    if k = c!"expression" then
      if f.expression.isSome then none else (expressionOf j).bind fun v => bodyMembers map rest { f with expression := some v }
    else if k = c!"arguments" then
      if f.arguments.isSome then none else (nullable (argumentsOf map) j).bind fun v => bodyMembers map rest { f with arguments := some v }
    else if k = c!"output_json" then
      if f.outputJson.isSome then none else (nullable boolOf j).bind fun v => bodyMembers map rest { f with outputJson := some v }
    else if k = c!"include_variables" then
      if f.includeVariables.isSome then none else (nullable includeJson j).bind fun v => bodyMembers map rest { f with includeVariables := some v }
    else bodyMembers map rest f

/-- The request a JSON tree stands for; models what `#[derive(Deserialize)]` makes of `src/bin/http_server/types.rs:68-75`: an object, or the four members in
order as an array. -/
def bodyTree (map : List (Str × Json) → List (Str × Json)) : Json → Option EvalRequest
  | .obj ms => (bodyMembers map ms {}).bind fun f => f.expression.map fun e => ⟨e, f.arguments.getD none, f.outputJson.getD none, f.includeVariables.getD none⟩
  | .arr [e, a, o, i] =>
    (expressionOf e).bind fun e => (nullable (argumentsOf map) a).bind fun a => (nullable boolOf o).bind fun o => (nullable includeJson i).map fun i => ⟨e, a, o, i⟩
  | _ => none

end Http
