import Verif.Model.Value
/-! The part of JSONPath (RFC 9535) that the documentation of `JQ` uses: names, `[*]`, positions and the test of a member for a text or
for a number that is greater. What a path selects is
defined on its list of steps, and `text` is how the steps are written. The path library itself is a parameter of the model (`Ext.jsonPath`); `Follows` says that
it selects for these paths what the standard says. -/

namespace JsonPath

/-- The steps. -/
inductive Step where
  /-- `.name` -/
  | member (k : Str)
  /-- `[*]` -/
  | every
  /-- `[3]`, `[-1]` -/
  | pos (i : Int)
  /-- `[?(@.name == 'text')]` -/
  | whose (k t : Str)
  /-- `[?(@.name > 100)]` -/
  | above (k : Str) (n : Int)

/-- The children of a node: the elements of an array, the values of the members of an object. -/
def children : Json → List Json
  | .arr js => js
  | .obj ms => ms.map (·.2)
  | _ => []

/-- The member of a node with a name. -/
def named (k : Str) : Json → Option Json
  | .obj ms => ms.lookup k
  | _ => none

/-- The element of a node at a position; negative positions count from the end. -/
def elementAt (i : Int) : Json → Option Json
  | .arr js => if 0 ≤ i then js[i.toNat]? else if -i ≤ js.length then js[(js.length + i).toNat]? else none
  | _ => none

/-- The member of a node with a name is this text. -/
def hasText (k t : Str) (j : Json) : Bool :=
  match named k j with
  | some (.str s) => decide (s = t)
  | _ => false

/-- The member of a node with a name is a number greater than this one. -/
def hasAbove (k : Str) (n : Int) (j : Json) : Bool :=
  match named k j with
  | some (.num (.int i)) => decide (n < i)
  | some (.num (.float x)) => x.isFinite && decide ((n : Rat) < x.toRat)
  | _ => false

/-- The nodes a step leads to from a node. -/
def Step.from : Step → Json → List Json
  | .member k, j => (named k j).toList
  | .every, j => children j
  | .pos i, j => (elementAt i j).toList
  | .whose k t, j => (children j).filter (hasText k t)
  | .above k n, j => (children j).filter (hasAbove k n)

/-- The nodes a list of steps leads to from several nodes. -/
def select : List Step → List Json → List Json
  | [], ns => ns
  | s :: steps, ns => select steps (ns.flatMap s.from)

/-- How a step is written. -/
def Step.text : Step → Str
  | .member k => '.' :: k
  | .every => c!"[*]"
  | .pos i => '[' :: (Str.showInt i ++ c!"]")
  | .whose k t => c!"[?(@." ++ (k ++ (c!" == '" ++ (t ++ c!"')]")))
  | .above k n => c!"[?(@." ++ (k ++ (c!" > " ++ (Str.showInt n ++ c!")]")))

/-- How a list of steps is written. -/
def text : List Step → Str
  | [] => []
  | s :: steps => s.text ++ text steps

/-- The names that can be written after a dot: letters, digits and `_`. -/
def Name (k : Str) : Prop := k ≠ [] ∧ ∀ c ∈ k, c.isAlphanum = true ∨ c = '_'

/-- The steps that can be written: names as above, texts without quotes and backslashes. -/
def Step.Proper : Step → Prop
  | .member k => Name k
  | .every => True
  | .pos _ => True
  | .above k _ => Name k
  | .whose k t => Name k ∧ ∀ c ∈ t, c ≠ '\'' ∧ c ≠ '\\'

/-- The path library selects what the standard says. -/
def Follows (X : Ext) : Prop :=
  ∀ (j : Json) (steps : List Step), (∀ s ∈ steps, s.Proper) → X.jsonPath j ('$' :: text steps) = .ok (select steps [j])

end JsonPath
