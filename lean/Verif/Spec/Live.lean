import Verif.Model.Live
import Verif.Spec.Names
import Verif.Props.Registration
/-! What an evaluation finds in the registry, compared with one registry; and the places of an expression that call given functions. -/

/-- At which look. -/
def Live.Seen.at : Live.Seen → Nat
  | .absent k _ => k
  | .held k _ _ => k

namespace Live.Spec

open _root_.Spec

/-- What was found is what would be found in `r`: for a call that found no function, as to this name; for a call that found one, as to all the functions that the call or its arguments may call. -/
def Agrees (X : Ext) (sched : Nat → Registry) (r : Registry) : Seen → Prop
  | .absent k n => sched k (X.upper n) = r (X.upper n)
  | .held k n es => ∀ m ∈ called X (.call n es), sched k m = r m

/-- What was found is about one of the functions `ns`. -/
def concerns (X : Ext) (ns : List Str) : Seen → Bool
  | .absent _ n => ns.contains (X.upper n)
  | .held _ n es => (called X (.call n es)).any fun m => ns.contains m

/-- The functions whose arguments after the first may be run many times, or not at all. -/
def loops : List Str := [c!"FILTER", c!"FIND", c!"MAP", c!"REDUCE", c!"SUMIF", c!"AVGIF", c!"COUNTIF", c!"JQ"]

mutual
/-- How many places of an expression call one of the functions `ns`. A place in a lambda, which may be run many times, counts twice. -/
def places (X : Ext) (ns : List Str) : Expr → Nat
  | .number _ | .strLit _ | .null | .var _ => 0
  | .unary _ e | .prop e _ | .safeProp e _ | .spread e | .cast e _ | .assign _ e => places X ns e
  | .binary a _ b | .index a b => places X ns a + places X ns b
  | .call n [] => if ns.contains (X.upper n) then 1 else 0
  | .call n (a :: es) => (if ns.contains (X.upper n) then 1 else 0) + (places X ns a + if loops.contains n then 2 * placesList X ns es else placesList X ns es)
  | .array es | .seq es => placesList X ns es
  | .object ms => placesMembers X ns ms
  | .safeCall t _ es | .method t _ es _ => places X ns t + 2 * placesList X ns es
  | .slice t a b => places X ns t + placesOpt X ns a + placesOpt X ns b
/-- Of a list. -/
def placesList (X : Ext) (ns : List Str) : List Expr → Nat
  | [] => 0
  | e :: es => places X ns e + placesList X ns es
/-- Of object members. -/
def placesMembers (X : Ext) (ns : List Str) : List (Str × Expr) → Nat
  | [] => 0
  | (_, e) :: ms => places X ns e + placesMembers X ns ms
/-- Of an optional operand. -/
def placesOpt (X : Ext) (ns : List Str) : Option Expr → Nat
  | none => 0
  | some e => places X ns e
end

end Live.Spec
