import Verif.Model.Effects
/-! Which custom functions an expression calls, how often and in which order: read off the expression, without evaluating it. -/

namespace Fx.Spec

variable {W : Type}

/-- The registry with effects does what the one without does, and changes nothing. -/
def Quiet (g : Reg W) (reg : Registry) : Prop := ∀ n,
  (g n = none ∧ reg n = none) ∨ ∃ f f', g n = some f ∧ reg n = some f' ∧ f.minArgs = f'.minArgs ∧ f.maxArgs = f'.maxArgs ∧ ∀ args w, f.run args w = (w, f'.run args)

/-- `calls` tells from the world which custom functions were called so far, with which arguments, the last one last. -/
def Recorded (g : Reg W) (calls : W → List (Str × List Value)) : Prop :=
  ∀ k f, g k = some f → ∀ args w, calls (f.run args w).1 = calls w ++ [(k, args)]

/-- Names the parser uses for `a ? b : c`, `TRUE` and `FALSE`. -/
def isConditional (n : Str) : Bool := n == c!"__TERNARY__"
/-- `TRUE` or `FALSE`. -/
def isConstant (n : Str) : Bool := n == c!"__CONST_TRUE__" || n == c!"__CONST_FALSE__"

/-- A call by this name runs a custom function. -/
def runsCustom (X : Ext) (g : Reg W) (n : Str) : Bool := !isConditional n && !isConstant n && g.has X n

/-- The methods that take a lambda. -/
def lambdaMethod (X : Ext) (n : Str) : Bool := [c!"filter", c!"map", c!"find", c!"reduce"].contains (X.lower n)

mutual
/-- The custom functions an expression names, anywhere in it. -/
def mentions (X : Ext) (g : Reg W) : Expr → List Str
  | .number _ | .strLit _ | .null | .var _ => []
  | .unary _ e | .prop e _ | .safeProp e _ | .cast e _ | .assign _ e | .spread e => mentions X g e
  | .binary a _ b | .index a b => mentions X g a ++ mentions X g b
  | .array es | .seq es => mentionsAll X g es
  | .object ms => mentionsIn X g ms
  | .slice t a b => mentions X g t ++ (mentionsOpt X g a ++ mentionsOpt X g b)
  | .safeCall t _ es | .method t _ es _ => mentions X g t ++ mentionsAll X g es
  | .call n es => mentionsAll X g es ++ if g.has X n then [X.upper n] else []
/-- In a list of expressions. -/
def mentionsAll (X : Ext) (g : Reg W) : List Expr → List Str
  | [] => []
  | e :: es => mentions X g e ++ mentionsAll X g es
/-- In the members of an object. -/
def mentionsIn (X : Ext) (g : Reg W) : List (Str × Expr) → List Str
  | [] => []
  | (_, e) :: ms => mentions X g e ++ mentionsIn X g ms
/-- In an optional expression. -/
def mentionsOpt (X : Ext) (g : Reg W) : Option Expr → List Str
  | none => []
  | some e => mentions X g e
end

/-- The arguments of a built-in function that are evaluated with the custom functions, in order, of `k` arguments: all of them, except for the functions with a lambda. -/
def evaluated (n : Str) (k : Nat) : List Nat :=
  if isConstant n then []
  else if n = c!"FILTER" ∨ n = c!"FIND" ∨ n = c!"MAP" then [0, 2]
  else if n = c!"REDUCE" then [0, 2, 3, 4]
  else if n = c!"SUMIF" then [0, 2, 1]
  else if n = c!"AVGIF" ∨ n = c!"COUNTIF" then [0]
  else List.range k

mutual
/-- The places of an expression that call a custom function, by the names of the functions, in the order of evaluation: arguments from left to right, then the function. -/
def sites (X : Ext) (g : Reg W) : Expr → List Str
  | .number _ | .strLit _ | .null | .var _ => []
  | .unary _ e | .prop e _ | .safeProp e _ | .cast e _ | .assign _ e | .spread e => sites X g e
  | .binary a _ b | .index a b => sites X g a ++ sites X g b
  | .array es | .seq es => (sitesEach X g es).flatten
  | .object ms => sitesIn X g ms
  | .slice t a b => sites X g t ++ (sitesOpt X g a ++ sitesOpt X g b)
  | .safeCall t _ _ | .method t _ _ _ => sites X g t
  | .call n es =>
    if runsCustom X g n then (sitesEach X g es).flatten ++ [X.upper n]
    else (evaluated n es.length).flatMap fun i => (sitesEach X g es).getD i []
/-- For each of a list of expressions. -/
def sitesEach (X : Ext) (g : Reg W) : List Expr → List (List Str)
  | [] => []
  | e :: es => sites X g e :: sitesEach X g es
/-- In the members of an object. -/
def sitesIn (X : Ext) (g : Reg W) : List (Str × Expr) → List Str
  | [] => []
  | (_, e) :: ms => sites X g e ++ sitesIn X g ms
/-- In an optional expression. -/
def sitesOpt (X : Ext) (g : Reg W) : Option Expr → List Str
  | none => []
  | some e => sites X g e
end

mutual
/-- No method with a lambda that names a custom function; and if `strict`, no conditional and no `SUMIF`, which go on differently by value. -/
def straight (X : Ext) (g : Reg W) (strict : Bool) : Expr → Bool
  | .number _ | .strLit _ | .null | .var _ => true
  | .unary _ e | .prop e _ | .safeProp e _ | .cast e _ | .assign _ e | .spread e => straight X g strict e
  | .binary a _ b | .index a b => straight X g strict a && straight X g strict b
  | .array es | .seq es => straightAll X g strict es
  | .object ms => straightIn X g strict ms
  | .slice t a b => straight X g strict t && straightOpt X g strict a && straightOpt X g strict b
  | .safeCall t n es | .method t n es _ => straight X g strict t && (!lambdaMethod X n || (mentionsAll X g es).isEmpty)
  | .call n es => straightAll X g strict es && (!strict || runsCustom X g n || !(isConditional n || n == c!"SUMIF"))
/-- For a list of expressions. -/
def straightAll (X : Ext) (g : Reg W) (strict : Bool) : List Expr → Bool
  | [] => true
  | e :: es => straight X g strict e && straightAll X g strict es
/-- For the members of an object. -/
def straightIn (X : Ext) (g : Reg W) (strict : Bool) : List (Str × Expr) → Bool
  | [] => true
  | (_, e) :: ms => straight X g strict e && straightIn X g strict ms
/-- For an optional expression. -/
def straightOpt (X : Ext) (g : Reg W) (strict : Bool) : Option Expr → Bool
  | none => true
  | some e => straight X g strict e
end

/-- The functions with a lambda. -/
def lambdaFunction (n : Str) : Bool := [c!"FILTER", c!"FIND", c!"MAP", c!"REDUCE", c!"SUMIF", c!"AVGIF", c!"COUNTIF"].contains n

mutual
/-- As `straight`, for what is evaluated inside the arguments of a method: there the functions with a lambda hand the custom functions on to it, and are left out. -/
def straightArg (X : Ext) (g : Reg W) (strict : Bool) : Expr → Bool
  | .number _ | .strLit _ | .null | .var _ => true
  | .unary _ e | .prop e _ | .safeProp e _ | .cast e _ | .assign _ e | .spread e => straightArg X g strict e
  | .binary a _ b | .index a b => straightArg X g strict a && straightArg X g strict b
  | .array es | .seq es => straightArgs X g strict es
  | .object ms => straightArgMembers X g strict ms
  | .slice t a b => straightArg X g strict t && straightArgOpt X g strict a && straightArgOpt X g strict b
  | .safeCall t n es | .method t n es _ => straightArg X g strict t && (!lambdaMethod X n || (mentionsAll X g es).isEmpty)
  | .call n es =>
    (mentions X g (.call n es)).isEmpty ||
      (straightArgs X g strict es && !isConstant n && (runsCustom X g n || (!lambdaFunction n && (!strict || !isConditional n))))
/-- For a list of expressions. -/
def straightArgs (X : Ext) (g : Reg W) (strict : Bool) : List Expr → Bool
  | [] => true
  | e :: es => straightArg X g strict e && straightArgs X g strict es
/-- For the members of an object. -/
def straightArgMembers (X : Ext) (g : Reg W) (strict : Bool) : List (Str × Expr) → Bool
  | [] => true
  | (_, e) :: ms => straightArg X g strict e && straightArgMembers X g strict ms
/-- For an optional expression. -/
def straightArgOpt (X : Ext) (g : Reg W) (strict : Bool) : Option Expr → Bool
  | none => true
  | some e => straightArg X g strict e
end

end Fx.Spec
