import Verif.Model.Eval
/-! Renaming the variables of an expression, and the names its lambdas bind. -/

namespace Spec

mutual
/-- Every variable `:n`, and every assignment target, under its new name `ρ n`. Texts in quotes stay as they are. -/
def rename (ρ : Str → Str) : Expr → Expr
  | .number n => .number n
  | .strLit s => .strLit s
  | .null => .null
  | .var n => .var (ρ n)
  | .unary op e => .unary op (rename ρ e)
  | .binary a op b => .binary (rename ρ a) op (rename ρ b)
  | .prop e n => .prop (rename ρ e) n
  | .safeProp e n => .safeProp (rename ρ e) n
  | .safeCall t n es => .safeCall (rename ρ t) n (renameList ρ es)
  | .call n es => .call n (renameList ρ es)
  | .spread e => .spread (rename ρ e)
  | .array es => .array (renameList ρ es)
  | .object ms => .object (renameMembers ρ ms)
  | .method t n es p => .method (rename ρ t) n (renameList ρ es) p
  | .index a b => .index (rename ρ a) (rename ρ b)
  | .slice t a b => .slice (rename ρ t) (renameOpt ρ a) (renameOpt ρ b)
  | .cast e t => .cast (rename ρ e) t
  | .assign x e => .assign (ρ x) (rename ρ e)
  | .seq es => .seq (renameList ρ es)
/-- Of a list. -/
def renameList (ρ : Str → Str) : List Expr → List Expr
  | [] => []
  | e :: es => rename ρ e :: renameList ρ es
/-- Of object members; the keys stay. -/
def renameMembers (ρ : Str → Str) : List (Str × Expr) → List (Str × Expr)
  | [] => []
  | (k, e) :: ms => (k, rename ρ e) :: renameMembers ρ ms
/-- Of an optional operand. -/
def renameOpt (ρ : Str → Str) : Option Expr → Option Expr
  | none => none
  | some e => some (rename ρ e)
end

/-- A text in quotes. -/
def isText : Expr → Bool
  | .strLit _ => true
  | _ => false

/-- The expressions that name the parameters of a call's lambda: the defaults, and the arguments in the parameters' places. -/
def callParams (name : Str) (args : List Expr) : List Expr :=
  if name = c!"FILTER" ∨ name = c!"FIND" ∨ name = c!"MAP" then .strLit c!"x" :: args[2]?.toList
  else if name = c!"REDUCE" then .strLit c!"x" :: .strLit c!"acc" :: (args[3]?.toList ++ args[4]?.toList)
  else if name = c!"SUMIF" ∨ name = c!"AVGIF" ∨ name = c!"COUNTIF" then [.strLit c!"x"]
  else []

/-- The same for a method call; a method takes a parameter's name only from a text in quotes. -/
def methodParams (X : Ext) (name : Str) (args : List Expr) : List Expr :=
  if X.lower name = c!"filter" ∨ X.lower name = c!"find" ∨ X.lower name = c!"map" then .strLit c!"x" :: (args.drop 1).filter isText
  else if X.lower name = c!"reduce" then .strLit c!"x" :: .strLit c!"acc" :: (args.drop 1).filter isText
  else []

mutual
/-- The expressions that name lambda parameters anywhere in an expression. -/
def params (X : Ext) : Expr → List Expr
  | .number _ | .strLit _ | .null | .var _ => []
  | .unary _ e | .prop e _ | .safeProp e _ | .spread e | .cast e _ | .assign _ e => params X e
  | .binary a _ b | .index a b => params X a ++ params X b
  | .call n es => callParams n es ++ paramsList X es
  | .array es | .seq es => paramsList X es
  | .object ms => paramsMembers X ms
  | .safeCall t n es | .method t n es _ => params X t ++ (methodParams X n es ++ paramsList X es)
  | .slice t a b => params X t ++ (paramsOpt X a ++ paramsOpt X b)
/-- Of a list. -/
def paramsList (X : Ext) : List Expr → List Expr
  | [] => []
  | e :: es => params X e ++ paramsList X es
/-- Of object members. -/
def paramsMembers (X : Ext) : List (Str × Expr) → List Expr
  | [] => []
  | (_, e) :: ms => params X e ++ paramsMembers X ms
/-- Of an optional operand. -/
def paramsOpt (X : Ext) : Option Expr → List Expr
  | none => []
  | some e => params X e
end

end Spec
