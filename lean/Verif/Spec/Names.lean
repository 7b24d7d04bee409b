import Verif.Model.Expr
/-! The names an expression mentions. -/

namespace Spec

mutual
/-- The variables mentioned (`:x`), lambda parameters included. Assignment targets are written, not read. -/
def vars : Expr → List Str
  | .number _ | .strLit _ | .null => []
  | .var n => [n]
  | .unary _ e | .prop e _ | .safeProp e _ | .spread e | .cast e _ | .assign _ e => vars e
  | .binary a _ b | .index a b => vars a ++ vars b
  | .call _ es | .array es | .seq es => varsList es
  | .object ms => varsMembers ms
  | .safeCall t _ es | .method t _ es _ => vars t ++ varsList es
  | .slice t a b => vars t ++ varsOpt a ++ varsOpt b
/-- Of a list. -/
def varsList : List Expr → List Str
  | [] => []
  | e :: es => vars e ++ varsList es
/-- Of object members. -/
def varsMembers : List (Str × Expr) → List Str
  | [] => []
  | (_, e) :: ms => vars e ++ varsMembers ms
/-- Of an optional operand. -/
def varsOpt : Option Expr → List Str
  | none => []
  | some e => vars e
end

mutual
/-- The functions called by name (methods are not functions). -/
def calls : Expr → List Str
  | .number _ | .strLit _ | .null | .var _ => []
  | .unary _ e | .prop e _ | .safeProp e _ | .spread e | .cast e _ | .assign _ e => calls e
  | .binary a _ b | .index a b => calls a ++ calls b
  | .call n es => n :: callsList es
  | .array es | .seq es => callsList es
  | .object ms => callsMembers ms
  | .safeCall t _ es | .method t _ es _ => calls t ++ callsList es
  | .slice t a b => calls t ++ callsOpt a ++ callsOpt b
/-- Of a list. -/
def callsList : List Expr → List Str
  | [] => []
  | e :: es => calls e ++ callsList es
/-- Of object members. -/
def callsMembers : List (Str × Expr) → List Str
  | [] => []
  | (_, e) :: ms => calls e ++ callsMembers ms
/-- Of an optional operand. -/
def callsOpt : Option Expr → List Str
  | none => []
  | some e => calls e
end

end Spec
