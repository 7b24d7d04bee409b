import Verif.Model.Utils
/-! The AST: `src/ast.rs`. -/

/-- Models `src/ast.rs:38-43` (`enum UnaryOp`). -/
inductive UnaryOp where
  | plus | minus | not
deriving DecidableEq, Repr

/-- Models `src/ast.rs:45-61` (`enum BinaryOp`). -/
inductive BinaryOp where
  | add | sub | mul | div | mod | pow | gt | lt | ge | le | eq | ne | and | or
deriving DecidableEq, Repr

/-- Models `src/ast.rs:3-24` (`enum Expr`). `Rc`/`Box` indirections are dropped. -/
inductive Expr where
  | number (n : F64)
  | strLit (s : Str)
  | null
  | unary (op : UnaryOp) (e : Expr)
  | binary (l : Expr) (op : BinaryOp) (r : Expr)
  | var (name : Str)
  | prop (target : Expr) (property : Str)
  | safeProp (target : Expr) (property : Str)
  | safeCall (target : Expr) (name : Str) (args : List Expr)
  | call (name : Str) (args : List Expr)
  | spread (e : Expr)
  | array (items : List Expr)
  | object (members : List (Str × Expr))
  | method (target : Expr) (name : Str) (args : List Expr) (predicate : Bool)
  | index (target : Expr) (idx : Expr)
  | slice (target : Expr) (start : Option Expr) (stop : Option Expr)
  | cast (e : Expr) (ty : CastTy)
  | assign (target : Str) (value : Expr)
  | seq (es : List Expr)
deriving Repr
