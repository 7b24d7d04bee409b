import Verif.Model.Parser
/-!
Surface syntax, written independently of the parser: trees of the language as a user thinks of them, how
they are written down as tokens with the documented precedence, and how tokens are
spelled as text.
-/

namespace Spec

/-- The names a cast accepts for a type, in lower case. -/
def typeNames : CastTy → List Str
  | .integer => [c!"integer", c!"int"]
  | .float => [c!"float", c!"number"]
  | .string => [c!"string"]
  | .boolean => [c!"boolean", c!"bool"]
  | .array => [c!"array"]
  | .currency => [c!"currency"]
  | .dateTime => [c!"datetime", c!"date"]
  | .json => [c!"json"]

/-- `name` is a spelling of the type name `ty`, in any case. -/
def IsTypeName (ty : CastTy) (name : Str) : Prop := name.map Str.asciiLowC ∈ typeNames ty

/-- An object key, written as an identifier or as a string. -/
inductive Key where
  | ident (k : Str)
  | quoted (k : Str)

/-- Expressions as written. In argument lists the flag says whether the argument is
spread (`...e`). Function and method names keep the case they are written in. `paren e` is `e` in
parentheses, whether they are needed or not; the flag of an object literal says whether a comma
follows its last member. -/
inductive Src where
  | num (n : F64)
  | str (s : Str)
  | null
  | tru
  | fls
  | var (x : Str)
  | un (op : UnaryOp) (e : Src)
  | bin (l : Src) (op : BinaryOp) (r : Src)
  | tern (c t e : Src)
  | assign (x : Str) (v : Src)
  | call (name : Str) (args : List (Bool × Src))
  | arr (items : List Src)
  | obj (members : List (Key × Src)) (comma : Bool)
  | paren (e : Src)
  | prop (t : Src) (p : Str)
  | safeProp (t : Src) (p : Str)
  | meth (t : Src) (name : Str) (args : List (Bool × Src))
  | pred (t : Src) (name : Str)
  | safeMeth (t : Src) (name : Str) (args : List (Bool × Src))
  | index (t i : Src)
  | slice (t : Src) (a b : Option Src)
  | cast (e : Src) (ty : CastTy) (name : Str) (h : IsTypeName ty name)

/-- The key itself. -/
def Key.text : Key → Str
  | .ident k => k
  | .quoted k => k

mutual
/-- The tree each construct stands for: function names are upper case, method
names lower case; `TRUE`, `FALSE` and `c ? t : e` are calls of reserved names. -/
def Src.toExpr : Src → Expr
  | .num n => .number n
  | .str s => .strLit s
  | .null => .null
  | .tru => .call c!"__CONST_TRUE__" []
  | .fls => .call c!"__CONST_FALSE__" []
  | .var x => .var x
  | .un op e => .unary op e.toExpr
  | .bin l op r => .binary l.toExpr op r.toExpr
  | .tern c t e => .call c!"__TERNARY__" [c.toExpr, t.toExpr, e.toExpr]
  | .assign x v => .assign x v.toExpr
  | .call name args => .call (name.map Str.asciiUpC) (argExprs args)
  | .arr items => .array (itemExprs items)
  | .obj ms _ => .object (memberExprs ms)
  | .paren e => e.toExpr
  | .prop t p => .prop t.toExpr p
  | .safeProp t p => .safeProp t.toExpr p
  | .meth t name args => .method t.toExpr (name.map Str.asciiLowC) (argExprs args) false
  | .pred t name => .method t.toExpr (name.map Str.asciiLowC) [] true
  | .safeMeth t name args => .safeCall t.toExpr (name.map Str.asciiLowC) (argExprs args)
  | .index t i => .index t.toExpr i.toExpr
  | .slice t a b => .slice t.toExpr (optExpr a) (optExpr b)
  | .cast e ty _ _ => .cast e.toExpr ty
/-- Arguments. -/
def argExprs : List (Bool × Src) → List Expr
  | [] => []
  | (sp, e) :: rest => (if sp then .spread e.toExpr else e.toExpr) :: argExprs rest
/-- Array items. -/
def itemExprs : List Src → List Expr
  | [] => []
  | e :: rest => e.toExpr :: itemExprs rest
/-- Object members. -/
def memberExprs : List (Key × Src) → List (Str × Expr)
  | [] => []
  | (k, e) :: rest => (k.text, e.toExpr) :: memberExprs rest
/-- An optional bound. -/
def optExpr : Option Src → Option Expr
  | none => none
  | some e => some e.toExpr
end

/-- Binding strength of the binary operators: `||` < `&&` < equality < relational < additive <
multiplicative < (unary, 8) < power. -/
def opPrec : BinaryOp → Nat
  | .or => 2
  | .and => 3
  | .eq | .ne => 4
  | .gt | .lt | .ge | .le => 5
  | .add | .sub => 6
  | .mul | .div | .mod => 7
  | .pow => 9

/-- Binding strength of a construct: assignment, ternary, the operators, cast, postfix, atoms. -/
def Src.prec : Src → Nat
  | .assign .. => 0
  | .tern .. => 1
  | .bin _ op _ => opPrec op
  | .un .. => 8
  | .cast .. => 10
  | .prop .. | .safeProp .. | .meth .. | .pred .. | .safeMeth .. | .index .. | .slice .. => 11
  | _ => 12

/-- The token of an operator. -/
def opTok : BinaryOp → Token
  | .or => .or | .and => .and | .eq => .eq | .ne => .ne
  | .gt => .gt | .lt => .lt | .ge => .ge | .le => .le
  | .add => .plus | .sub => .minus | .mul => .star | .div => .slash | .mod => .percent
  | .pow => .caret

/-- The token of a prefix operator. -/
def unTok : UnaryOp → Token
  | .plus => .plus | .minus => .minus | .not => .bang

/-- Put parentheses around a token list if needed. -/
def wrap (b : Bool) (ts : List Token) : List Token := if b then .lparen :: (ts ++ [.rparen]) else ts

/-- The last two tokens are `.name`; a `?` written next would be read as part of the name. -/
def endsProp (ts : List Token) : Bool :=
  match ts.reverse with
  | .ident _ :: .dot :: _ => true
  | _ => false

/-- The first token is `:`. -/
def startsColon (ts : List Token) : Bool :=
  match ts with
  | .colon :: _ => true
  | _ => false

/-- Separate by commas. -/
def commas : List (List Token) → List Token
  | [] => []
  | [a] => a
  | a :: b :: rest => a ++ .comma :: commas (b :: rest)

/-- The comma that may follow the last of some members; there is none in an empty list. -/
def lastComma {α : Type} (members : List α) (comma : Bool) : List Token :=
  match members, comma with
  | _ :: _, true => [.comma]
  | _, _ => []

/-- Token of an object key. -/
def Key.tok : Key → Token
  | .ident k => .ident k
  | .quoted k => .str k

mutual
/-- An expression written as tokens, with parentheses where the tree has them (`paren`), where precedence
requires them (left associative binary operators, right associative power), and in two places where the
notation would be ambiguous: a ternary condition ending in a property name, and an index
or slice start that begins with `:`. -/
def Src.toks : Src → List Token
  | .num n => [.number n]
  | .str s => [.str s]
  | .null => [.null]
  | .tru => [.true]
  | .fls => [.false]
  | .var x => [.colon, .ident x]
  | .un op e => unTok op :: wrap (e.prec < 8) e.toks
  | .bin l op r =>
      if op = .pow then wrap (l.prec < 10) l.toks ++ .caret :: wrap (r.prec < 8) r.toks
      else wrap (l.prec < opPrec op) l.toks ++ opTok op :: wrap (r.prec < opPrec op + 1) r.toks
  | .tern c t e =>
      wrap (endsProp (wrap (c.prec < 2) c.toks)) (wrap (c.prec < 2) c.toks) ++
        .qmark :: (t.toks ++ .colon :: e.toks)
  | .assign x v => .colon :: .ident x :: .assign :: wrap (v.prec < 1) v.toks
  | .call name args => .ident name :: .lparen :: (commas (argToks args) ++ [.rparen])
  | .arr items => .lbracket :: (commas (itemToks items) ++ [.rbracket])
  | .obj ms c => .lbrace :: (commas (memberToks ms) ++ (lastComma ms c ++ [.rbrace]))
  | .paren e => .lparen :: (e.toks ++ [.rparen])
  | .prop t p => wrap (t.prec < 11) t.toks ++ [.dot, .ident p]
  | .safeProp t p => wrap (t.prec < 11) t.toks ++ [.safeNav, .ident p]
  | .meth t name args =>
      wrap (t.prec < 11) t.toks ++ .dot :: .ident name :: .lparen :: (commas (argToks args) ++ [.rparen])
  | .pred t name => wrap (t.prec < 11) t.toks ++ [.dot, .ident name, .qmark]
  | .safeMeth t name args =>
      wrap (t.prec < 11) t.toks ++ .safeNav :: .ident name :: .lparen :: (commas (argToks args) ++ [.rparen])
  | .index t i =>
      wrap (t.prec < 11) t.toks ++ .lbracket :: (wrap (startsColon i.toks) i.toks ++ [.rbracket])
  | .slice t a b =>
      wrap (t.prec < 11) t.toks ++ .lbracket :: (startToks a ++ .colon :: (endToks b ++ [.rbracket]))
  | .cast e _ name _ => wrap (e.prec < 11) e.toks ++ [.dcolon, .ident name]
/-- Arguments. -/
def argToks : List (Bool × Src) → List (List Token)
  | [] => []
  | (sp, e) :: rest => (if sp then .ellipsis :: e.toks else e.toks) :: argToks rest
/-- Array items. -/
def itemToks : List Src → List (List Token)
  | [] => []
  | e :: rest => e.toks :: itemToks rest
/-- Object members. -/
def memberToks : List (Key × Src) → List (List Token)
  | [] => []
  | (k, e) :: rest => (k.tok :: .colon :: e.toks) :: memberToks rest
/-- The start of a slice. -/
def startToks : Option Src → List Token
  | none => []
  | some e => wrap (startsColon e.toks) e.toks
/-- The end of a slice. -/
def endToks : Option Src → List Token
  | none => []
  | some e => e.toks
end

/-- A program: statements separated by `;`. -/
def progToks : Src → List Src → List Token
  | e, [] => e.toks
  | e, f :: rest => e.toks ++ .semi :: progToks f rest

/-- The tree of a program: a single statement stands for itself. -/
def progExpr (e : Src) : List Src → Expr
  | [] => e.toExpr
  | rest => .seq (e.toExpr :: rest.map Src.toExpr)

/-- Tokens that never continue a program, whatever it is. -/
def stops : Token → Bool
  | .number _ | .ident _ | .str _ | .true | .false | .null | .bang | .ellipsis | .rparen | .comma | .colon | .rbracket
  | .lbrace | .rbrace | .eof => true
  | _ => false

end Spec
