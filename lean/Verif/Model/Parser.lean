import Verif.Model.Lexer
import Verif.Model.Expr
/-!
The recursive-descent parser: `src/parser.rs`.

Every function takes fuel, so that it is a total Lean function; `.error none` means that the fuel ran
out. `Verif.Props.Parsing` shows that this never happens with the fuel `Parser.parse` supplies,
and that more fuel never changes the result.
-/

/-- Result of a parsing function; `.error none` is "out of fuel". -/
abbrev PRes (α : Type) := Except (Option Fail) α

/-- Models `src/parser.rs:6-11` (`struct Parser`): the lookahead token, its position, and the tokens
the lexer will deliver. `lookahead2` is dropped: it is never set to anything but `None`. -/
structure St where
  look : Token
  pos : Nat
  rest : Toks
deriving DecidableEq, Repr

namespace Parser

/-- Models `src/parser.rs:14-19` (`Parser::new`): an error on the first token is replaced by `Eof`.
What the lexer would deliver after that is never asked for. -/
def init : Toks → PRes St
  | .cons t p r => .ok ⟨t, p, r⟩
  | .eof p => .ok ⟨.eof, p, .eof p⟩
  | .bad none => .error none
  | .bad (some (.panic w)) => .error (some (.panic w))
  | .bad (some (.err ..)) => .ok ⟨.eof, 0, .eof 0⟩

/-- Models `src/parser.rs:21-29` (`bump`). -/
def bump (s : St) : PRes St :=
  match s.rest with
  | .cons t p r => .ok ⟨t, p, r⟩
  | .eof p => .ok ⟨.eof, p, .eof p⟩
  | .bad f => .error f

/-- Models `src/parser.rs:31-37,82-84`: whether the next two tokens are an identifier and `:=`. A
lexing error counts as `Eof` there, so it is not an assignment. -/
def isAssign (s : St) : Bool :=
  match s.rest with
  | .cons (.ident _) _ (.cons .assign _ _) => true
  | _ => false

/-- Models `src/parser.rs:48` (`err_here`). -/
def err {α : Type} (s : St) (msg : String) : PRes α := .error (some (.err msg [] (some s.pos)))

/-- The operators of the six left-associative levels: `src/parser.rs:124-137` (0, `||`), `139-152`
(1, `&&`), `154-164` (2, equality), `166-178` (3, relational), `180-198` (4, additive), `200-223`
(5, multiplicative). -/
def opAt : Nat → Token → Option BinaryOp
  | 0, .or => some .or
  | 1, .and => some .and
  | 2, .eq => some .eq
  | 2, .ne => some .ne
  | 3, .gt => some .gt
  | 3, .lt => some .lt
  | 3, .ge => some .ge
  | 3, .le => some .le
  | 4, .plus => some .add
  | 4, .minus => some .sub
  | 5, .star => some .mul
  | 5, .slash => some .div
  | 5, .percent => some .mod
  | _, _ => none

/-- The prefix operators of `src/parser.rs:237-256`. -/
def prefixOp : Token → Option UnaryOp
  | .plus => some .plus
  | .minus => some .minus
  | .bang => some .not
  | _ => none

/-- The type names of `src/parser.rs:397-407`. Identifiers are ASCII, so `to_lowercase` is
the ASCII map. -/
def castType (name : Str) : Option CastTy :=
  let s := name.map Str.asciiLowC
  if s = c!"integer" ∨ s = c!"int" then some .integer
  else if s = c!"float" ∨ s = c!"number" then some .float
  else if s = c!"string" then some .string
  else if s = c!"boolean" ∨ s = c!"bool" then some .boolean
  else if s = c!"array" then some .array
  else if s = c!"currency" then some .currency
  else if s = c!"datetime" ∨ s = c!"date" then some .dateTime
  else if s = c!"json" then some .json
  else none

/-- `to_uppercase` of an identifier, which is ASCII (`src/parser.rs:312`). -/
def up (s : Str) : Str := s.map Str.asciiUpC

/-- `to_lowercase` of an identifier, which is ASCII (`src/parser.rs:429,451,490`). -/
def low (s : Str) : Str := s.map Str.asciiLowC

mutual

/-- Models `src/parser.rs:74-101` (`parse_expr`, `parse_assignment`). -/
def expr : Nat → St → PRes (Expr × St)
  | 0, _ => .error none
  | n + 1, s =>
    if s.look = .colon ∧ isAssign s = true then do
      let s ← bump s
      match s.look with
      | .ident name => do
        let s ← bump s
        if s.look = .assign then do
          let s ← bump s
          let (v, s) ← ternary n s
          return (.assign name v, s)
        else err s "Invalid assignment syntax"
      | _ => err s "Invalid assignment syntax"
    else ternary n s

/-- Models `src/parser.rs:103-122` (`parse_ternary`). -/
def ternary : Nat → St → PRes (Expr × St)
  | 0, _ => .error none
  | n + 1, s => do
    let (c, s) ← level n 0 s
    if s.look = .qmark then do
      let s ← bump s
      let (t, s) ← expr n s
      if s.look = .colon then do
        let s ← bump s
        let (e, s) ← expr n s
        return (.call c!"__TERNARY__" [c, t, e], s)
      else err s "Expected ':' in ternary"
    else return (c, s)

/-- Models `src/parser.rs:124-223`: level `k` is `parse_or` (0), `parse_and` (1), `parse_equality`
(2), `parse_relational` (3), `parse_additive` (4), `parse_multiplicative` (5); the operands of the
last are `parse_unary`. -/
def level : Nat → Nat → St → PRes (Expr × St)
  | 0, _, _ => .error none
  | n + 1, k, s =>
    if 6 ≤ k then unary n s
    else do
      let (e, s) ← level n (k + 1) s
      levelLoop n k e s

/-- The loops of `src/parser.rs:126-135,141-150,156-162,168-176,182-196,202-221`. -/
def levelLoop : Nat → Nat → Expr → St → PRes (Expr × St)
  | 0, _, _, _ => .error none
  | n + 1, k, e, s =>
    match opAt k s.look with
    | some op => do
      let s ← bump s
      let (r, s) ← level n (k + 1) s
      levelLoop n k (.binary e op r) s
    | none => return (e, s)

/-- Models `src/parser.rs:237-256` (`parse_unary`). -/
def unary : Nat → St → PRes (Expr × St)
  | 0, _ => .error none
  | n + 1, s =>
    match prefixOp s.look with
    | some op => do
      let s ← bump s
      let (e, s) ← unary n s
      return (.unary op e, s)
    | none => power n s

/-- Models `src/parser.rs:225-235` (`parse_power`). -/
def power : Nat → St → PRes (Expr × St)
  | 0, _ => .error none
  | n + 1, s => do
    let (l, s) ← castE n s
    if s.look = .caret then do
      let s ← bump s
      let (r, s) ← unary n s
      return (.binary l .pow r, s)
    else return (l, s)

/-- Models `src/parser.rs:390-414` (`parse_cast`). -/
def castE : Nat → St → PRes (Expr × St)
  | 0, _ => .error none
  | n + 1, s => do
    let (e, s) ← postfixE n s
    if s.look = .dcolon then do
      let s ← bump s
      match s.look with
      | .ident name => do
        let s ← bump s
        match castType name with
        | some ty => return (.cast e ty, s)
        | none => .error (some (.err "Unknown cast type" [] none))
      | _ => .error (some (.err "Expected type name after '::'" [] none))
    else return (e, s)

/-- Models `src/parser.rs:416-417,538` (`parse_postfix`). -/
def postfixE : Nat → St → PRes (Expr × St)
  | 0, _ => .error none
  | n + 1, s => do
    let (e, s) ← atom n s
    postLoop n e s

/-- Models the loop of `src/parser.rs:418-537`. -/
def postLoop : Nat → Expr → St → PRes (Expr × St)
  | 0, _, _ => .error none
  | n + 1, e, s =>
    match s.look with
    | .dot => do
      let s ← bump s
      match s.look with
      | .ident name => do
        let s ← bump s
        match s.look with
        | .qmark => do
          let s ← bump s
          postLoop n (.method e (low name) [] true) s
        | .lparen => do
          let s ← bump s
          let (as, s) ← args n "Expected ',' or ')' in method args" s
          postLoop n (.method e (low name) as false) s
        | _ => postLoop n (.prop e name) s
      | _ => err s "Expected property or method name after '.'"
    | .safeNav => do
      let s ← bump s
      match s.look with
      | .ident name => do
        let s ← bump s
        match s.look with
        | .lparen => do
          let s ← bump s
          let (as, s) ← args n "Expected ',' or ')' in safe method args" s
          postLoop n (.safeCall e (low name) as) s
        | _ => postLoop n (.safeProp e name) s
      | _ => err s "Expected property name after '&.'"
    | .lbracket => do
      let s ← bump s
      match s.look with
      | .rbracket => do
        let s ← bump s
        err s "Empty index '[]' not allowed"
      | .colon => do
        let (stop, s) ← sliceEnd n s
        postLoop n (.slice e none stop) s
      | _ => do
        let (first, s) ← expr n s
        match s.look with
        | .colon => do
          let (stop, s) ← sliceEnd n s
          postLoop n (.slice e (some first) stop) s
        | .rbracket => do
          let s ← bump s
          postLoop n (.index e first) s
        | _ => err s "Expected ':' or ']' in indexing"
    | _ => return (e, s)

/-- Models `src/parser.rs:521-532`: the part of a slice from its `:` on. -/
def sliceEnd : Nat → St → PRes (Option Expr × St)
  | 0, _ => .error none
  | n + 1, s => do
    let s ← bump s
    if s.look = .rbracket then do
      let s ← bump s
      return (none, s)
    else do
      let (e, s) ← expr n s
      if s.look = .rbracket then do
        let s ← bump s
        return (some e, s)
      else err s "Expected ']' to close slice"

/-- Models `src/parser.rs:297-311,436-450,470-489`: an argument list after its `(`, through its `)`. -/
def args : Nat → String → St → PRes (List Expr × St)
  | 0, _, _ => .error none
  | n + 1, msg, s =>
    if s.look = .rparen then do
      let s ← bump s
      return ([], s)
    else argsLoop n msg s

/-- Models the loops of `src/parser.rs:301-309,440-448,474-487`: at least one argument. -/
def argsLoop : Nat → String → St → PRes (List Expr × St)
  | 0, _, _ => .error none
  | n + 1, msg, s => do
    let (a, s) ← arg n s
    if s.look = .comma then do
      let s ← bump s
      let (as, s) ← argsLoop n msg s
      return (a :: as, s)
    else if s.look = .rparen then do
      let s ← bump s
      return ([a], s)
    else err s msg

/-- Models `src/parser.rs:302,441,475-480`: one argument. -/
def arg : Nat → St → PRes (Expr × St)
  | 0, _ => .error none
  | n + 1, s =>
    if s.look = .ellipsis then do
      let s ← bump s
      let (e, s) ← expr n s
      return (.spread e, s)
    else expr n s

/-- Models the loop of `src/parser.rs:325-335`: the items of an array literal, through the `]`. -/
def itemsLoop : Nat → St → PRes (List Expr × St)
  | 0, _ => .error none
  | n + 1, s => do
    let (a, s) ← expr n s
    if s.look = .comma then do
      let s ← bump s
      let (as, s) ← itemsLoop n s
      return (a :: as, s)
    else if s.look = .rbracket then do
      let s ← bump s
      return ([a], s)
    else err s "Expected ',' or ']' in array"

/-- Models the loop of `src/parser.rs:345-383`: the members of an object literal, through the `}`. -/
def membersLoop : Nat → St → PRes (List (Str × Expr) × St)
  | 0, _ => .error none
  | n + 1, s => do
    let (key, s) ← (match s.look with
      | .ident k => do
        let s ← bump s
        return (k, s)
      | .str k => do
        let s ← bump s
        return (k, s)
      | _ => err s "Expected identifier or string key in object literal")
    if s.look = .colon then do
      let s ← bump s
      let (v, s) ← expr n s
      if s.look = .comma then do
        let s ← bump s
        if s.look = .rbrace then do
          let s ← bump s
          return ([(key, v)], s)
        else do
          let (ms, s) ← membersLoop n s
          return ((key, v) :: ms, s)
      else if s.look = .rbrace then do
        let s ← bump s
        return ([(key, v)], s)
      else err s "Expected ',' or '}' in object literal"
    else err s "Expected ':' after object key"

/-- Models `src/parser.rs:258-388` (`parse_atom`). The token named by the last error is not
kept in the model of the message. -/
def atom : Nat → St → PRes (Expr × St)
  | 0, _ => .error none
  | n + 1, s =>
    match s.look with
    | .number x => do
      let s ← bump s
      return (.number x, s)
    | .lparen => do
      let s ← bump s
      let (e, s) ← expr n s
      if s.look = .rparen then do
        let s ← bump s
        return (e, s)
      else err s "Expected ')'"
    | .str t => do
      let s ← bump s
      return (.strLit t, s)
    | .null => do
      let s ← bump s
      return (.null, s)
    | .colon => do
      let s ← bump s
      match s.look with
      | .ident name => do
        let s ← bump s
        return (.var name, s)
      | _ => err s "Expected variable name after ':'"
    | .true => do
      let s ← bump s
      return (.call c!"__CONST_TRUE__" [], s)
    | .false => do
      let s ← bump s
      return (.call c!"__CONST_FALSE__" [], s)
    | .ident name => do
      let s ← bump s
      if s.look = .lparen then do
        let s ← bump s
        let (as, s) ← args n "Expected ',' or ')' in argument list" s
        return (.call (up name) as, s)
      else err s "Unexpected identifier (expected function call)"
    | .lbracket => do
      let s ← bump s
      if s.look = .rbracket then do
        let s ← bump s
        return (.array [], s)
      else do
        let (items, s) ← itemsLoop n s
        return (.array items, s)
    | .lbrace => do
      let s ← bump s
      if s.look = .rbrace then do
        let s ← bump s
        return (.object [], s)
      else do
        let (ms, s) ← membersLoop n s
        return (.object ms, s)
    | _ => err s "Unexpected token: {:?}"

end

/-- Models the loop of `src/parser.rs:57-63`: the statements after the first. -/
def stmts : Nat → St → PRes (List Expr × St)
  | 0, _ => .error none
  | n + 1, s =>
    if s.look = .semi then do
      let s ← bump s
      if s.look = .eof then return ([], s)
      else do
        let (e, s) ← expr n s
        let (es, s) ← stmts n s
        return (e :: es, s)
    else return ([], s)

/-- Models `src/parser.rs:50-72` (`parse`), also giving the state it stops in. -/
def program (n : Nat) (s : St) : PRes (Expr × St) := do
  let (e, s) ← expr n s
  let (es, s) ← stmts n s
  match es with
  | [] => return (e, s)
  | _ :: _ => return (.seq (e :: es), s)

/-- Models `src/parser.rs:14-19,50-72` (`Parser::new(input).parse()`) with the given fuel. -/
def parseTextWith (fuel : Nat) (s : Str) : PRes (Expr × St) := do
  let st ← init (Toks.of fuel (Lx.init s))
  program fuel st

/-- Fuel that suffices for a text. -/
def fuelFor (s : Str) : Nat := 20 * (s.length + 2)

end Parser
