import Verif.Model.Lib
/-!
The recursive-descent parser with a bounded stack: `src/parser.rs` once more, as in `Verif.Model.Parser`, with a
second number `d`: how many further nested calls of parsing methods fit on the stack of the thread. Every method of
`src/parser.rs` that parses takes one; the loops inside a method take none, since an iteration does not nest in the one
before it. When none is left the result is `overflow`.

Simplified: `parse_expr` only hands over to `parse_assignment`, and the two count as one; the calls of a method that do
not lead back to the parser (`bump`, the lexer) are not counted; all calls count the same. The first number is the
fuel that makes the functions total, as in `Verif.Model.Parser`.
-/

namespace Stack

open Parser (init bump isAssign err opAt prefixOp castType up low)

/-- The outcome of a program whose stack is exhausted. The run time of Rust then ends the process; no `Result` and no
`catch_unwind` sees it. -/
def exhausted : Fail := .panic "stack overflow"

/-- A parsing method is called and does not fit on the stack. -/
def overflow {α : Type} : PRes α := .error (some exhausted)

mutual

/-- Models `src/parser.rs:74-101` (`parse_expr`, `parse_assignment`). -/
def expr : Nat → Nat → St → PRes (Expr × St)
  | 0, _, _ => .error none
  | _ + 1, 0, _ => overflow
  | n + 1, d + 1, s =>
    if s.look = .colon ∧ isAssign s = true then do
      let s ← bump s
      match s.look with
      | .ident name => do
        let s ← bump s
        if s.look = .assign then do
          let s ← bump s
          let (v, s) ← ternary n d s
          return (.assign name v, s)
        else err s "Invalid assignment syntax"
      | _ => err s "Invalid assignment syntax"
    else ternary n d s

/-- Models `src/parser.rs:103-122` (`parse_ternary`). -/
def ternary : Nat → Nat → St → PRes (Expr × St)
  | 0, _, _ => .error none
  | _ + 1, 0, _ => overflow
  | n + 1, d + 1, s => do
    let (c, s) ← level n d 0 s
    if s.look = .qmark then do
      let s ← bump s
      let (t, s) ← expr n d s
      if s.look = .colon then do
        let s ← bump s
        let (e, s) ← expr n d s
        return (.call c!"__TERNARY__" [c, t, e], s)
      else err s "Expected ':' in ternary"
    else return (c, s)

/-- Models `src/parser.rs:124-223`: level `k` is `parse_or` (0), `parse_and` (1), `parse_equality`
(2), `parse_relational` (3), `parse_additive` (4), `parse_multiplicative` (5); the operands of the
last are `parse_unary`. -/
def level : Nat → Nat → Nat → St → PRes (Expr × St)
  | 0, _, _, _ => .error none
  | n + 1, 0, k, s => if 6 ≤ k then unary n 0 s else overflow
  | n + 1, d + 1, k, s =>
    if 6 ≤ k then unary n (d + 1) s
    else do
      let (e, s) ← level n d (k + 1) s
      levelLoop n d k e s

/-- The loops of `src/parser.rs:126-135,141-150,156-162,168-176,182-196,202-221`. -/
def levelLoop : Nat → Nat → Nat → Expr → St → PRes (Expr × St)
  | 0, _, _, _, _ => .error none
  | n + 1, d, k, e, s =>
    match opAt k s.look with
    | some op => do
      let s ← bump s
      let (r, s) ← level n d (k + 1) s
      levelLoop n d k (.binary e op r) s
    | none => return (e, s)

/-- Models `src/parser.rs:237-256` (`parse_unary`). -/
def unary : Nat → Nat → St → PRes (Expr × St)
  | 0, _, _ => .error none
  | _ + 1, 0, _ => overflow
  | n + 1, d + 1, s =>
    match prefixOp s.look with
    | some op => do
      let s ← bump s
      let (e, s) ← unary n d s
      return (.unary op e, s)
    | none => power n d s

/-- Models `src/parser.rs:225-235` (`parse_power`). -/
def power : Nat → Nat → St → PRes (Expr × St)
  | 0, _, _ => .error none
  | _ + 1, 0, _ => overflow
  | n + 1, d + 1, s => do
    let (l, s) ← castE n d s
    if s.look = .caret then do
      let s ← bump s
      let (r, s) ← unary n d s
      return (.binary l .pow r, s)
    else return (l, s)

/-- Models `src/parser.rs:390-414` (`parse_cast`). -/
def castE : Nat → Nat → St → PRes (Expr × St)
  | 0, _, _ => .error none
  | _ + 1, 0, _ => overflow
  | n + 1, d + 1, s => do
    let (e, s) ← postfixE n d s
    if s.look = .dcolon then do
      let s ← bump s
      match s.look with
      | .ident name => do
        let s ← bump s
        match castType name with
        | some ty => return (.cast e ty, s)
        | none => .error (some (.err "Unknown cast type" [] none))
      | _ => .error (some (.err "Expected type name after '::'" [] none))
    else return (e, s)

/-- Models `src/parser.rs:416-417,538` (`parse_postfix`). -/
def postfixE : Nat → Nat → St → PRes (Expr × St)
  | 0, _, _ => .error none
  | _ + 1, 0, _ => overflow
  | n + 1, d + 1, s => do
    let (e, s) ← atom n d s
    postLoop n d e s

/-- Models the loop of `src/parser.rs:418-537`. -/
def postLoop : Nat → Nat → Expr → St → PRes (Expr × St)
  | 0, _, _, _ => .error none
  | n + 1, d, e, s =>
    match s.look with
    | .dot => do
      let s ← bump s
      match s.look with
      | .ident name => do
        let s ← bump s
        match s.look with
        | .qmark => do
          let s ← bump s
          postLoop n d (.method e (low name) [] true) s
        | .lparen => do
          let s ← bump s
          let (as, s) ← args n d "Expected ',' or ')' in method args" s
          postLoop n d (.method e (low name) as false) s
        | _ => postLoop n d (.prop e name) s
      | _ => err s "Expected property or method name after '.'"
    | .safeNav => do
      let s ← bump s
      match s.look with
      | .ident name => do
        let s ← bump s
        match s.look with
        | .lparen => do
          let s ← bump s
          let (as, s) ← args n d "Expected ',' or ')' in safe method args" s
          postLoop n d (.safeCall e (low name) as) s
        | _ => postLoop n d (.safeProp e name) s
      | _ => err s "Expected property name after '&.'"
    | .lbracket => do
      let s ← bump s
      match s.look with
      | .rbracket => do
        let s ← bump s
        err s "Empty index '[]' not allowed"
      | .colon => do
        let (stop, s) ← sliceEnd n d s
        postLoop n d (.slice e none stop) s
      | _ => do
        let (first, s) ← expr n d s
        match s.look with
        | .colon => do
          let (stop, s) ← sliceEnd n d s
          postLoop n d (.slice e (some first) stop) s
        | .rbracket => do
          let s ← bump s
          postLoop n d (.index e first) s
        | _ => err s "Expected ':' or ']' in indexing"
    | _ => return (e, s)

/-- Models `src/parser.rs:521-532`: the part of a slice from its `:` on. -/
def sliceEnd : Nat → Nat → St → PRes (Option Expr × St)
  | 0, _, _ => .error none
  | n + 1, d, s => do
    let s ← bump s
    if s.look = .rbracket then do
      let s ← bump s
      return (none, s)
    else do
      let (e, s) ← expr n d s
      if s.look = .rbracket then do
        let s ← bump s
        return (some e, s)
      else err s "Expected ']' to close slice"

/-- Models `src/parser.rs:297-311,436-450,470-489`: an argument list after its `(`, through its `)`. -/
def args : Nat → Nat → String → St → PRes (List Expr × St)
  | 0, _, _, _ => .error none
  | n + 1, d, msg, s =>
    if s.look = .rparen then do
      let s ← bump s
      return ([], s)
    else argsLoop n d msg s

/-- Models the loops of `src/parser.rs:301-309,440-448,474-487`: at least one argument. -/
def argsLoop : Nat → Nat → String → St → PRes (List Expr × St)
  | 0, _, _, _ => .error none
  | n + 1, d, msg, s => do
    let (a, s) ← arg n d s
    if s.look = .comma then do
      let s ← bump s
      let (as, s) ← argsLoop n d msg s
      return (a :: as, s)
    else if s.look = .rparen then do
      let s ← bump s
      return ([a], s)
    else err s msg

/-- Models `src/parser.rs:302,441,475-480`: one argument. -/
def arg : Nat → Nat → St → PRes (Expr × St)
  | 0, _, _ => .error none
  | n + 1, d, s =>
    if s.look = .ellipsis then do
      let s ← bump s
      let (e, s) ← expr n d s
      return (.spread e, s)
    else expr n d s

/-- Models the loop of `src/parser.rs:325-335`: the items of an array literal, through the `]`. -/
def itemsLoop : Nat → Nat → St → PRes (List Expr × St)
  | 0, _, _ => .error none
  | n + 1, d, s => do
    let (a, s) ← expr n d s
    if s.look = .comma then do
      let s ← bump s
      let (as, s) ← itemsLoop n d s
      return (a :: as, s)
    else if s.look = .rbracket then do
      let s ← bump s
      return ([a], s)
    else err s "Expected ',' or ']' in array"

/-- Models the loop of `src/parser.rs:345-383`: the members of an object literal, through the `}`. -/
def membersLoop : Nat → Nat → St → PRes (List (Str × Expr) × St)
  | 0, _, _ => .error none
  | n + 1, d, s => do
    let (key, s) ← (match s.look with
      | .ident k => do
        let s ← bump s
        return (k, s)
      | .str k => do
        let s ← bump s
        return (k, s)
      | _ => err s "Expected identifier or string key in object literal")
    if s.look = .colon then do
      let s ← bump s
      let (v, s) ← expr n d s
      if s.look = .comma then do
        let s ← bump s
        if s.look = .rbrace then do
          let s ← bump s
          return ([(key, v)], s)
        else do
          let (ms, s) ← membersLoop n d s
          return ((key, v) :: ms, s)
      else if s.look = .rbrace then do
        let s ← bump s
        return ([(key, v)], s)
      else err s "Expected ',' or '}' in object literal"
    else err s "Expected ':' after object key"

/-- Models `src/parser.rs:258-388` (`parse_atom`). The token named by the last error is not
kept in the model of the message. -/
def atom : Nat → Nat → St → PRes (Expr × St)
  | 0, _, _ => .error none
  | _ + 1, 0, _ => overflow
  | n + 1, d + 1, s =>
    match s.look with
    | .number x => do
      let s ← bump s
      return (.number x, s)
    | .lparen => do
      let s ← bump s
      let (e, s) ← expr n d s
      if s.look = .rparen then do
        let s ← bump s
        return (e, s)
      else err s "Expected ')'"
    | .str t => do
      let s ← bump s
      return (.strLit t, s)
    | .null => do
      let s ← bump s
      return (.null, s)
    | .colon => do
      let s ← bump s
      match s.look with
      | .ident name => do
        let s ← bump s
        return (.var name, s)
      | _ => err s "Expected variable name after ':'"
    | .true => do
      let s ← bump s
      return (.call c!"__CONST_TRUE__" [], s)
    | .false => do
      let s ← bump s
      return (.call c!"__CONST_FALSE__" [], s)
    | .ident name => do
      let s ← bump s
      if s.look = .lparen then do
        let s ← bump s
        let (as, s) ← args n d "Expected ',' or ')' in argument list" s
        return (.call (up name) as, s)
      else err s "Unexpected identifier (expected function call)"
    | .lbracket => do
      let s ← bump s
      if s.look = .rbracket then do
        let s ← bump s
        return (.array [], s)
      else do
        let (items, s) ← itemsLoop n d s
        return (.array items, s)
    | .lbrace => do
      let s ← bump s
      if s.look = .rbrace then do
        let s ← bump s
        return (.object [], s)
      else do
        let (ms, s) ← membersLoop n d s
        return (.object ms, s)
    | _ => err s "Unexpected token: {:?}"

end

/-- Models the loop of `src/parser.rs:57-63`: the statements after the first. -/
def stmts : Nat → Nat → St → PRes (List Expr × St)
  | 0, _, _ => .error none
  | n + 1, d, s =>
    if s.look = .semi then do
      let s ← bump s
      if s.look = .eof then return ([], s)
      else do
        let (e, s) ← expr n d s
        let (es, s) ← stmts n d s
        return (e :: es, s)
    else return ([], s)

/-- Models `src/parser.rs:50-72` (`parse`), also giving the state it stops in. -/
def program (n d : Nat) (s : St) : PRes (Expr × St) := do
  let (e, s) ← expr n d s
  let (es, s) ← stmts n d s
  match es with
  | [] => return (e, s)
  | _ :: _ => return (.seq (e :: es), s)


/-- Models `src/parser.rs:14-19,50-72` (`Parser::new(input).parse()`) on a stack for `d` nested calls. -/
def parseText (d : Nat) (s : Str) : PRes (Expr × St) := do
  let st ← init (Toks.of (Parser.fuelFor s) (Lx.init s))
  program (Parser.fuelFor s) d st

/-- What `parse` gives for an outcome of the parser; running out of fuel does not occur. -/
def outcome : PRes (Expr × St) → Res Expr
  | .ok (e, _) => .ok e
  | .error (some f) => .error f
  | .error none => panics "out of fuel"

/-- Models `src/lib.rs:42-48` (`parse`) on a stack for `d` nested calls. -/
def parse (d : Nat) (input : Str) : Res Expr := outcome (parseText d (Lib.stripEq input))

end Stack
