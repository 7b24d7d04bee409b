import Verif.Model.Value
/-!
The lexer: `src/lexer.rs`.

The Rust lexer works on the UTF-8 bytes of the input. The model works on characters: every byte
the code compares with is ASCII, ASCII bytes never occur inside a multi-byte character, and
`string` copies the bytes of other characters unchanged. Positions are byte positions, as in the code.
-/

/-- Models `src/lexer.rs:3-44` (`enum Token`). `And` and `Or` are left out: no
branch of `next_token` produces them. -/
inductive Token where
  | number (n : F64)
  | ident (s : Str)
  | str (s : Str)
  | true | false | null
  | plus | minus | star | slash | percent | caret | bang
  | dot | safeNav | ellipsis
  | lparen | rparen | comma | colon | dcolon | lbracket | rbracket | lbrace | rbrace
  | gt | lt | ge | le | eq | ne | and | or | qmark | semi | assign | eof
deriving DecidableEq, Repr

/-- Models `src/lexer.rs:46-52` (`struct Lexer`): the input not yet read, the byte position and
`last_start`. `last_end` is dropped: nothing reads it. -/
structure Lx where
  rest : Str
  pos : Nat
  lastStart : Nat
deriving DecidableEq, Repr

namespace Lx

/-- Models `src/lexer.rs:55-62` (`Lexer::new`). -/
def init (s : Str) : Lx := ⟨s, 0, 0⟩

/-- The bytes skipped by `src/lexer.rs:74-78` (`skip_ws`). -/
def isSpace (c : Char) : Bool := c = ' ' || c = '\t' || c = '\n' || c = '\r'

/-- Models `src/lexer.rs:74-78` (`skip_ws`): the remaining input and the new position. -/
def skipWs : Str → Nat → Str × Nat
  | [], p => ([], p)
  | c :: cs, p => if isSpace c then skipWs cs (p + 1) else (c :: cs, p)

/-- Models the loop of `src/lexer.rs:84-111`: the characters taken, what is left, and `has_dot`. -/
def numTail : Bool → Str → Str × Str × Bool
  | hasDot, [] => ([], [], hasDot)
  | hasDot, c :: cs =>
      if Str.asciiDigit c then
        let (a, b, d) := numTail hasDot cs
        (c :: a, b, d)
      else if c = '.' ∧ hasDot = false then
        match cs with
        | [] => (['.'], [], true)
        | d :: _ =>
            if Str.asciiDigit d then
              let (a, b, e) := numTail true cs
              ('.' :: a, b, e)
            else ([], c :: cs, hasDot)
      else ([], c :: cs, hasDot)

/-- Models `src/lexer.rs:115-119`: the fast path. -/
def fastInt (s : Str) : F64 :=
  s.foldl (fun r c => F64.add (F64.mul r (F64.ofNat 10)) (F64.ofNat (c.toNat - '0'.toNat))) (F64.zero false)

/-- Models `src/lexer.rs:113-126`: the value of a numeric literal's text. -/
def numValue (s : Str) (hasDot : Bool) : Option F64 :=
  if s.length ≤ 10 ∧ hasDot = false then some (fastInt s) else F64.parse s

/-- Models `src/lexer.rs:80-130` (`number`); `start` is the position of `first`. -/
def number (first : Char) (rest : Str) (start : Nat) : Res (Token × Lx) :=
  let (tl, left, hasDot) := numTail (first = '.') rest
  match numValue (first :: tl) hasDot with
  | some n => .ok (.number n, ⟨left, start + 1 + tl.length, start⟩)
  | none => .error (.err "Invalid number" [] (some start))

/-- Characters that continue an identifier (`src/lexer.rs:137`). -/
def isIdent (c : Char) : Bool := Str.asciiAlnum c || c = '_'

/-- Models `src/lexer.rs:147-183`: keywords are recognised whatever their case. -/
def keyword (s : Str) : Token :=
  if Str.eqIgnoreCase s c!"TRUE" then .true
  else if Str.eqIgnoreCase s c!"NULL" then .null
  else if Str.eqIgnoreCase s c!"FALSE" then .false
  else .ident s

/-- Models `src/lexer.rs:132-186` (`identifier`). -/
def identifier (first : Char) (rest : Str) (start : Nat) : Res (Token × Lx) :=
  let tl := rest.takeWhile isIdent
  .ok (keyword (first :: tl), ⟨rest.dropWhile isIdent, start + 1 + tl.length, start⟩)

/-- Models the escapes of `src/lexer.rs:201-208`. -/
def unescape (c : Char) : Char := if c = 'n' then '\n' else if c = 't' then '\t' else c

/-- Models the loop of `src/lexer.rs:192-216`: contents, what is left, and the position after the
closing quote. -/
def strBody (q : Char) : Str → Nat → Res (Str × Str × Nat)
  | [], p => .error (.err "Unterminated string literal" [] (some p))
  | c :: cs, p =>
      if c = q then .ok ([], cs, p + 1)
      else if c = '\\' then
        match cs with
        | [] => .error (.err "Unterminated escape in string" [] (some ((p + 1 : Nat) : Int)))
        | e :: cs' =>
            match strBody q cs' (p + 1 + Str.width e) with
            | .ok (b, r, p') => .ok (unescape e :: b, r, p')
            | .error f => .error f
      else
        match strBody q cs (p + Str.width c) with
        | .ok (b, r, p') => .ok (c :: b, r, p')
        | .error f => .error f

/-- Models `src/lexer.rs:188-217` (`string`). The bytes collected always form valid UTF-8, so the
"Invalid UTF-8" error cannot occur. -/
def string (q : Char) (rest : Str) (start : Nat) : Res (Token × Lx) :=
  match strBody q rest (start + 1) with
  | .ok (b, r, p) => .ok (.str b, ⟨r, p, start⟩)
  | .error f => .error f

/-- A token of one character at `p` (`src/lexer.rs:337-360`). -/
def one (t : Token) (rest : Str) (p : Nat) : Res (Token × Lx) := .ok (t, ⟨rest, p + 1, p⟩)

/-- The tokens whose start is computed as `pos - 2` (`src/lexer.rs:361-375`); `pos` is the position
after the token. The subtraction is checked. -/
def two (t : Token) (rest : Str) (pos : Nat) : Res (Token × Lx) :=
  if pos < 2 then panics "attempt to subtract with overflow" else .ok (t, ⟨rest, pos, pos - 2⟩)

/-- An error at the character at `p`. -/
def errAt (msg : String) (p : Nat) : Res (Token × Lx) := .error (.err msg [] (some p))

/-- The single-character tokens of `src/lexer.rs:254-287,333` that need no lookahead. -/
def simple (c : Char) : Option Token :=
  match c with
  | '+' => some .plus | '-' => some .minus | '*' => some .star | '/' => some .slash
  | '%' => some .percent | '^' => some .caret | '?' => some .qmark
  | '(' => some .lparen | ')' => some .rparen | '[' => some .lbracket | ']' => some .rbracket
  | '{' => some .lbrace | '}' => some .rbrace | ',' => some .comma | ';' => some .semi
  | _ => none

/-- Models `src/lexer.rs:229-253`: a token starting with a dot. -/
def dots (r : Str) (p : Nat) : Res (Token × Lx) :=
  match r with
  | '.' :: '.' :: r' => .ok (.ellipsis, ⟨r', p + 3, p⟩)
  | d :: _ => if Str.asciiDigit d then number '.' r p else one .dot r p
  | [] => one .dot r p

/-- Models the branches `src/lexer.rs:262-269,289-304`: `c` alone is `t1`, followed by `=` it is `t2`. -/
def withEq (t1 t2 : Token) (r : Str) (p : Nat) : Res (Token × Lx) :=
  match r with
  | '=' :: r' => two t2 r' (p + 2)
  | _ => one t1 r p

/-- Models `src/lexer.rs:278-288`. -/
def colons (r : Str) (p : Nat) : Res (Token × Lx) :=
  match r with
  | ':' :: r' => two .dcolon r' (p + 2)
  | '=' :: r' => two .assign r' (p + 2)
  | _ => one .colon r p

/-- Models `src/lexer.rs:305-313`: `=` and `==` are the same token, and both go through the
`pos - 2` computation. -/
def equals (r : Str) (p : Nat) : Res (Token × Lx) :=
  match r with
  | '=' :: r' => two .eq r' (p + 2)
  | _ => two .eq r (p + 1)

/-- Models `src/lexer.rs:314-324`. -/
def ampersand (r : Str) (p : Nat) : Res (Token × Lx) :=
  match r with
  | '&' :: r' => two .and r' (p + 2)
  | '.' :: r' => two .safeNav r' (p + 2)
  | _ => errAt "Unexpected '&'" p

/-- Models `src/lexer.rs:325-332`. -/
def bar (r : Str) (p : Nat) : Res (Token × Lx) :=
  match r with
  | '|' :: r' => two .or r' (p + 2)
  | _ => errAt "Unexpected '|'" p

/-- Models `src/lexer.rs:229-335` for the characters that need a second look. -/
def symbol (c : Char) (r : Str) (p : Nat) : Res (Token × Lx) :=
  if c = '.' then dots r p
  else if c = '"' ∨ c = '\'' then string c r p
  else if c = '!' then withEq .bang .ne r p
  else if c = ':' then colons r p
  else if c = '>' then withEq .gt .ge r p
  else if c = '<' then withEq .lt .le r p
  else if c = '=' then equals r p
  else if c = '&' then ampersand r p
  else if c = '|' then bar r p
  else errAt "Unexpected character" p

/-- Models `src/lexer.rs:226-377`: the token starting with `c` at position `p`, followed by `r`. -/
def token (c : Char) (r : Str) (p : Nat) : Res (Token × Lx) :=
  if Str.asciiDigit c then number c r p
  else if Str.asciiAlpha c || c = '_' then identifier c r p
  else match simple c with
  | some t => one t r p
  | none => symbol c r p

/-- Models `src/lexer.rs:219-377` (`next_token`). At the end of the input `last_start` keeps
its value. -/
def next (l : Lx) : Res (Token × Lx) :=
  match skipWs l.rest l.pos with
  | ([], p) => .ok (.eof, ⟨[], p, l.lastStart⟩)
  | (c :: r, p) => token c r p

end Lx

/-- The tokens a lexer will deliver, with their `last_start`, up to the end of the input or the
first error (`bad none` only if the fuel of `Toks.of` runs out, which never happens). -/
inductive Toks where
  | eof (p : Nat)
  | bad (f : Option Fail)
  | cons (t : Token) (p : Nat) (rest : Toks)
deriving DecidableEq, Repr

/-- Repeated `next_token` calls. The Rust parser calls `next_token` one token at a time; the
lexer's state depends on nothing else, so the tokens can be listed beforehand. -/
def Toks.of : Nat → Lx → Toks
  | 0, _ => .bad none
  | n + 1, l =>
      match l.next with
      | .error f => .bad (some f)
      | .ok (.eof, l') => .eof l'.lastStart
      | .ok (t, l') => .cons t l'.lastStart (Toks.of n l')
