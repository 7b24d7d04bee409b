import Verif.Spec.Syntax
import Verif.Spec.Binary64
/-! How tokens are written as text. -/

namespace Spec

/-- Value of a digit string, most significant digit first. -/
def natOf : Str → ℕ
  | [] => 0
  | c :: cs => (c.toNat - 48) * 10 ^ cs.length + natOf cs

/-- All characters are decimal digits. -/
def Digits (s : Str) : Prop := ∀ c ∈ s, '0' ≤ c ∧ c ≤ '9'

/-- Numerals: `12`, `12.5`, `.5` and `12.`, with their exact value. -/
inductive Numeral : Str → ℚ → Prop
  | int (ds : Str) : ds ≠ [] → Digits ds → Numeral ds (natOf ds)
  | dec (ip fp : Str) : ip ≠ [] ∨ fp ≠ [] → Digits ip → Digits fp →
      Numeral (ip ++ '.' :: fp) (natOf ip + natOf fp / 10 ^ fp.length)

/-- The double a numeral of value `q` denotes: the correctly rounded one. -/
def Denotes (q : ℚ) (x : F64) : Prop := if q = 0 then x = .zero false else IsRounded q x

/-- Characters that can start a name. -/
def nameStart (c : Char) : Prop := ('a' ≤ c ∧ c ≤ 'z') ∨ ('A' ≤ c ∧ c ≤ 'Z') ∨ c = '_'
/-- Characters that can continue a name. -/
def nameChar (c : Char) : Prop := nameStart c ∨ ('0' ≤ c ∧ c ≤ '9')

/-- A name: a letter or underscore, then letters, digits and underscores. -/
def IsName (s : Str) : Prop := ∃ c r, s = c :: r ∧ nameStart c ∧ ∀ d ∈ r, nameChar d

/-- `s` is `w` up to the case of ASCII letters. -/
def SameWord (s w : Str) : Prop := s.map Str.asciiLowC = w

/-- What an escaped character means. -/
def escMeaning (c : Char) : Char := if c = 'n' then '\n' else if c = 't' then '\t' else c

/-- `Quoted q w m`: between two quotes `q`, the characters `w` stand for the string `m`. -/
inductive Quoted (q : Char) : Str → Str → Prop
  | nil : Quoted q [] []
  | plain (c : Char) {w m : Str} : c ≠ q → c ≠ '\\' → Quoted q w m → Quoted q (c :: w) (c :: m)
  | esc (c : Char) {w m : Str} : Quoted q w m → Quoted q ('\\' :: c :: w) (escMeaning c :: m)

/-- Spelling of the tokens made of symbols; equality has two. -/
def symbols : List (Token × Str) :=
  [(.plus, c!"+"), (.minus, c!"-"), (.star, c!"*"), (.slash, c!"/"), (.percent, c!"%"), (.caret, c!"^"),
   (.bang, c!"!"), (.dot, c!"."), (.safeNav, c!"&."), (.ellipsis, c!"..."), (.lparen, c!"("), (.rparen, c!")"),
   (.comma, c!","), (.colon, c!":"), (.dcolon, c!"::"), (.lbracket, c!"["), (.rbracket, c!"]"), (.lbrace, c!"{"),
   (.rbrace, c!"}"), (.gt, c!">"), (.lt, c!"<"), (.ge, c!">="), (.le, c!"<="), (.eq, c!"=="), (.eq, c!"="),
   (.ne, c!"!="), (.and, c!"&&"), (.or, c!"||"), (.qmark, c!"?"), (.semi, c!";"), (.assign, c!":=")]

/-- `Written t s`: the token `t` can be written as `s`. -/
inductive Written : Token → Str → Prop
  | number {s : Str} {q : ℚ} {x : F64} : Numeral s q → Denotes q x → Written (.number x) s
  | name {s : Str} : IsName s → ¬ SameWord s c!"true" → ¬ SameWord s c!"false" → ¬ SameWord s c!"null" →
      Written (.ident s) s
  | tru {s : Str} : SameWord s c!"true" → Written .true s
  | fls {s : Str} : SameWord s c!"false" → Written .false s
  | null {s : Str} : SameWord s c!"null" → Written .null s
  | string {q : Char} {w m : Str} : q = '"' ∨ q = '\'' → Quoted q w m → Written (.str m) (q :: (w ++ [q]))
  | symbol {t : Token} {s : Str} : (t, s) ∈ symbols → Written t s

/-- The first character of a text, if there is one, satisfies `P`. -/
def NextIs (P : Char → Prop) (r : Str) : Prop := ∀ c ∈ r.head?, P c

/-- `NoGlue t s r`: the text `r` may follow `s`, a spelling of `t`, without whitespace in between; it does not
start with something that would be read as a continuation of `s`. A numeral that ends in a dot is only read
as such at the end of the text. -/
def NoGlue (t : Token) (s r : Str) : Prop :=
  match t with
  | .number _ => NextIs (fun c => ¬ ('0' ≤ c ∧ c ≤ '9')) r ∧
      ('.' ∉ s → ∀ r', r = '.' :: r' → ∃ d r'', r' = d :: r'' ∧ ¬ ('0' ≤ d ∧ d ≤ '9')) ∧
      (s.getLast? = some '.' → r = [])
  | .ident _ | .true | .false | .null => NextIs (fun c => ¬ nameChar c) r
  | .dot => NextIs (fun c => ¬ ('0' ≤ c ∧ c ≤ '9')) r ∧ ∀ r', r ≠ '.' :: '.' :: r'
  | .bang | .gt | .lt => NextIs (· ≠ '=') r
  | .eq => s = c!"=" → NextIs (· ≠ '=') r
  | .colon => NextIs (fun c => c ≠ ':' ∧ c ≠ '=') r
  | _ => True

/-- Space, tab, carriage return and line feed. -/
def Blank (s : Str) : Prop := ∀ c ∈ s, c = ' ' ∨ c = '\t' ∨ c = '\r' ∨ c = '\n'

/-- `Spells ts text`: `text` is the tokens `ts` written one after the other, with optional whitespace before
each token and at the end. -/
inductive Spells : List Token → Str → Prop
  | done {ws : Str} : Blank ws → Spells [] ws
  | tok {ws s r : Str} {t : Token} {ts : List Token} : Blank ws → Written t s → NoGlue t s r → Spells ts r →
      Spells (t :: ts) (ws ++ (s ++ r))

/-- `SpellsTo ts text rest`: `text` is the tokens `ts` written one after the other, with optional whitespace before
each, followed by `rest`. -/
inductive SpellsTo : List Token → Str → Str → Prop
  | done {r : Str} : SpellsTo [] r r
  | tok {ws s r rest : Str} {t : Token} {ts : List Token} : Blank ws → Written t s → NoGlue t s r → SpellsTo ts r rest →
      SpellsTo (t :: ts) (ws ++ (s ++ r)) rest

/-- `text` starts with the token `t`, after optional whitespace. -/
def StartsWith (t : Token) (text : Str) : Prop := ∃ r, SpellsTo [t] text r

/-- `body` is `text`, or `text` without a leading `=`. -/
def Body (text body : Str) : Prop :=
  body = text ∨ ∃ ws, (∀ c ∈ ws, Str.isWs c = true) ∧ text = ws ++ '=' :: body

/-- The program `e; es…` can be written as `text`. -/
def ProgText (e : Src) (es : List Src) (text : Str) : Prop := Spells (progToks e es) text

/-- Two parses have the same outcome: the same tree, the same error (up to its position), or the same panic. -/
def SameParse : Res Expr → Res Expr → Prop
  | .ok a, .ok b => a = b
  | .error (.err m x _), .error (.err m' x' _) => m = m' ∧ x = x'
  | .error (.panic w), .error (.panic w') => w = w'
  | _, _ => False

mutual
/-- A tree with every function name in upper case and every method and type name in lower case; everything
else, in particular variables, properties and object keys, is left alone. -/
def Src.canon : Src → Src
  | .un op e => .un op e.canon
  | .bin l op r => .bin l.canon op r.canon
  | .tern c t e => .tern c.canon t.canon e.canon
  | .assign x v => .assign x v.canon
  | .call name args => .call (name.map Str.asciiUpC) (canonArgs args)
  | .arr items => .arr (canonItems items)
  | .obj ms c => .obj (canonMembers ms) c
  | .paren e => .paren e.canon
  | .prop t p => .prop t.canon p
  | .safeProp t p => .safeProp t.canon p
  | .meth t name args => .meth t.canon (name.map Str.asciiLowC) (canonArgs args)
  | .pred t name => .pred t.canon (name.map Str.asciiLowC)
  | .safeMeth t name args => .safeMeth t.canon (name.map Str.asciiLowC) (canonArgs args)
  | .index t i => .index t.canon i.canon
  | .slice t a b => .slice t.canon (canonOpt a) (canonOpt b)
  | .cast e ty name h => .cast e.canon ty (name.map Str.asciiLowC) (by
      unfold IsTypeName at *
      rw [List.map_map]
      have : Str.asciiLowC ∘ Str.asciiLowC = Str.asciiLowC := funext Str.asciiLowC_idem
      rw [this]; exact h)
  | e => e
/-- Arguments. -/
def canonArgs : List (Bool × Src) → List (Bool × Src)
  | [] => []
  | (sp, e) :: rest => (sp, e.canon) :: canonArgs rest
/-- Array items. -/
def canonItems : List Src → List Src
  | [] => []
  | e :: rest => e.canon :: canonItems rest
/-- Object members. -/
def canonMembers : List (Key × Src) → List (Key × Src)
  | [] => []
  | (k, e) :: rest => (k, e.canon) :: canonMembers rest
/-- An optional bound. -/
def canonOpt : Option Src → Option Src
  | none => none
  | some e => some e.canon
end

/-- The two trees differ at most in the case of function, method and type names. -/
def SameButCase (a b : Src) : Prop := a.canon = b.canon

/-- The literal for `s`: between quotes `q`, with a backslash before `q` and before a backslash. -/
def literal (q : Char) (s : Str) : Str :=
  q :: (s.flatMap (fun c => if c = q ∨ c = '\\' then ['\\', c] else [c]) ++ [q])

end Spec
