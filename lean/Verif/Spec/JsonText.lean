import Verif.Model.JsonText
/-! The JSON grammar (RFC 8259): what text stands for what document. -/

namespace JsonText.Spec

/-- Whitespace. -/
def Blank (s : Str) : Prop := ∀ c ∈ s, c = ' ' ∨ c = '\n' ∨ c = '\t' ∨ c = '\r'

/-- `c` is a hexadecimal digit of value `n`. -/
def HexDigit (n : Nat) (c : Char) : Prop := c!"0123456789abcdef"[n]? = some c ∨ c!"0123456789ABCDEF"[n]? = some c

/-- Four hexadecimal digits of value `n`. -/
inductive Hex4 : Nat → Str → Prop where
  | mk (n1 n2 n3 n4 : Nat) (c1 c2 c3 c4 : Char) : HexDigit n1 c1 → HexDigit n2 c2 → HexDigit n3 c3 → HexDigit n4 c4 →
      Hex4 (n1 * 4096 + n2 * 256 + n3 * 16 + n4) [c1, c2, c3, c4]

/-- The characters with an escape of one letter. -/
def shortEscapes : List (Char × Char) :=
  [('"', '"'), ('\\', '\\'), ('/', '/'), ('b', '\x08'), ('f', '\x0c'), ('n', '\n'), ('r', '\r'), ('t', '\t')]

/-- How a character can be written between quotes: as it is, with a short escape, by its code, or by a pair of codes. -/
inductive Writes : Char → Str → Prop where
  | plain (c : Char) : c ≠ '"' → c ≠ '\\' → 32 ≤ c.toNat → Writes c [c]
  | short (e c : Char) : (e, c) ∈ shortEscapes → Writes c ['\\', e]
  | code (c : Char) (ds : Str) : Hex4 c.toNat ds → Writes c ('\\' :: 'u' :: ds)
  | pair (c : Char) (hi lo : Nat) (d1 d2 : Str) : hi < 0x400 → lo < 0x400 → c.toNat = 0x10000 + hi * 0x400 + lo → Hex4 (0xD800 + hi) d1 →
      Hex4 (0xDC00 + lo) d2 → Writes c ('\\' :: 'u' :: (d1 ++ '\\' :: 'u' :: d2))

/-- `t` between quotes stands for the text `s`. -/
inductive Quoted : Str → Str → Prop where
  | nil : Quoted [] []
  | cons {c : Char} {s t u : Str} : Writes c t → Quoted s u → Quoted (c :: s) (t ++ u)

/-- At least one decimal digit, and nothing else. -/
def Digits (s : Str) : Prop := s ≠ [] ∧ ∀ c ∈ s, '0' ≤ c ∧ c ≤ '9'

/-- The digits before the point: no leading zeros. -/
def IntPart (s : Str) : Prop := Digits s ∧ (s.head? = some '0' → s = c!"0")

/-- An optional fraction. -/
inductive Fraction : Str → Prop where
  | none : Fraction []
  | some {ds : Str} : Digits ds → Fraction ('.' :: ds)

/-- An optional exponent. -/
inductive Exponent : Str → Prop where
  | none : Exponent []
  | some {c : Char} {sign ds : Str} : (c = 'e' ∨ c = 'E') → (sign = [] ∨ sign = c!"+" ∨ sign = c!"-") → Digits ds → Exponent (c :: (sign ++ ds))

/-- A number text. -/
def NumberText (t : Str) : Prop := ∃ sign ds f e, (sign = [] ∨ sign = c!"-") ∧ IntPart ds ∧ Fraction f ∧ Exponent e ∧ t = sign ++ (ds ++ (f ++ e))

/-- The integers that are kept exactly: those of 64 bits, with or without sign. -/
def Exact (i : Int) : Prop := -2 ^ 63 ≤ i ∧ i < 2 ^ 64

/-- `t` is the text of a number: of an integer of 64 bits in decimal, or else of what is read as a double. -/
inductive Number (N : Floats) : JNum → Str → Prop where
  | int (i : Int) : Exact i → Number N (.int i) (Str.showInt i)
  | float (x : F64) (t : Str) : NumberText t → (¬ ∃ i, Exact i ∧ t = Str.showInt i) → N.read t = some x → Number N (.float x) t

mutual
/-- `t` stands for `j` and opens at most `d` brackets and braces inside one another. -/
inductive Val (N : Floats) : Nat → Json → Str → Prop where
  | null (d : Nat) : Val N d .null c!"null"
  | yes (d : Nat) : Val N d (.bool true) c!"true"
  | no (d : Nat) : Val N d (.bool false) c!"false"
  | num (d : Nat) {n : JNum} {t : Str} : Number N n t → Val N d (.num n) t
  | str (d : Nat) {s t : Str} : Quoted s t → Val N d (.str s) ('"' :: (t ++ ['"']))
  | arr0 (d : Nat) {w : Str} : Blank w → Val N (d + 1) (.arr []) ('[' :: (w ++ [']']))
  | arr {d : Nat} {js : List Json} {t : Str} : Items N d js t → Val N (d + 1) (.arr js) ('[' :: (t ++ [']']))
  | obj0 (d : Nat) {w : Str} : Blank w → Val N (d + 1) (.obj []) ('{' :: (w ++ ['}']))
  | obj {d : Nat} {ms : List (Str × Json)} {t : Str} : Members N d ms t → Val N (d + 1) (.obj ms) ('{' :: (t ++ ['}']))
/-- Values separated by commas, with whitespace around them. -/
inductive Items (N : Floats) : Nat → List Json → Str → Prop where
  | one {d : Nat} {j : Json} {w1 t w2 : Str} : Blank w1 → Val N d j t → Blank w2 → Items N d [j] (w1 ++ (t ++ w2))
  | cons {d : Nat} {j : Json} {js : List Json} {w1 t w2 u : Str} : Blank w1 → Val N d j t → Blank w2 → Items N d js u →
      Items N d (j :: js) (w1 ++ (t ++ (w2 ++ ',' :: u)))
/-- Members separated by commas. -/
inductive Members (N : Floats) : Nat → List (Str × Json) → Str → Prop where
  | one {d : Nat} {k : Str} {j : Json} {w0 kt w1 w2 t w3 : Str} : Blank w0 → Quoted k kt → Blank w1 → Blank w2 → Val N d j t → Blank w3 →
      Members N d [(k, j)] (w0 ++ '"' :: (kt ++ '"' :: (w1 ++ ':' :: (w2 ++ (t ++ w3)))))
  | cons {d : Nat} {k : Str} {j : Json} {ms : List (Str × Json)} {w0 kt w1 w2 t w3 u : Str} : Blank w0 → Quoted k kt → Blank w1 → Blank w2 →
      Val N d j t → Blank w3 → Members N d ms u →
      Members N d ((k, j) :: ms) (w0 ++ '"' :: (kt ++ '"' :: (w1 ++ ':' :: (w2 ++ (t ++ (w3 ++ ',' :: u))))))
end

/-- The text `s` stands for `j`, nested at most `d` deep, members as they come. -/
def Text (N : Floats) (d : Nat) (j : Json) (s : Str) : Prop := ∃ w1 t w2, s = w1 ++ (t ++ w2) ∧ Blank w1 ∧ Val N d j t ∧ Blank w2

mutual
/-- How deeply brackets and braces are nested. -/
def depth : Json → Nat
  | .arr js => depthItems js + 1
  | .obj ms => depthMembers ms + 1
  | _ => 0
/-- The deepest element. -/
def depthItems : List Json → Nat
  | [] => 0
  | j :: js => max (depth j) (depthItems js)
/-- The deepest member. -/
def depthMembers : List (Str × Json) → Nat
  | [] => 0
  | (_, j) :: ms => max (depth j) (depthMembers ms)
end

/-- The double `x` is written as a number with a fraction or an exponent, which is read as `x`. -/
def FloatBack (N : Floats) (x : F64) : Prop :=
  NumberText (N.write x) ∧ (¬ ∃ i, Exact i ∧ N.write x = Str.showInt i) ∧ N.read (N.write x) = some x

mutual
/-- The documents that serde_json can hold and whose numbers survive: integers of 64 bits, doubles that are read back, members in the order of their names, none repeated. -/
inductive Sound (N : Floats) : Json → Prop where
  | null : Sound N .null
  | bool (b : Bool) : Sound N (.bool b)
  | int {i : Int} : Exact i → Sound N (.num (.int i))
  | float {x : F64} : FloatBack N x → Sound N (.num (.float x))
  | str (s : Str) : Sound N (.str s)
  | arr {js : List Json} : SoundItems N js → Sound N (.arr js)
  | obj {ms : List (Str × Json)} : SoundMembers N ms → (ms.map Prod.fst).Pairwise (fun a b => Str.lt a b = true) → Sound N (.obj ms)
/-- Element by element. -/
inductive SoundItems (N : Floats) : List Json → Prop where
  | nil : SoundItems N []
  | cons {j : Json} {js : List Json} : Sound N j → SoundItems N js → SoundItems N (j :: js)
/-- Member by member. -/
inductive SoundMembers (N : Floats) : List (Str × Json) → Prop where
  | nil : SoundMembers N []
  | cons {k : Str} {j : Json} {ms : List (Str × Json)} : Sound N j → SoundMembers N ms → SoundMembers N ((k, j) :: ms)
end

mutual
/-- The documents that can be written, in whatever order their members are: integers of 64 bits and doubles that are read back. -/
inductive Fits (N : Floats) : Json → Prop where
  | null : Fits N .null
  | bool (b : Bool) : Fits N (.bool b)
  | int {i : Int} : Exact i → Fits N (.num (.int i))
  | float {x : F64} : FloatBack N x → Fits N (.num (.float x))
  | str (s : Str) : Fits N (.str s)
  | arr {js : List Json} : FitsItems N js → Fits N (.arr js)
  | obj {ms : List (Str × Json)} : FitsMembers N ms → Fits N (.obj ms)
/-- Element by element. -/
inductive FitsItems (N : Floats) : List Json → Prop where
  | nil : FitsItems N []
  | cons {j : Json} {js : List Json} : Fits N j → FitsItems N js → FitsItems N (j :: js)
/-- Member by member. -/
inductive FitsMembers (N : Floats) : List (Str × Json) → Prop where
  | nil : FitsMembers N []
  | cons {k : Str} {j : Json} {ms : List (Str × Json)} : Fits N j → FitsMembers N ms → FitsMembers N ((k, j) :: ms)
end

end JsonText.Spec
