/-!
Strings. A Rust `str`/`String` is a sequence of Unicode scalar values; the model keeps
that sequence as a `List Char` (`Char` is exactly the type of Unicode scalar values).
-/

/-- A Rust string: its sequence of Unicode scalar values. -/
abbrev Str := List Char

open Lean in
/-- `c!"abc"` is the literal `['a','b','c']`. -/
macro:max "c!" s:str : term => do
  let cs := s.getString.toList.map fun c => (⟨(Syntax.mkCharLit c).raw⟩ : TSyntax `term)
  `(([$cs.toArray,*] : List Char))

namespace Str

/-- UTF-8 width of a scalar value (`char::len_utf8`, core library). -/
def width (c : Char) : Nat :=
  if c.val < 0x80 then 1 else if c.val < 0x800 then 2 else if c.val < 0x10000 then 3 else 4

/-- Byte length of a string (`str::len`, core library). -/
def byteLen : Str → Nat
  | [] => 0
  | c :: cs => width c + byteLen cs

/-- ASCII upper-casing of one character (`u8::to_ascii_uppercase`, core library). -/
def asciiUpC (c : Char) : Char :=
  if 'a' ≤ c ∧ c ≤ 'z' then Char.ofNat (c.toNat - 32) else c

/-- ASCII lower-casing of one character (`u8::to_ascii_lowercase`, core library). -/
def asciiLowC (c : Char) : Char :=
  if 'A' ≤ c ∧ c ≤ 'Z' then Char.ofNat (c.toNat + 32) else c

theorem char_range {c a b : Char} (h : a ≤ c ∧ c ≤ b) : ∃ n, a.toNat ≤ n ∧ n ≤ b.toNat ∧ c = Char.ofNat n := by
  refine ⟨c.toNat, h.1, h.2, ?_⟩
  rw [Char.ofNat_toNat]

theorem asciiLowC_idem (c : Char) : asciiLowC (asciiLowC c) = asciiLowC c := by
  by_cases h : 'A' ≤ c ∧ c ≤ 'Z'
  · obtain ⟨n, h1, h2, rfl⟩ := char_range h
    have : ∀ n, n ≤ 90 → 65 ≤ n → asciiLowC (asciiLowC (Char.ofNat n)) = asciiLowC (Char.ofNat n) := by decide
    exact this n h2 h1
  · have : asciiLowC c = c := by unfold asciiLowC; rw [if_neg h]
    rw [this, this]

theorem asciiUpC_idem (c : Char) : asciiUpC (asciiUpC c) = asciiUpC c := by
  by_cases h : 'a' ≤ c ∧ c ≤ 'z'
  · obtain ⟨n, h1, h2, rfl⟩ := char_range h
    have : ∀ n, n ≤ 122 → 97 ≤ n → asciiUpC (asciiUpC (Char.ofNat n)) = asciiUpC (Char.ofNat n) := by decide
    exact this n h2 h1
  · have : asciiUpC c = c := by unfold asciiUpC; rw [if_neg h]
    rw [this, this]

/-- `str::eq_ignore_ascii_case` (core library). -/
def eqIgnoreCase (a b : Str) : Bool := a.map asciiLowC == b.map asciiLowC

/-- `str::starts_with` / the test inside `strip_prefix` (core library). -/
def startsWith : Str → Str → Bool
  | _, [] => true
  | [], _ :: _ => false
  | c :: cs, p :: ps => c == p && startsWith cs ps

/-- `str::strip_prefix` (core library). -/
def stripPrefix : Str → Str → Option Str
  | s, [] => some s
  | [], _ :: _ => none
  | c :: cs, p :: ps => if c = p then stripPrefix cs ps else none

/-- `str::ends_with` (core library). -/
def endsWith (s p : Str) : Bool := startsWith s.reverse p.reverse

/-- `str::contains` for a string pattern (core library). -/
def contains (s p : Str) : Bool :=
  match s with
  | [] => p.isEmpty
  | c :: cs => startsWith (c :: cs) p || contains cs p

/-- Worker for `split` with a non-empty pattern: `acc` is the current piece reversed,
`skip` counts pattern characters still to be dropped. -/
def splitGo (p : Str) : Nat → Str → Str → List Str
  | _, acc, [] => [acc.reverse]
  | skip + 1, acc, _ :: cs => splitGo p skip acc cs
  | 0, acc, c :: cs =>
      if startsWith (c :: cs) p then acc.reverse :: splitGo p (p.length - 1) [] cs
      else splitGo p 0 (c :: acc) cs

/-- `str::split` for a string pattern (core library). The empty pattern matches between all
characters and at both ends, so it yields an empty piece first and last. -/
def split (s p : Str) : List Str :=
  if p.isEmpty then [] :: (s.map fun c => [c]) ++ [[]] else splitGo p 0 [] s

/-- `[String]::join` / `slice::join` (alloc library). -/
def join (sep : Str) : List Str → Str
  | [] => []
  | [a] => a
  | a :: b :: rest => a ++ sep ++ join sep (b :: rest)

/-- `str::replace` (alloc library): pieces between matches joined by the replacement. -/
def replace (s p r : Str) : Str := join r (split s p)

/-- Drop leading characters satisfying `ws` (`str::trim_start_matches`). -/
def trimStart (ws : Char → Bool) (s : Str) : Str := s.dropWhile ws

/-- `str::trim_matches` for a character predicate (core library). -/
def trim (ws : Char → Bool) (s : Str) : Str := ((s.dropWhile ws).reverse.dropWhile ws).reverse

/-- `str::contains` for a single character. -/
def hasChar (s : Str) (c : Char) : Bool := s.any (· == c)

end Str

namespace Str

/-- `<` on strings (core library): lexicographic on UTF-8 bytes, which coincides with
lexicographic order on scalar values. -/
def lt : Str → Str → Bool
  | _, [] => false
  | [], _ :: _ => true
  | a :: as, b :: bs => if a.val < b.val then true else if b.val < a.val then false else lt as bs

/-- `<=` on strings. -/
def le (a b : Str) : Bool := !lt b a

end Str

namespace Str

/-- `char::is_ascii`. -/
def isAscii (c : Char) : Bool := c.val < 0x80

/-- ASCII letters. -/
def asciiAlpha (c : Char) : Bool := ('a' ≤ c && c ≤ 'z') || ('A' ≤ c && c ≤ 'Z')

/-- ASCII digits (`char::is_ascii_digit`). -/
def asciiDigit (c : Char) : Bool := '0' ≤ c && c ≤ '9'

/-- ASCII letters and digits. -/
def asciiAlnum (c : Char) : Bool := asciiAlpha c || asciiDigit c

/-- `char::is_whitespace` (core library): the Unicode `White_Space` characters. -/
def isWs (c : Char) : Bool :=
  (0x9 ≤ c.val && c.val ≤ 0xD) || c.val == 0x20 || c.val == 0x85 || c.val == 0xA0 ||
  c.val == 0x1680 || (0x2000 ≤ c.val && c.val ≤ 0x200A) || c.val == 0x2028 || c.val == 0x2029 ||
  c.val == 0x202F || c.val == 0x205F || c.val == 0x3000

/-- `i64`/`usize` `Display` (`to_string`). -/
def showInt (i : Int) : Str := (toString i).toList

/-- `bool` `Display`. -/
def showBool (b : Bool) : Str := if b then c!"true" else c!"false"

/-- Byte offset of the `k`-th character, or the byte length when there is none. -/
def byteOffset : Str → Nat → Nat
  | [], _ => 0
  | _ :: _, 0 => 0
  | c :: cs, k + 1 => width c + byteOffset cs k

/-- The suffix starting at byte `b`; `none` when `b` is not a character boundary or past the end. -/
def dropBytes : Str → Nat → Option Str
  | s, 0 => some s
  | [], _ + 1 => none
  | c :: cs, b + 1 => if width c ≤ b + 1 then dropBytes cs (b + 1 - width c) else none

/-- The prefix ending at byte `b`; `none` when `b` is not a character boundary or past the end. -/
def takeBytes : Str → Nat → Option Str
  | _, 0 => some []
  | [], _ + 1 => none
  | c :: cs, b + 1 =>
      if width c ≤ b + 1 then (takeBytes cs (b + 1 - width c)).map (c :: ·) else none

/-- `&s[a..b]` in bytes; `none` is the panic of slicing outside character boundaries or with `a > b`. -/
def sliceBytes (s : Str) (a b : Nat) : Option Str :=
  if a ≤ b then
    match takeBytes s b with
    | none => none
    | some p => dropBytes p a
  else none

end Str
