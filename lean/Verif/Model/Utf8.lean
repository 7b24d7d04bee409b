import Verif.Base.Str
/-! Bytes and UTF-8, and percent decoding. -/

namespace HttpRead

/-- A byte string. -/
abbrev Bytes := List UInt8

/-! ### UTF-8 -/

/-- Is `b` in the range `lo..=hi`? -/
def within (b : UInt8) (lo hi : Nat) : Bool := lo ≤ b.toNat && b.toNat ≤ hi

/-- The low six bits of a continuation byte. -/
def six (b : UInt8) : Nat := b.toNat % 64

/-- The allowed second bytes after the lead byte `a` of a sequence of three or four (`core::str::lossy`, the same table as `core::str::validations`). -/
def second (a : UInt8) : Nat × Nat :=
  if a.toNat = 0xE0 then (0xA0, 0xBF) else if a.toNat = 0xED then (0x80, 0x9F)
  else if a.toNat = 0xF0 then (0x90, 0xBF) else if a.toNat = 0xF4 then (0x80, 0x8F) else (0x80, 0xBF)

/-- Is the byte at the front of what follows a continuation byte in the given range? -/
def next (r : Nat × Nat) : Bytes → Bool
  | b :: _ => within b r.1 r.2
  | [] => false

/-- One character at the front of a non-empty byte string (`core::str::lossy`, `Utf8Chunks::next`): the character, or `none` for a malformed sequence, and how many bytes it takes. -/
def decode1 (a : UInt8) (rest : Bytes) : Option Char × Nat :=
  let cont : Nat × Nat := (0x80, 0xBF)
  let at_ := fun k => (rest.getD k 0)
  if a.toNat < 0x80 then (some (Char.ofNat a.toNat), 1)
  else if within a 0xC2 0xDF then
    if next cont rest then (some (Char.ofNat ((a.toNat % 32) * 64 + six (at_ 0))), 2) else (none, 1)
  else if within a 0xE0 0xEF then
    if next (second a) rest then
      if next cont (rest.drop 1) then (some (Char.ofNat ((a.toNat % 16) * 4096 + six (at_ 0) * 64 + six (at_ 1))), 3)
      else (none, 2)
    else (none, 1)
  else if within a 0xF0 0xF4 then
    if next (second a) rest then
      if next cont (rest.drop 1) then
        if next cont (rest.drop 2) then
          (some (Char.ofNat ((a.toNat % 8) * 262144 + six (at_ 0) * 4096 + six (at_ 1) * 64 + six (at_ 2))), 4)
        else (none, 3)
      else (none, 2)
    else (none, 1)
  else (none, 1)

/-- Worker for the two decoders: `skip` counts bytes of a sequence that has been read already. -/
def decodeGo : Nat → Bytes → List (Option Char)
  | _, [] => []
  | skip + 1, _ :: bs => decodeGo skip bs
  | 0, b :: bs => (decode1 b bs).1 :: decodeGo ((decode1 b bs).2 - 1) bs

/-- `String::from_utf8` (alloc library). -/
def utf8 (bs : Bytes) : Option Str := (decodeGo 0 bs).mapM id

/-- `String::from_utf8_lossy` (alloc library). -/
def utf8Lossy (bs : Bytes) : Str := (decodeGo 0 bs).map (·.getD '�')

/-! ### Percent decoding -/

/-- `from_hex_digit` of the crate `urlencoding`. -/
def hexVal (c : Char) : Option Nat :=
  match (c!"0123456789ABCDEF").findIdx? (· == c) with
  | some n => some n
  | none => (c!"abcdef").findIdx? (· == c) |>.map (· + 10)

/-- `decode_binary` of the crate `urlencoding` (2.1): the bytes an encoded text stands for; a `%` that is not followed by two hexadecimal digits is left as it is.
The first argument counts the digits still to be passed over. -/
def pctBytes : Nat → Str → Bytes
  | _, [] => []
  | k + 1, _ :: s => pctBytes k s
  | 0, c :: s =>
    if c = '%' then
      match s.head?.bind hexVal, s.tail.head?.bind hexVal with
      | some a, some b => UInt8.ofNat (16 * a + b) :: pctBytes 2 s
      | _, _ => 37 :: pctBytes 0 s
    else String.utf8EncodeChar c ++ pctBytes 0 s

/-- `urlencoding::decode` as called by `src/bin/http_server/eval.rs:70`: the text, unless the decoded bytes are not UTF-8. -/
def urlDecode (s : Str) : Option Str := utf8 (pctBytes 0 s)

end HttpRead
