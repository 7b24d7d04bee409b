import Verif.Lemmas.Utf8
import Verif.Props.HttpForms
import Verif.Base.KernelRfl
/-! C58, C67: reading requests from sockets. -/

namespace HttpRead

/-! ### Specification -/
namespace Spec

/-- An empty line (`\r\n\r\n`) begins at byte `p`. -/
def EmptyLineAt (s : Bytes) (p : Nat) : Prop := (s.drop p).take 4 = [13, 10, 13, 10]

/-- The headers end at byte `p`: the first empty line is there. -/
def HeadersEndAt (s : Bytes) (p : Nat) : Prop := EmptyLineAt s p ∧ ∀ q < p, ¬ EmptyLineAt s q

/-- The limit: one megabyte. -/
def limit : Nat := 1048576

/-- The request is whole: headers, and as many bytes after them as they announce. -/
def Whole (X : Ext) (s : Bytes) : Prop := ∃ p, HeadersEndAt s p ∧ p + 4 + contentLength X (utf8Lossy (s.take p)) ≤ s.length

/-- Nothing is sent beyond what the headers announce. -/
def NothingMore (X : Ext) (s : Bytes) : Prop := ∀ p, HeadersEndAt s p → s.length ≤ p + 4 + contentLength X (utf8Lossy (s.take p))

/-- The request respects the limits: its size and the announced size of its body. -/
def WithinLimits (X : Ext) (s : Bytes) : Prop :=
  s.length ≤ limit ∧ ∀ p, HeadersEndAt s p → contentLength X (utf8Lossy (s.take p)) ≤ limit

/-- The bytes of a text. -/
def bytesOf (t : Str) : Bytes := t.flatMap String.utf8EncodeChar

end Spec

open HttpRead.Spec

/-! ### The end of the headers -/

theorem emptyLine_length {s : Bytes} {p : Nat} (h : EmptyLineAt s p) : p + 4 ≤ s.length := by
  have := congrArg List.length h
  simp at this
  omega

theorem emptyLine_prefix {b : Bytes} (r : Bytes) {q : Nat} (h : q + 4 ≤ b.length) : EmptyLineAt (b ++ r) q ↔ EmptyLineAt b q := by
  unfold EmptyLineAt
  rw [List.drop_append_of_le_length (by omega), List.take_append_of_le_length (by simp; omega)]

theorem headersEnd_prefix {b : Bytes} (r : Bytes) {p : Nat} (h : HeadersEndAt b p) : HeadersEndAt (b ++ r) p := by
  have hl := emptyLine_length h.1
  refine ⟨(emptyLine_prefix r hl).2 h.1, fun q hq hq' => h.2 q hq ((emptyLine_prefix r (by omega)).1 hq')⟩

theorem headersEnd_unique {s : Bytes} {p q : Nat} (hp : HeadersEndAt s p) (hq : HeadersEndAt s q) : p = q := by
  rcases Nat.lt_trichotomy p q with h | h | h
  · exact absurd hp.1 (hq.2 p h)
  · exact h
  · exact absurd hq.1 (hp.2 q h)

theorem headersEnd_spec (s : Bytes) :
    (∀ p, headersEnd s = some p → HeadersEndAt s p) ∧ (headersEnd s = none → ∀ p, ¬ EmptyLineAt s p) := by
  induction s with
  | nil => exact ⟨fun p h => by simp [headersEnd] at h, fun _ p h => by simp [EmptyLineAt] at h⟩
  | cons b bs ih =>
    unfold headersEnd
    by_cases h : (b :: bs).take 4 = [13, 10, 13, 10]
    · rw [if_pos h]
      refine ⟨fun p hp => ?_, fun hn => by simp at hn⟩
      obtain rfl : 0 = p := by simpa using hp
      exact ⟨h, fun q hq => by omega⟩
    · rw [if_neg h]
      refine ⟨fun p hp => ?_, fun hn p hp => ?_⟩
      · cases e : headersEnd bs with
        | none => rw [e] at hp; simp at hp
        | some p' =>
          rw [e] at hp
          obtain rfl : p' + 1 = p := by simpa using hp
          have := ih.1 p' e
          refine ⟨this.1, fun q hq hq' => ?_⟩
          cases q with
          | zero => exact h hq'
          | succ q => exact this.2 q (by omega) hq'
      · cases e : headersEnd bs with
        | some p' => rw [e] at hn; simp at hn
        | none =>
          cases p with
          | zero => exact h hp
          | succ p => exact ih.2 e p hp

/-! ### The loops -/

/-- What the first loop can give. -/
def HeadOk (X : Ext) (closes : Bool) (s : Bytes) : Except ReadErr Head → Prop
  | .ok h => h.buf ++ h.rest = s ∧ h.buf.length ≤ maxSize ∧
      ((∃ p, HeadersEndAt s p ∧ h.start = p + 4 ∧ h.length = contentLength X (utf8Lossy (s.take p)) ∧ h.length ≤ maxSize ∧
          p + 4 ≤ h.buf.length ∧ h.buf.length < p + 4 + 4096) ∨
       ((∀ p, ¬ EmptyLineAt s p) ∧ closes = true ∧ h.rest = [] ∧ h.length = 0 ∧ h.start = 0))
  | .error .io => closes = false ∧ ∀ p, ¬ EmptyLineAt s p
  | .error .requestTooLarge => maxSize < s.length
  | .error .bodyTooLarge => ∃ p, HeadersEndAt s p ∧ maxSize < contentLength X (utf8Lossy (s.take p))
  | .error _ => False

theorem take1_length {want : Schedule} {k cap : Nat} {b : UInt8} {bs : Bytes} (hc : 0 < cap) :
    0 < (take1 want k cap (b :: bs)).length ∧ (take1 want k cap (b :: bs)).length ≤ cap ∧
      (take1 want k cap (b :: bs)).length ≤ (b :: bs).length := by
  unfold take1
  rw [List.length_take]
  simp only [List.length_cons]
  omega

theorem take1_append {want : Schedule} {k cap : Nat} {rest : Bytes} :
    take1 want k cap rest ++ rest.drop (take1 want k cap rest).length = rest := by
  unfold take1
  generalize min cap (want k + 1) = n
  rw [List.length_take]
  by_cases h : n ≤ rest.length
  · rw [Nat.min_eq_left h, List.take_append_drop]
  · rw [Nat.min_eq_right (by omega), List.drop_length, List.append_nil, List.take_of_length_le (by omega)]

theorem readHead_ok (X : Ext) (want : Schedule) (closes : Bool) (fuel k : Nat) (buf rest : Bytes)
    (hf : rest.length < fuel) (hb : ∀ p, ¬ EmptyLineAt buf p) (hl : buf.length ≤ maxSize) :
    HeadOk X closes (buf ++ rest) (readHead X want closes fuel k buf rest) := by
  induction fuel generalizing k buf rest with
  | zero => omega
  | succ fuel ih =>
    unfold readHead
    cases rest with
    | nil =>
      simp only
      rw [List.append_nil]
      cases closes
      · exact ⟨rfl, hb⟩
      · exact ⟨by simp, hl, Or.inr ⟨hb, rfl, rfl, rfl, rfl⟩⟩
    | cons b bs =>
      simp only
      have hg := take1_length (want := want) (k := k) (cap := 4096) (b := b) (bs := bs) (by omega)
      have ha := take1_append (want := want) (k := k) (cap := 4096) (rest := b :: bs)
      generalize take1 want k 4096 (b :: bs) = got at hg ha
      have hs : buf ++ (b :: bs) = (buf ++ got) ++ (b :: bs).drop got.length := by rw [List.append_assoc, ha]
      by_cases h1 : (buf ++ got).length > maxSize
      · rw [if_pos h1, hs]
        show maxSize < _
        rw [List.length_append]
        omega
      · rw [if_neg h1]
        cases h2 : headersEnd (buf ++ got) with
        | none =>
          simp only
          rw [hs]
          exact ih _ _ _ (by simp only [List.length_drop, List.length_cons] at hf hg ⊢; omega) ((headersEnd_spec _).2 h2) (by omega)
        | some pos =>
          simp only
          have he := (headersEnd_spec _).1 pos h2
          have hel := emptyLine_length he.1
          have hes := headersEnd_prefix ((b :: bs).drop got.length) he
          have ht : (buf ++ got).take pos = (buf ++ (b :: bs)).take pos := by
            conv => rhs; rw [hs, List.take_append_of_le_length (by omega)]
          rw [ht]
          by_cases h3 : contentLength X (utf8Lossy ((buf ++ (b :: bs)).take pos)) > maxSize
          · rw [if_pos h3]
            exact ⟨pos, hs ▸ hes, h3⟩
          · rw [if_neg h3]
            refine ⟨hs.symm, by simp only; omega, Or.inl ⟨pos, hs ▸ hes, rfl, rfl, by simp only; omega, hel, ?_⟩⟩
            -- the empty line is not within what was read before
            have : buf.length < pos + 4 := by
              refine Nat.not_le.1 fun hc => ?_
              exact hb pos ((emptyLine_prefix got (by omega)).1 he.1)
            simp only [List.length_append]
            omega

/-- What the second loop can give. -/
def BodyOk (closes : Bool) (left : Nat) (buf rest : Bytes) : Except ReadErr Bytes → Prop
  | .ok all => all = buf ++ rest.take left ∧ all.length ≤ maxSize ∧ (rest.length < left → closes = true)
  | .error .io => closes = false ∧ rest.length < left
  | .error .exceeded => maxSize < (buf ++ rest.take left).length
  | .error _ => False

theorem readBody_ok (want : Schedule) (closes : Bool) (fuel k left : Nat) (buf rest : Bytes)
    (hf : rest.length < fuel) (hl : buf.length ≤ maxSize) :
    BodyOk closes left buf rest (readBody want closes fuel k left buf rest) := by
  induction fuel generalizing k left buf rest with
  | zero => omega
  | succ fuel ih =>
    unfold readBody
    by_cases h0 : left = 0
    · rw [if_pos h0]
      subst h0
      exact ⟨by simp, hl, fun h => by omega⟩
    rw [if_neg h0]
    cases rest with
    | nil =>
      simp only
      cases closes
      · exact ⟨rfl, by simp only [List.length_nil]; omega⟩
      · exact ⟨by simp, hl, fun _ => rfl⟩
    | cons b bs =>
      simp only
      have hg := take1_length (want := want) (k := k) (cap := min 8192 left) (b := b) (bs := bs) (by omega)
      have ha := take1_append (want := want) (k := k) (cap := min 8192 left) (rest := b :: bs)
      generalize take1 want k (min 8192 left) (b :: bs) = got at hg ha
      have hs : buf ++ (b :: bs).take left = (buf ++ got) ++ ((b :: bs).drop got.length).take (left - got.length) := by
        rw [List.append_assoc]
        congr 1
        conv => lhs; rw [← ha]
        rw [List.take_append, List.take_of_length_le (by omega)]
      by_cases h1 : (buf ++ got).length > maxSize
      · rw [if_pos h1]
        show maxSize < _
        rw [hs, List.length_append]
        omega
      · rw [if_neg h1]
        have := ih (k + 1) (left - got.length) (buf ++ got) ((b :: bs).drop got.length)
          (by simp only [List.length_drop, List.length_cons] at hf hg ⊢; omega) (by omega)
        generalize readBody want closes fuel (k + 1) (left - got.length) (buf ++ got) ((b :: bs).drop got.length) = r at this
        unfold BodyOk at this ⊢
        rw [hs]
        simp only [List.length_drop] at this
        cases r with
        | ok all =>
          simp only at this ⊢
          exact ⟨this.1, this.2.1, fun h => this.2.2 (by omega)⟩
        | error e =>
          cases e <;> simp only at this ⊢
          · exact ⟨this.1, by omega⟩
          · exact this

/-! ### The request that is handed on -/

theorem maxSize_limit : maxSize = limit := rfl

/-- One reading, from an empty buffer: the bytes accepted, with the reasons for a refusal. -/
theorem read_cases (X : Ext) (want : Schedule) (c : Client) :
    (∃ m, (readRequest X want c []).1 = (match utf8 (c.bytes.take m) with | some s => .ok s | none => .error .notUtf8) ∧
      m ≤ c.bytes.length ∧ m ≤ limit ∧
      ((∃ p, HeadersEndAt c.bytes p ∧ contentLength X (utf8Lossy (c.bytes.take p)) ≤ limit ∧
          min c.bytes.length (p + 4 + contentLength X (utf8Lossy (c.bytes.take p))) ≤ m ∧
          (m ≤ p + 4 + contentLength X (utf8Lossy (c.bytes.take p)) ∨ m < p + 4 + 4096) ∧
          (c.bytes.length < p + 4 + contentLength X (utf8Lossy (c.bytes.take p)) → c.closes = true)) ∨
       ((∀ p, ¬ EmptyLineAt c.bytes p) ∧ c.closes = true ∧ m = c.bytes.length))) ∨
    (∃ e, (readRequest X want c []).1 = .error e ∧ ((c.closes = false ∧ ¬ Whole X c.bytes) ∨ ¬ WithinLimits X c.bytes)) := by
  have h1 := readHead_ok X want c.closes (c.bytes.length + 1) 0 [] c.bytes (by omega) (fun p h => by simp [EmptyLineAt] at h) (by simp)
  rw [List.nil_append] at h1
  unfold readRequest
  simp only [getBuffer]
  generalize readHead X want c.closes (c.bytes.length + 1) 0 [] c.bytes = rh at h1
  cases rh with
  | error e =>
    refine Or.inr ⟨e, rfl, ?_⟩
    cases e with
    | io => exact Or.inl ⟨h1.1, fun ⟨p, hp, _⟩ => h1.2 p hp.1⟩
    | requestTooLarge => exact Or.inr fun hw => absurd hw.1 (Nat.not_le.2 h1)
    | bodyTooLarge =>
      obtain ⟨p, hp, hn⟩ := h1
      exact Or.inr fun hw => absurd (hw.2 p hp) (Nat.not_le.2 hn)
    | exceeded => exact h1.elim
    | notUtf8 => exact h1.elim
  | ok h =>
    simp only
    have h2 := readBody_ok want c.closes (h.rest.length + 1) h.k (h.length - (h.buf.length - h.start)) h.buf h.rest (by omega) h1.2.1
    generalize readBody want c.closes (h.rest.length + 1) h.k (h.length - (h.buf.length - h.start)) h.buf h.rest = rb at h2
    obtain ⟨hs, hl, hc⟩ := h1
    have hlen : h.buf.length + h.rest.length = c.bytes.length := by rw [← hs, List.length_append]
    have htake : h.buf ++ h.rest.take (h.length - (h.buf.length - h.start)) =
        c.bytes.take (h.buf.length + min (h.length - (h.buf.length - h.start)) h.rest.length) := by
      rw [← hs]
      generalize h.length - (h.buf.length - h.start) = n
      rw [List.take_append, Nat.add_sub_cancel_left]
      rw [show h.buf.take (h.buf.length + min n h.rest.length) = h.buf from List.take_of_length_le (by omega)]
      congr 1
      by_cases hm : n ≤ h.rest.length
      · rw [Nat.min_eq_left hm]
      · rw [Nat.min_eq_right (by omega), List.take_of_length_le (by omega), List.take_of_length_le (by omega)]
    cases rb with
    | error e =>
      refine Or.inr ⟨e, rfl, ?_⟩
      cases e with
      | io =>
        refine Or.inl ⟨h2.1, fun ⟨p, hp, hw⟩ => ?_⟩
        rcases hc with ⟨q, hq, hst, hln, _, hq2, _⟩ | ⟨hn, _, hr, h0, _⟩
        · obtain rfl := headersEnd_unique hp hq
          have := h2.2
          omega
        · exact hn p hp.1
      | exceeded =>
        refine Or.inr fun hw => ?_
        have : maxSize < (h.buf ++ h.rest.take (h.length - (h.buf.length - h.start))).length := h2
        have := hw.1
        rw [htake, List.length_take] at *
        have := maxSize_limit
        omega
      | requestTooLarge => exact h2.elim
      | bodyTooLarge => exact h2.elim
      | notUtf8 => exact h2.elim
    | ok all =>
      obtain ⟨hall, hal, hclose⟩ := h2
      rw [htake] at hall
      refine Or.inl ⟨h.buf.length + min (h.length - (h.buf.length - h.start)) h.rest.length, by rw [← hall]; rfl, by omega, ?_, ?_⟩
      · rw [hall, List.length_take, maxSize_limit] at hal
        omega
      · rcases hc with ⟨p, hp, hst, hln, hmx, hp2, hp3⟩ | ⟨hn, hcl, hr, h0, _⟩
        · refine Or.inl ⟨p, hp, hln ▸ hmx, ?_, ?_, fun hlt => hclose ?_⟩
          · rw [← hln]; omega
          · rw [← hln]; omega
          · rw [← hln] at hlt; omega
        · refine Or.inr ⟨hn, hcl, ?_⟩
          have : h.rest.length = 0 := by rw [hr]; rfl
          omega

/-- C58: whatever the segmentation, an accepted request is the text of the first `m` bytes sent, `m` at most one megabyte; it has the headers and everything they announce (or all that was sent, if the client closes early), and at most 4095 bytes beyond. -/
theorem C58_received (X : Ext) (want : Schedule) (c : Client) (t : Str) (h : (readRequest X want c []).1 = .ok t) :
    ∃ m, bytesOf t = c.bytes.take m ∧ m ≤ c.bytes.length ∧ m ≤ limit ∧ Str.byteLen t = m ∧
      ∀ p, HeadersEndAt c.bytes p →
        min c.bytes.length (p + 4 + contentLength X (utf8Lossy (c.bytes.take p))) ≤ m ∧
        m ≤ p + 4 + max (contentLength X (utf8Lossy (c.bytes.take p))) 4095 := by
  rcases read_cases X want c with ⟨m, he, hm, hl, hc⟩ | ⟨e, he, _⟩
  · rw [he] at h
    cases hu : utf8 (c.bytes.take m) with
    | none => rw [hu] at h; simp at h
    | some s =>
      rw [hu] at h
      obtain rfl : s = t := by simpa using h
      have hb := utf8_encode hu
      refine ⟨m, hb, hm, hl, ?_, fun p hp => ?_⟩
      · rw [← encode_byteLen, hb, List.length_take]
        omega
      · rcases hc with ⟨q, hq, _, hmin, hmax, _⟩ | ⟨hn, _⟩
        · obtain rfl := headersEnd_unique hp hq
          omega
        · exact absurd hp.1 (hn p)
  · rw [he] at h
    simp at h

/-- C58: no request of more than one megabyte is accepted, and none whose headers announce a body of more. -/
theorem C58_limit (X : Ext) (want : Schedule) (c : Client) (t : Str) (h : (readRequest X want c []).1 = .ok t) :
    Str.byteLen t ≤ limit ∧ ∀ p, HeadersEndAt c.bytes p → contentLength X (utf8Lossy (c.bytes.take p)) ≤ limit := by
  refine ⟨?_, fun p hp => ?_⟩
  · obtain ⟨m, _, _, h1, h2, _⟩ := C58_received X want c t h
    omega
  · rcases read_cases X want c with ⟨m, he, hm, hl, hc⟩ | ⟨e, he, _⟩
    · rcases hc with ⟨q, hq, hlim, _⟩ | ⟨hn, _⟩
      · obtain rfl := headersEnd_unique hp hq
        exact hlim
      · exact absurd hp.1 (hn p)
    · rw [he] at h
      simp at h

open Classical in
/-- C58 for clients that send nothing beyond what their headers announce: the request handed to the router does not depend on the segmentation. It is the text of all bytes sent, if it is within the limits and is whole or the client has closed its side. Missing: clients that send more (`C58_depends`). -/
theorem C58_independent_partial (X : Ext) (want : Schedule) (c : Client) (hn : NothingMore X c.bytes) (t : Str) :
    (readRequest X want c []).1 = .ok t ↔
      bytesOf t = c.bytes ∧ WithinLimits X c.bytes ∧ (Whole X c.bytes ∨ c.closes = true) := by
  rcases read_cases X want c with ⟨m, he, hm, hl, hc⟩ | ⟨e, he, hr⟩
  · have hmlen : m = c.bytes.length := by
      rcases hc with ⟨p, hp, _, hmin, _⟩ | ⟨_, _, h⟩
      · have := hn p hp
        omega
      · exact h
    subst hmlen
    rw [List.take_length] at he
    rw [he]
    constructor
    · intro h
      refine ⟨?_, ⟨hl, fun p hp => ?_⟩, ?_⟩
      · cases hu : utf8 c.bytes with
        | none => rw [hu] at h; simp at h
        | some s =>
          rw [hu] at h
          obtain rfl : s = t := by simpa using h
          exact utf8_encode hu
      · rcases hc with ⟨q, hq, hlim, _⟩ | ⟨hnn, _⟩
        · obtain rfl := headersEnd_unique hp hq
          exact hlim
        · exact absurd hp.1 (hnn p)
      · rcases hc with ⟨q, hq, _, _, _, hcl⟩ | ⟨_, hcl, _⟩
        · by_cases hw : c.bytes.length < q + 4 + contentLength X (utf8Lossy (c.bytes.take q))
          · exact Or.inr (hcl hw)
          · exact Or.inl ⟨q, hq, by omega⟩
        · exact Or.inr hcl
    · rintro ⟨hb, _⟩
      have : utf8 c.bytes = some t := by
        rw [← hb]
        exact utf8_of_encode t
      rw [this]
  · rw [he]
    constructor
    · intro h; simp at h
    · rintro ⟨_, hw, hc⟩
      rcases hr with ⟨h1, h2⟩ | h
      · rcases hc with hc | hc
        · exact absurd hc h2
        · rw [hc] at h1; simp at h1
      · exact absurd hw h

/-- C58, as two segmentations compared. -/
theorem C58_same_partial (X : Ext) (want want' : Schedule) (c : Client) (hn : NothingMore X c.bytes) (t : Str) :
    (readRequest X want c []).1 = .ok t ↔ (readRequest X want' c []).1 = .ok t := by
  rw [C58_independent_partial X want c hn, C58_independent_partial X want' c hn]

/-- A request with a body of two bytes and three bytes more. -/
def pipelined : Bytes := bytesOf c!"POST /eval HTTP/1.1\r\nContent-Length: 2\r\n\r\n{}XYZ"

/-- C58 is false as stated: bytes sent beyond the announced body become part of it or not depending on the segmentation. -/
theorem C58_depends (X : Ext) :
    (readRequest X (fun _ => 4000) ⟨pipelined, true⟩ []).1 = .ok c!"POST /eval HTTP/1.1\r\nContent-Length: 2\r\n\r\n{}XYZ" ∧
    (readRequest X (fun _ => 0) ⟨pipelined, true⟩ []).1 = .ok c!"POST /eval HTTP/1.1\r\nContent-Length: 2\r\n\r\n{}" := by
  constructor
  · kernel_rfl
  · kernel_rfl

/-- Not vacuous: a whole request with nothing more, two segmentations. -/
example (X : Ext) :
    (readRequest X (fun _ => 4000) ⟨bytesOf c!"POST / HTTP/1.1\r\ncontent-length: 2\r\n\r\né", false⟩ []).1 = .ok c!"POST / HTTP/1.1\r\ncontent-length: 2\r\n\r\né" ∧
    (readRequest X (fun _ => 0) ⟨bytesOf c!"POST / HTTP/1.1\r\ncontent-length: 2\r\n\r\né", false⟩ []).1 = .ok c!"POST / HTTP/1.1\r\ncontent-length: 2\r\n\r\né" := by
  constructor
  · kernel_rfl
  · kernel_rfl

/-! ### Requests as clients write them -/
namespace Spec

/-- A header line: ASCII, not empty, without line ends. -/
def HeaderLine (l : Str) : Prop := l ≠ [] ∧ ∀ c ∈ l, Str.isAscii c = true ∧ c ≠ '\r' ∧ c ≠ '\n'

/-- The number written by decimal digits. -/
def decimal (ds : Str) : Nat := ds.foldl (fun n c => 10 * n + (c.toNat - '0'.toNat)) 0

/-- A request: its lines, an empty line, its body. -/
def requestText (ls : List Str) (body : Str) : Str := Str.join c!"\r\n" ls ++ c!"\r\n\r\n" ++ body

/-- The line begins with `Content-Length:`, in upper or lower case. -/
def NamesLength (l : Str) : Prop := ∃ name v, l = name ++ c!":" ++ v ∧ name.map Str.asciiLowC = c!"content-length"

end Spec

theorem bytesOf_append (a b : Str) : bytesOf (a ++ b) = bytesOf a ++ bytesOf b := by simp [bytesOf]

theorem bytesOf_ascii {l : Str} (h : ∀ c ∈ l, Str.isAscii c = true) : bytesOf l = l.map fun c => UInt8.ofNat c.toNat := by
  induction l with
  | nil => rfl
  | cons c l ih =>
    have : bytesOf (c :: l) = String.utf8EncodeChar c ++ bytesOf l := by simp [bytesOf]
    rw [this, encode_ascii (h c (by simp)), ih fun c hc => h c (by simp [hc])]
    rfl

theorem byte_ne {c d : Char} (hc : Str.isAscii c = true) (hd : d.toNat < 128) (h : c ≠ d) : UInt8.ofNat c.toNat ≠ UInt8.ofNat d.toNat := by
  intro he
  have h1 : c.toNat < 128 := by
    simp only [Str.isAscii, decide_eq_true_eq] at hc
    exact UInt32.lt_iff_toNat_lt.1 hc
  have := congrArg UInt8.toNat he
  rw [UInt8.toNat_ofNat', UInt8.toNat_ofNat', Nat.mod_eq_of_lt (by omega), Nat.mod_eq_of_lt (by omega)] at this
  apply h
  rw [← Char.ofNat_toNat c, ← Char.ofNat_toNat d, this]

theorem headerLine_bytes {l : Str} (h : HeaderLine l) : ∀ b ∈ bytesOf l, b ≠ 13 ∧ b ≠ 10 := by
  rw [bytesOf_ascii fun c hc => (h.2 c hc).1]
  intro b hb
  obtain ⟨c, hc, rfl⟩ := List.mem_map.1 hb
  obtain ⟨h1, h2, h3⟩ := h.2 c hc
  exact ⟨byte_ne (d := '\r') h1 (by decide) h2, byte_ne (d := '\n') h1 (by decide) h3⟩

theorem emptyLine_head {s : Bytes} {q : Nat} (h : EmptyLineAt s q) : s[q]? = some 13 ∧ s[q + 2]? = some 13 := by
  have e : ∀ k, k < 4 → s[q + k]? = ([13, 10, 13, 10] : Bytes)[k]? := by
    intro k hk
    rw [← h, List.getElem?_take_of_lt hk, List.getElem?_drop]
  exact ⟨by simpa using e 0 (by omega), by simpa using e 2 (by omega)⟩

/-- In a request the first empty line is the one after the header lines. -/
theorem headersEnd_request (ls : List Str) (hne : ls ≠ []) (hl : ∀ l ∈ ls, HeaderLine l) (rest : Bytes) :
    HeadersEndAt (bytesOf (Str.join c!"\r\n" ls) ++ ([13, 10, 13, 10] ++ rest)) (bytesOf (Str.join c!"\r\n" ls)).length := by
  refine ⟨?_, ?_⟩
  · unfold EmptyLineAt
    rw [List.drop_left]
    rfl
  · induction ls with
    | nil => exact absurd rfl hne
    | cons l ls ih =>
      intro q hq he
      have hlb := headerLine_bytes (hl l (by simp))
      have not_in : ∀ r : Bytes, q < (bytesOf l).length → (bytesOf l ++ r)[q]? ≠ some 13 := by
        intro r hlt hc
        rw [List.getElem?_append_left hlt] at hc
        exact (hlb 13 (List.mem_of_getElem? hc)).1 rfl
      cases ls with
      | nil => exact not_in _ hq (emptyLine_head he).1
      | cons l2 ls =>
        have hj : bytesOf (Str.join c!"\r\n" (l :: l2 :: ls)) = bytesOf l ++ ([13, 10] ++ bytesOf (Str.join c!"\r\n" (l2 :: ls))) := by
          show bytesOf (l ++ c!"\r\n" ++ _) = _
          rw [bytesOf_append, bytesOf_append, List.append_assoc]
          rfl
        rw [hj] at he hq
        rw [List.append_assoc] at he
        by_cases h1 : q < (bytesOf l).length
        · exact not_in _ h1 (emptyLine_head he).1
        · -- the first byte of the next line is not a carriage return
          obtain ⟨c, l2', hc⟩ : ∃ c l2', l2 = c :: l2' := by
            cases l2 with
            | nil => exact absurd rfl (hl [] (by simp)).1
            | cons c l2' => exact ⟨c, l2', rfl⟩
          have hj2 : ∃ r, bytesOf (Str.join c!"\r\n" (l2 :: ls)) = bytesOf l2 ++ r := by
            cases ls with
            | nil => exact ⟨[], by simp [Str.join]⟩
            | cons l3 ls => exact ⟨bytesOf c!"\r\n" ++ bytesOf (Str.join c!"\r\n" (l3 :: ls)), by
                show bytesOf (l2 ++ c!"\r\n" ++ _) = _
                rw [bytesOf_append, bytesOf_append, List.append_assoc]⟩
          obtain ⟨r, hr⟩ := hj2
          have hb2 := headerLine_bytes (hl l2 (by simp))
          obtain ⟨b, bs, hbs⟩ : ∃ b bs, bytesOf l2 = b :: bs := by
            rw [bytesOf_ascii fun c hc => ((hl l2 (by simp)).2 c hc).1, hc]
            exact ⟨_, _, rfl⟩
          have he2 : EmptyLineAt (13 :: 10 :: (bytesOf (Str.join c!"\r\n" (l2 :: ls)) ++ ([13, 10, 13, 10] ++ rest))) (q - (bytesOf l).length) := by
            unfold EmptyLineAt at he ⊢
            rw [List.drop_append, List.drop_eq_nil_of_le (by omega), List.nil_append] at he
            exact he
          have hq2 : q - (bytesOf l).length < 2 + (bytesOf (Str.join c!"\r\n" (l2 :: ls))).length := by
            rw [List.length_append, List.length_append] at hq
            simp only [List.length_cons, List.length_nil] at hq
            omega
          match hk : q - (bytesOf l).length, he2, hq2 with
          | 0, he2, _ =>
            have := (emptyLine_head he2).2
            rw [hr, hbs] at this
            exact (hb2 b (by rw [hbs]; simp)).1 (by simpa using this)
          | 1, he2, _ =>
            have := (emptyLine_head he2).1
            simp at this
          | k + 2, he2, hq2 => exact ih (by simp) (fun l' hl' => hl l' (by simp [hl'])) k (by omega) he2

theorem lines_headers (ls : List Str) (hl : ∀ l ∈ ls, HeaderLine l) : Str.lines (Str.join c!"\r\n" ls) = ls := by
  induction ls with
  | nil => rfl
  | cons l ls ih =>
    have h0 := hl l (by simp)
    cases ls with
    | nil => exact _root_.lines_single l (fun c hc => (h0.2 c hc).2.2) h0.1
    | cons l2 ls =>
      show Str.lines (l ++ c!"\r\n" ++ _) = _
      rw [_root_.lines_crlf l _ fun c hc => (h0.2 c hc).2.2, ih fun l' h' => hl l' (by simp [h'])]

theorem lower_headerLine (X : Ext) {l : Str} (h : HeaderLine l) : X.lower l = l.map Str.asciiLowC := by
  unfold Ext.lower
  rw [if_pos (by rw [List.all_eq_true]; exact fun c hc => (h.2 c hc).1)]

theorem lowC_colon {c : Char} (h : Str.isAscii c = true) (hc : Str.asciiLowC c = ':') : c = ':' := by
  have h1 : c.toNat < 128 := by
    simp only [Str.isAscii, decide_eq_true_eq] at h
    exact UInt32.lt_iff_toNat_lt.1 h
  have : ∀ n, n < 128 → Str.asciiLowC (Char.ofNat n) = ':' → Char.ofNat n = ':' := by decide
  have := this c.toNat h1
  rw [Char.ofNat_toNat] at this
  exact this hc

theorem namesLength_iff (X : Ext) {l : Str} (h : HeaderLine l) : Str.startsWith (X.lower l) c!"content-length:" = true ↔ NamesLength l := by
  rw [lower_headerLine X h, startsWith_iff]
  constructor
  · rintro ⟨t, ht⟩
    have hlen : 14 < l.length := by
      have := congrArg List.length ht
      simp at this
      omega
    have hl : l = l.take 14 ++ l.drop 14 := (List.take_append_drop 14 l).symm
    have h1 : (l.take 14).map Str.asciiLowC = c!"content-length" := by
      rw [List.map_take, ← ht]
      rfl
    obtain ⟨c, r, hr⟩ : ∃ c r, l.drop 14 = c :: r := by
      cases hd : l.drop 14 with
      | nil => have := congrArg List.length hd; simp at this; omega
      | cons c r => exact ⟨c, r, rfl⟩
    have h2 : Str.asciiLowC c = ':' := by
      have : (l.drop 14).map Str.asciiLowC = ':' :: t := by rw [List.map_drop, ← ht]; rfl
      rw [hr] at this
      simpa using (List.cons.inj this).1
    have hc : c ∈ l := by
      have : c ∈ l.drop 14 := by rw [hr]; simp
      exact List.mem_of_mem_drop this
    have := lowC_colon (h.2 c hc).1 h2
    subst this
    exact ⟨l.take 14, r, by rw [List.append_assoc]; conv => lhs; rw [hl, hr]
                            rfl, h1⟩
  · rintro ⟨name, v, rfl, hn⟩
    refine ⟨v.map Str.asciiLowC, ?_⟩
    rw [List.map_append, List.map_append, hn]
    rfl

theorem split_colon (name v : Str) (h : ∀ c ∈ name, c ≠ ':') (hv : ∀ c ∈ v, c ≠ ':') : (Str.split (name ++ c!":" ++ v) c!":")[1]? = some v := by
  have e : name ++ c!":" ++ v = name ++ ':' :: v := by simp
  rw [e, _root_.split_char_append ':' name v hv]
  have : ∀ (n acc : Str), (∀ x ∈ n, x ≠ ':') → Str.splitGo [':'] 0 acc n = [acc.reverse ++ n] := by
    intro n
    induction n with
    | nil => intro acc _; simp [Str.splitGo]
    | cons x n ih =>
      intro acc h
      have hx : (x == ':') = false := by simpa using h x (by simp)
      simp only [Str.splitGo, Str.startsWith, hx, Bool.false_and, Bool.false_eq_true, if_false]
      rw [ih _ fun y hy => h y (by simp [hy])]
      simp
  unfold Str.split
  simp only [List.isEmpty_cons, Bool.false_eq_true, if_false]
  rw [this name [] h]
  rfl

theorem digitsGo_decimal : ∀ (ds : Str) (n : Nat), (∀ c ∈ ds, Str.asciiDigit c = true) →
    Str.digitsGo n ds = some (ds.foldl (fun n c => 10 * n + (c.toNat - '0'.toNat)) n)
  | [], n, _ => rfl
  | c :: ds, n, h => by
    rw [Str.digitsGo, if_pos (h c (by simp)), digitsGo_decimal ds _ fun c hc => h c (by simp [hc])]
    rfl

theorem digit_facts {c : Char} (h : Str.asciiDigit c = true) : c ≠ '+' ∧ c ≠ ':' ∧ Str.isWs c = false := by
  simp only [Str.asciiDigit, Bool.and_eq_true, decide_eq_true_eq] at h
  obtain ⟨n, h1, h2, rfl⟩ := Str.char_range h
  have : ∀ n, n ≤ 57 → 48 ≤ n → Char.ofNat n ≠ '+' ∧ Char.ofNat n ≠ ':' ∧ Str.isWs (Char.ofNat n) = false := by decide
  exact this n h2 h1

theorem parse_decimal {ds : Str} (hne : ds ≠ []) (hd : ∀ c ∈ ds, Str.asciiDigit c = true) (hl : decimal ds < 2 ^ 64) :
    Str.parseUsize (Str.strip (' ' :: ds)) = some (decimal ds) := by
  have ht : Str.strip (' ' :: ds) = ds := by
    have := _root_.strip_pad [' '] ds [] (by simp; decide) (by simp) ?_
    · simpa using this
    · refine ⟨?_, ?_⟩
      · cases ds with
        | nil => exact absurd rfl hne
        | cons c ds => exact ⟨c, rfl, (digit_facts (hd c (by simp))).2.2⟩
      · exact ⟨ds.getLast hne, List.getLast?_eq_some_getLast hne, (digit_facts (hd _ (List.getLast_mem hne))).2.2⟩
  rw [ht]
  unfold Str.parseUsize
  cases ds with
  | nil => exact absurd rfl hne
  | cons c ds =>
    have h1 := (digit_facts (hd c (by simp))).1
    simp only
    split
    · rename_i h; exact absurd (List.cons.inj h).1 h1
    rw [digitsGo_decimal (c :: ds) 0 hd]
    simp only [List.isEmpty_cons, Bool.false_eq_true, if_false]
    exact if_pos hl

/-- The announced length of the body: the number in the first header line that names it. -/
theorem contentLength_headers (X : Ext) (before after : List Str) (name ds : Str)
    (hl : ∀ l ∈ before ++ (name ++ c!": " ++ ds) :: after, HeaderLine l) (hb : ∀ l ∈ before, ¬ NamesLength l)
    (hn : name.map Str.asciiLowC = c!"content-length") (hne : ds ≠ []) (hd : ∀ c ∈ ds, Str.asciiDigit c = true) (hs : decimal ds < 2 ^ 64) :
    contentLength X (Str.join c!"\r\n" (before ++ (name ++ c!": " ++ ds) :: after)) = decimal ds := by
  unfold contentLength
  rw [lines_headers _ hl]
  induction before with
  | nil =>
    have h0 := hl (name ++ c!": " ++ ds) (by simp)
    have he : name ++ c!": " ++ ds = name ++ c!":" ++ (' ' :: ds) := by simp
    rw [List.nil_append]
    unfold lengthOf
    rw [if_pos ((namesLength_iff X h0).2 ⟨name, ' ' :: ds, he, hn⟩), he, split_colon]
    · simp only
      rw [parse_decimal hne hd hs]
      rfl
    · intro c hc he
      subst he
      have : Str.asciiLowC ':' ∈ name.map Str.asciiLowC := List.mem_map_of_mem hc
      rw [hn] at this
      revert this
      decide
    · intro c hc
      rcases List.mem_cons.1 hc with rfl | hc
      · decide
      · exact (digit_facts (hd c hc)).2.1
  | cons l before ih =>
    rw [List.cons_append]
    unfold lengthOf
    rw [if_neg fun h => hb l (by simp) ((namesLength_iff X (hl l (by simp))).1 h)]
    exact ih (fun l' h' => hl l' (by simp only [List.cons_append, List.mem_cons]; exact Or.inr h')) fun l' h' => hb l' (by simp [h'])

/-- C58 for requests as clients write them: header lines, among them the length of the body, and a body of that length. However the bytes are split, the router gets exactly the request, if it is no larger than one megabyte. -/
theorem C58_standard (X : Ext) (want : Schedule) (closes : Bool) (before after : List Str) (name ds body : Str)
    (hl : ∀ l ∈ before ++ (name ++ c!": " ++ ds) :: after, HeaderLine l) (hb : ∀ l ∈ before, ¬ NamesLength l)
    (hn : name.map Str.asciiLowC = c!"content-length") (hne : ds ≠ []) (hd : ∀ c ∈ ds, Str.asciiDigit c = true)
    (hbody : decimal ds = Str.byteLen body)
    (hs : Str.byteLen (requestText (before ++ (name ++ c!": " ++ ds) :: after) body) ≤ limit) :
    (readRequest X want ⟨bytesOf (requestText (before ++ (name ++ c!": " ++ ds) :: after) body), closes⟩ []).1 =
      .ok (requestText (before ++ (name ++ c!": " ++ ds) :: after) body) := by
  generalize hls : before ++ (name ++ c!": " ++ ds) :: after = ls at *
  have hbytes : bytesOf (requestText ls body) = bytesOf (Str.join c!"\r\n" ls) ++ ([13, 10, 13, 10] ++ bytesOf body) := by
    unfold requestText
    rw [bytesOf_append, bytesOf_append, List.append_assoc]
    rfl
  have hend := headersEnd_request ls (by rw [← hls]; simp) hl (bytesOf body)
  rw [← hbytes] at hend
  have hlen : (bytesOf (requestText ls body)).length = (bytesOf (Str.join c!"\r\n" ls)).length + 4 + Str.byteLen body := by
    rw [hbytes, List.length_append, List.length_append, ← encode_byteLen body]
    simp only [bytesOf, List.length_cons, List.length_nil]
    omega
  have hbl : Str.byteLen (requestText ls body) = (bytesOf (requestText ls body)).length := (encode_byteLen _).symm
  have htake : (bytesOf (requestText ls body)).take (bytesOf (Str.join c!"\r\n" ls)).length = bytesOf (Str.join c!"\r\n" ls) := by
    rw [hbytes, List.take_left]
  have hcl : contentLength X (utf8Lossy ((bytesOf (requestText ls body)).take (bytesOf (Str.join c!"\r\n" ls)).length)) = Str.byteLen body := by
    rw [htake]
    unfold bytesOf
    rw [utf8Lossy_of_encode, ← hls, contentLength_headers X before after name ds (by rw [hls]; exact hl) hb hn hne hd, hbody]
    have : limit < 2 ^ 64 := by decide
    omega
  refine (C58_independent_partial X want _ ?_ _).2 ⟨rfl, ⟨by rw [← hbl]; exact hs, ?_⟩, Or.inl ⟨_, hend, by rw [hcl]; simp only; omega⟩⟩
  · intro p hp
    obtain rfl := headersEnd_unique hp hend
    simp only
    rw [hcl]
    omega
  · intro p hp
    obtain rfl := headersEnd_unique hp hend
    simp only
    rw [hcl]
    omega

/-- Not vacuous. -/
example (X : Ext) (want : Schedule) :
    (readRequest X want ⟨bytesOf c!"POST /eval HTTP/1.1\r\nHost: a\r\nContent-Length: 12\r\n\r\n{\"e\":\"1+é\"}", false⟩ []).1 =
      .ok c!"POST /eval HTTP/1.1\r\nHost: a\r\nContent-Length: 12\r\n\r\n{\"e\":\"1+é\"}" := by
  refine C58_standard X want false [c!"POST /eval HTTP/1.1", c!"Host: a"] [] c!"Content-Length" c!"12" c!"{\"e\":\"1+é\"}" ?_ ?_ (by decide) (by decide) (by decide) (by decide) (by decide)
  · unfold HeaderLine
    decide
  · intro l hl hn
    obtain ⟨name, v, rfl, hn⟩ := hn
    have h1 := congrArg (fun s => s.take 1) hn
    cases name with
    | nil => simp at hn
    | cons c name =>
      simp at hl h1
      rcases hl with ⟨rfl, _⟩ | ⟨rfl, _⟩ <;> revert h1 <;> decide

/-! ### Buffers are reused -/

/-- All pooled buffers are empty. -/
def Clean (p : Pool) : Prop := ∀ b ∈ p, b = []

theorem getBuffer_clean {p : Pool} (h : Clean p) : (getBuffer p).1 = [] ∧ Clean (getBuffer p).2 := by
  cases p with
  | nil => exact ⟨rfl, h⟩
  | cons b bs => exact ⟨h b (by simp), fun b' hb => h b' (by simp [getBuffer] at hb; simp [hb])⟩

theorem returnBuffer_clean {p : Pool} (h : Clean p) (b : Bytes) : Clean (returnBuffer p b) := by
  unfold returnBuffer
  split
  · intro b' hb
    simp at hb
    rcases hb with rfl | hb
    · rfl
    · exact h b' hb
  · exact h

theorem readRequest_clean (X : Ext) (want : Schedule) (c : Client) {p : Pool} (h : Clean p) :
    (readRequest X want c p).1 = (readRequest X want c []).1 ∧ Clean (readRequest X want c p).2 := by
  obtain ⟨h1, h2⟩ := getBuffer_clean h
  unfold readRequest
  generalize getBuffer p = g at h1 h2
  obtain ⟨buf, pool⟩ := g
  simp only at h1 h2
  subst h1
  simp only [getBuffer]
  cases readHead X want c.closes (c.bytes.length + 1) 0 [] c.bytes with
  | error e => exact ⟨rfl, h2⟩
  | ok hd =>
    simp only
    cases readBody want c.closes (hd.rest.length + 1) hd.k (hd.length - (hd.buf.length - hd.start)) hd.buf hd.rest with
    | error e => exact ⟨rfl, h2⟩
    | ok all => exact ⟨rfl, returnBuffer_clean h2 all⟩

/-- C67: whatever connections a thread has served before, a request is read as if it were the first: nothing of earlier requests gets into it. -/
theorem C67_no_leftovers (X : Ext) (jobs : List (Schedule × Client)) :
    (readAll X jobs []).1 = jobs.map fun j => (readRequest X j.1 j.2 []).1 := by
  suffices ∀ p, Clean p → (readAll X jobs p).1 = jobs.map fun j => (readRequest X j.1 j.2 []).1 from
    this [] (fun b hb => by simp at hb)
  induction jobs with
  | nil => exact fun p _ => rfl
  | cons j jobs ih =>
    intro p hp
    obtain ⟨want, c⟩ := j
    obtain ⟨h1, h2⟩ := readRequest_clean X want c hp
    simp only [readAll, List.map_cons]
    rw [ih _ h2, h1]

/-- Not vacuous: buffers are reused. -/
example (X : Ext) : (readRequest X (fun _ => 0) ⟨[97], true⟩ []).2 = [[]] := by kernel_rfl

end HttpRead
