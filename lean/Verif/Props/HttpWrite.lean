import Verif.Model.HttpWrite
import Verif.Props.HttpAuth
import Verif.Props.TcpServer
/-! C93: responses can be read back. -/

namespace HttpWrite

/-! ### Specification -/
namespace Spec

/-- A message is lines that are not empty, each ended by CR LF, an empty line and the body. -/
structure Framed (bytes : HttpRead.Bytes) (lines : List Str) (body : HttpRead.Bytes) : Prop where
  bytes : bytes = ((lines.flatMap fun l => l ++ c!"\r\n") ++ c!"\r\n").flatMap String.utf8EncodeChar ++ body
  lines : ∀ l ∈ lines, l ≠ [] ∧ '\r' ∉ l ∧ '\n' ∉ l

/-- The length a header line announces. -/
def announced (l : Str) : Option Nat :=
  if Str.startsWith l c!"Content-Length: " then some (Nat.ofDigitChars 10 (l.drop 16) 0) else none

end Spec

open HttpWrite.Spec

/-! ### Reading is unambiguous -/

theorem first_newline {a a' r r' : HttpRead.Bytes} (h : a ++ 10 :: r = a' ++ 10 :: r') (ha : (10 : UInt8) ∉ a) (ha' : (10 : UInt8) ∉ a') : a = a' ∧ r = r' := by
  induction a generalizing a' with
  | nil => cases a' with
    | nil => simpa using h
    | cons b a' =>
      simp only [List.nil_append, List.cons_append, List.cons.injEq] at h
      exact absurd (by simp [← h.1]) ha'
  | cons b a ih => cases a' with
    | nil =>
      simp only [List.nil_append, List.cons_append, List.cons.injEq] at h
      exact absurd (by simp [h.1]) ha
    | cons b' a' =>
      simp only [List.cons_append, List.cons.injEq] at h
      obtain ⟨h1, h2⟩ := ih h.2 (fun m => ha (by simp [m])) (fun m => ha' (by simp [m]))
      exact ⟨by rw [h.1, h1], h2⟩

theorem encode_inj {s t : Str} (h : s.flatMap String.utf8EncodeChar = t.flatMap String.utf8EncodeChar) : s = t := by
  have := HttpRead.utf8_of_encode s
  rw [h, HttpRead.utf8_of_encode] at this
  simpa using this.symm

theorem encode_line {l : Str} (h : '\n' ∉ l) : (10 : UInt8) ∉ (l ++ c!"\r").flatMap String.utf8EncodeChar := by
  simp only [List.mem_flatMap, not_exists, not_and]
  intro c hc
  refine Tcp.encode_newline ?_
  rintro rfl
  rcases List.mem_append.1 hc with hc | hc
  · exact h hc
  · simp at hc

theorem encode_crlf (l : Str) (t : Str) (r : HttpRead.Bytes) :
    (l ++ c!"\r\n" ++ t).flatMap String.utf8EncodeChar ++ r = (l ++ c!"\r").flatMap String.utf8EncodeChar ++ 10 :: (t.flatMap String.utf8EncodeChar ++ r) := by
  have : (l ++ c!"\r\n" ++ t) = (l ++ c!"\r") ++ (c!"\n" ++ t) := by simp
  rw [this, List.flatMap_append, List.append_assoc]
  rfl

/-- **C93.** There is only one way to read a message. -/
theorem C93_unambiguous {bytes : HttpRead.Bytes} {ls ls' : List Str} {body body' : HttpRead.Bytes} (h : Framed bytes ls body) (h' : Framed bytes ls' body') :
    ls = ls' ∧ body = body' := by
  obtain ⟨hb, hl⟩ := h
  obtain ⟨hb', hl'⟩ := h'
  rw [hb] at hb'
  clear hb bytes
  have e0 : ∀ b : HttpRead.Bytes, (([] : List Str).flatMap (fun l => l ++ c!"\r\n") ++ c!"\r\n").flatMap String.utf8EncodeChar ++ b =
      ([] ++ c!"\r").flatMap String.utf8EncodeChar ++ 10 :: b := by intro b; rfl
  have e1 : ∀ (l : Str) (ls : List Str) (b : HttpRead.Bytes), ((l :: ls).flatMap (fun l => l ++ c!"\r\n") ++ c!"\r\n").flatMap String.utf8EncodeChar ++ b =
      (l ++ c!"\r").flatMap String.utf8EncodeChar ++ 10 :: ((ls.flatMap (fun l => l ++ c!"\r\n") ++ c!"\r\n").flatMap String.utf8EncodeChar ++ b) := by
    intro l ls b
    rw [← encode_crlf, List.flatMap_cons, List.append_assoc]
  induction ls generalizing ls' with
  | nil => cases ls' with
    | nil =>
      rw [e0, e0] at hb'
      simpa using hb'
    | cons l' ls' =>
      rw [e0, e1] at hb'
      have := (first_newline hb' (encode_line (by simp)) (encode_line (hl' l' (by simp)).2.2)).1
      have := List.append_cancel_right (encode_inj this)
      exact absurd this.symm (hl' l' (by simp)).1
  | cons l ls ih => cases ls' with
    | nil =>
      rw [e0, e1] at hb'
      have := (first_newline hb' (encode_line (hl l (by simp)).2.2) (encode_line (by simp))).1
      have := List.append_cancel_right (encode_inj this)
      exact absurd this (hl l (by simp)).1
    | cons l' ls' =>
      rw [e1, e1] at hb'
      obtain ⟨h1, h2⟩ := first_newline hb' (encode_line (hl l (by simp)).2.2) (encode_line (hl' l' (by simp)).2.2)
      obtain ⟨h3, h4⟩ := ih (fun x hx => hl x (by simp [hx])) h2 (fun x hx => hl' x (by simp [hx]))
      exact ⟨by rw [List.append_cancel_right (encode_inj h1), h3], h4⟩

/-! ### Responses -/

/-- The lines of a response. -/
def linesOf (status : Nat) (contentType body : Str) : List Str :=
  [c!"HTTP/1.1 " ++ number status ++ c!" " ++ statusText status,
   c!"Access-Control-Allow-Origin: *",
   c!"Access-Control-Allow-Methods: GET, POST, PUT, DELETE, OPTIONS",
   c!"Access-Control-Allow-Headers: Content-Type, Authorization",
   c!"Content-Type: " ++ contentType,
   c!"Content-Length: " ++ number (encode body).length,
   c!"Connection: close"]

theorem number_plain (n : Nat) : '\r' ∉ number n ∧ '\n' ∉ number n := by
  constructor <;> intro h <;> exact absurd (Nat.isDigit_of_mem_toDigits (by decide) (by decide) h) (by decide)

theorem statusText_plain (n : Nat) : '\r' ∉ statusText n ∧ '\n' ∉ statusText n := by
  unfold statusText
  repeat' split
  all_goals decide

theorem lines_text (n r t l body : Str) :
    c!"HTTP/1.1 " ++ n ++ c!" " ++ r ++ c!"\r\n" ++ c!"Access-Control-Allow-Origin: *\r\n" ++
      c!"Access-Control-Allow-Methods: GET, POST, PUT, DELETE, OPTIONS\r\n" ++
      c!"Access-Control-Allow-Headers: Content-Type, Authorization\r\n" ++
      c!"Content-Type: " ++ t ++ c!"\r\n" ++ c!"Content-Length: " ++ l ++ c!"\r\n" ++ c!"Connection: close\r\n" ++ c!"\r\n" ++ body =
    ([c!"HTTP/1.1 " ++ n ++ c!" " ++ r, c!"Access-Control-Allow-Origin: *", c!"Access-Control-Allow-Methods: GET, POST, PUT, DELETE, OPTIONS",
      c!"Access-Control-Allow-Headers: Content-Type, Authorization", c!"Content-Type: " ++ t, c!"Content-Length: " ++ l, c!"Connection: close"].flatMap
      fun l => l ++ c!"\r\n") ++ c!"\r\n" ++ body := by
  have h1 : c!"Access-Control-Allow-Origin: *\r\n" = c!"Access-Control-Allow-Origin: *" ++ c!"\r\n" := by kernel_rfl
  have h2 : c!"Access-Control-Allow-Methods: GET, POST, PUT, DELETE, OPTIONS\r\n" = c!"Access-Control-Allow-Methods: GET, POST, PUT, DELETE, OPTIONS" ++ c!"\r\n" := by
    kernel_rfl
  have h3 : c!"Access-Control-Allow-Headers: Content-Type, Authorization\r\n" = c!"Access-Control-Allow-Headers: Content-Type, Authorization" ++ c!"\r\n" := by kernel_rfl
  have h4 : c!"Connection: close\r\n" = c!"Connection: close" ++ c!"\r\n" := by kernel_rfl
  rw [h1, h2, h3, h4]
  generalize c!"Access-Control-Allow-Origin: *" = a1
  generalize c!"Access-Control-Allow-Methods: GET, POST, PUT, DELETE, OPTIONS" = a2
  generalize c!"Access-Control-Allow-Headers: Content-Type, Authorization" = a3
  generalize c!"Connection: close" = a4
  generalize c!"HTTP/1.1 " = a5
  generalize c!"Content-Type: " = a6
  generalize c!"Content-Length: " = a7
  generalize c!"\r\n" = a8
  generalize c!" " = a9
  simp [List.append_assoc]

/-- **C93.** Whatever the body is, a reader of the response finds the status line with the status, one announcement of the length, which is the number of bytes of the body, and the
body, unchanged. -/
theorem C93_response (status : Nat) (contentType body : Str) (hc : '\r' ∉ contentType ∧ '\n' ∉ contentType) :
    ∃ first rest, Framed (response status contentType body) (first :: rest) (body.flatMap String.utf8EncodeChar) ∧
      (∃ reason, first = c!"HTTP/1.1 " ++ Nat.toDigits 10 status ++ c!" " ++ reason) ∧
      (c!"Content-Type: " ++ contentType) ∈ rest ∧ c!"Connection: close" ∈ rest ∧
      (first :: rest).filterMap announced = [(body.flatMap String.utf8EncodeChar).length] := by
  refine ⟨_, _, (⟨?_, ?_⟩ : Framed _ (linesOf status contentType body) _), ⟨statusText status, rfl⟩, by simp, by simp, ?_⟩
  · rw [← List.flatMap_append]
    exact congrArg (List.flatMap String.utf8EncodeChar) (lines_text _ _ _ _ _)
  · intro l hl
    simp only [linesOf, List.mem_cons, List.not_mem_nil, or_false] at hl
    have hn := number_plain status
    have hb := number_plain (encode body).length
    have hs := statusText_plain status
    rcases hl with rfl | rfl | rfl | rfl | rfl | rfl | rfl
    · simp [hn, hs]
    · decide
    · decide
    · decide
    · simp [hc]
    · simp [hb]
    · decide
  · have h1 : ∀ (a : Str), announced (c!"HTTP/1.1 " ++ a) = none := by intro a; simp [announced, Str.startsWith]
    have h5 : ∀ (a : Str), announced (c!"Content-Type: " ++ a) = none := by intro a; simp [announced, Str.startsWith]
    have h6 : announced (c!"Content-Length: " ++ number (encode body).length) = some (encode body).length := by
      have : ∀ a : Str, announced (c!"Content-Length: " ++ a) = some (Nat.ofDigitChars 10 a 0) := by
        intro a; simp [announced, Str.startsWith]
      rw [this]
      unfold number
      rw [Nat.ofDigitChars_toDigits (by decide) (by decide)]
    have h1' := h1 (number status ++ c!" " ++ statusText status)
    rw [← List.append_assoc, ← List.append_assoc] at h1'
    simp only [List.filterMap_cons, h1', h5, h6, List.filterMap_nil]
    rfl

/-- **C93.** The answer to a preflight request announces its empty body. -/
theorem C93_preflight : ∃ first rest, Framed preflight (first :: rest) [] ∧ first = c!"HTTP/1.1 200 OK" ∧ (first :: rest).filterMap announced = [0] := by
  refine ⟨c!"HTTP/1.1 200 OK", [c!"Access-Control-Allow-Origin: *", c!"Access-Control-Allow-Methods: GET, POST, PUT, DELETE, OPTIONS",
    c!"Access-Control-Allow-Headers: Content-Type, Authorization", c!"Content-Length: 0"], ⟨by rw [List.append_nil]; rfl, by decide⟩, rfl, by decide +kernel⟩

/-- The statuses the server uses. -/
def Spec.statuses : List Nat := [200, 400, 401, 404, 500]

def StatusOk (o : Http.Outcome) : Prop := ∀ r, o.1 = some r → r.status ∈ statuses

theorem reply_ok (s : Http.Site) {n : Nat} (h : n ∈ statuses) : StatusOk (Http.reply s n) := by
  intro r hr
  cases hr
  exact h

theorem none_ok (s : Http.Site) : StatusOk (none, s) := by
  intro r hr
  cases hr

theorem guarded_ok {α : Type} {s : Http.Site} {r : Res α} {e : Http.Outcome} {k : α → Http.Outcome} (he : StatusOk e) (hk : ∀ a, StatusOk (k a)) : StatusOk (Http.guarded s r e k) := by
  unfold Http.guarded
  split
  · exact hk _
  · exact he
  · exact none_ok s

theorem ite_ok {p : Prop} [Decidable p] {a b : Http.Outcome} (ha : StatusOk a) (hb : StatusOk b) : StatusOk (if p then a else b) := by
  by_cases h : p
  · rw [if_pos h]; exact ha
  · rw [if_neg h]; exact hb

theorem withToken_ok {X : Ext} {request : Str} {token : Option Str} {s : Http.Site} {k : Http.Outcome} (hk : StatusOk k) : StatusOk (Http.withToken X request token s k) := by
  unfold Http.withToken
  refine guarded_ok (reply_ok s (by decide)) fun ok => ?_
  exact ite_ok hk (reply_ok s (by decide))

theorem sendEval_ok (X : Ext) (s : Http.Site) (q : Http.EvalRequest) : StatusOk (Http.sendEval X s q) := by
  unfold Http.sendEval
  split
  · intro r hr
    cases hr
    simp only
    split <;> decide
  · exact none_ok _

theorem storeJs_ok (X : Ext) (H : Http.HttpExt) (cfg : Http.Config) (s : Http.Site) (f : Str) (c : Option Str) : StatusOk (Http.storeJs X H cfg s f c) := by
  unfold Http.storeJs
  split
  · exact reply_ok s (by decide)
  · refine guarded_ok (reply_ok s (by decide)) fun _ => ?_
    split <;> exact reply_ok _ (by decide)

/-- **C93.** Every answer has one of the five statuses with a reason phrase. -/
theorem C93_statuses (X : Ext) (H : Http.HttpExt) (cfg : Http.Config) (request : Str) (s : Http.Site) (r : Http.Reply) (h : (Http.handle X H cfg request s).1 = some r) :
    r.status ∈ statuses ∧ statusText r.status ≠ c!"Unknown" := by
  have key : StatusOk (Http.handle X H cfg request s) := by
    unfold Http.handle
    split
    · exact none_ok s
    · split
      · unfold Http.route
        have ok : StatusOk (Http.reply s 200) := reply_ok s (by decide)
        refine ite_ok ok <| ite_ok ok <| ite_ok ok <| ite_ok ok <| ite_ok ?_ <| ite_ok ?_ <| ite_ok ?_ <| ite_ok ?_ <| ite_ok ?_ <| ite_ok ?_ <| ite_ok ?_ <| ite_ok ?_ <|
          ite_ok ok (reply_ok s (by decide))
        · exact withToken_ok (guarded_ok (reply_ok s (by decide)) fun q => sendEval_ok X s q)
        · refine withToken_ok ?_
          split
          · exact ite_ok (reply_ok s (by decide)) (sendEval_ok _ _ _)
          · exact reply_ok s (by decide)
        · exact withToken_ok (guarded_ok (reply_ok s (by decide)) fun q => ite_ok (storeJs_ok _ _ _ _ _ _) (reply_ok s (by decide)))
        · exact withToken_ok (guarded_ok (reply_ok s (by decide)) fun q => ite_ok (reply_ok s (by decide)) (ite_ok (reply_ok s (by decide)) (storeJs_ok _ _ _ _ _ _)))
        · refine withToken_ok (guarded_ok (reply_ok s (by decide)) fun q => ite_ok (reply_ok s (by decide)) ?_)
          split <;> exact reply_ok _ (by decide)
        · exact withToken_ok (ite_ok (reply_ok s (by decide)) ok)
        · refine withToken_ok (ite_ok (ite_ok ?_ (reply_ok _ (by decide))) ?_)
          · split <;> exact reply_ok _ (by decide)
          · split <;> exact reply_ok _ (by decide)
        · exact withToken_ok (reply_ok _ (by decide))
      · exact reply_ok s (by decide)
  have := key r h
  refine ⟨this, ?_⟩
  simp only [statuses, List.mem_cons, List.not_mem_nil, or_false] at this
  rcases this with h | h | h | h | h <;> rw [h] <;> decide

/-- A body with wide characters: four characters, seven bytes. -/
example : ∃ ls, Framed (response 200 c!"application/json" c!"\"é€\"") ls (c!"\"é€\"".flatMap String.utf8EncodeChar) ∧ ls.filterMap announced = [7] := by
  obtain ⟨f, r, h, _, _, _, h'⟩ := C93_response 200 c!"application/json" c!"\"é€\"" (by decide)
  refine ⟨_, h, ?_⟩
  rw [h']
  decide +kernel
example (X : Ext) (H : Http.HttpExt) (s : Http.Site) : (Http.handle X H ⟨none, none, c!"hooks", []⟩ c!"GET /nothing HTTP/1.1\r\n\r\n" s).1 = some { status := 404 } := by
  kernel_rfl

end HttpWrite
