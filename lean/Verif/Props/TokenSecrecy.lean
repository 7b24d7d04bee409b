import Verif.Props.HttpAuth
import Verif.Model.Health
import Verif.Model.TcpServer
/-! C125: who does not have a token learns nothing about it from the answers. -/

namespace TokenSecrecy

open Http

/-! ### Specification -/
namespace Spec

/-- Two settings of a token that the request cannot tell apart: the same, or two tokens neither of which it carries. -/
def Blind (request : Str) (t t' : Option Str) : Prop :=
  t = t' ∨ ∃ a b, t = some a ∧ t' = some b ∧ a ≠ [] ∧ b ≠ [] ∧ ¬ _root_.Spec.FirstToken (Str.lines request) a ∧ ¬ _root_.Spec.FirstToken (Str.lines request) b

/-- A request of a history, with the world outside at that time and how long its evaluation takes. -/
structure Visit where
  X : Ext
  request : Str
  micros : Nat

/-- The answers to a history of requests, and the server afterwards. -/
def answers (H : HttpExt) (cfg : Config) : Health.Live → List Visit → List Health.Answer × Health.Live
  | l, [] => ([], l)
  | l, v :: vs =>
    let (a, l) := l.visit v.X H cfg v.request v.micros
    let (as, l) := answers H cfg l vs
    (a :: as, l)

end Spec

open TokenSecrecy.Spec

/-! ### Proofs -/

theorem passes_blind {X : Ext} (hX : _root_.Spec.LowersWords X) {request : Str} {t t' : Option Str} (h : Blind request t t') : passes X request t = passes X request t' := by
  rcases h with rfl | ⟨a, b, rfl, rfl, ha, hb, na, nb⟩
  · rfl
  · have key : ∀ c : Str, c ≠ [] → ¬ _root_.Spec.FirstToken (Str.lines request) c → passes X request (some c) = .ok false := by
      intro c hc nc
      obtain ⟨v, hv⟩ := (C54_passes X hX request c).1
      cases v with
      | false => exact hv
      | true =>
        rcases (C54_passes X hX request c).2.1 hv with h | ⟨h, _⟩
        · exact absurd h nc
        · exact absurd h hc
    rw [key a ha na, key b hb nb]

/-- The tokens matter only through the checks. -/
theorem handle_tokens (X : Ext) (H : HttpExt) (cfg : Config) (auth admin : Option Str) (request : Str) (s : Site)
    (h1 : passes X request cfg.authToken = passes X request auth) (h2 : passes X request cfg.adminToken = passes X request admin) :
    handle X H { cfg with authToken := auth, adminToken := admin } request s = handle X H cfg request s := by
  have w1 : ∀ k, withToken X request auth s k = withToken X request cfg.authToken s k := fun k => by simp only [withToken, h1]
  have w2 : ∀ k, withToken X request admin s k = withToken X request cfg.adminToken s k := fun k => by simp only [withToken, h2]
  have hs : ∀ fs n c, saveJs H { cfg with authToken := auth, adminToken := admin } fs n c = saveJs H cfg fs n c := fun _ _ _ => rfl
  have hd : ∀ fs n, deleteJs H { cfg with authToken := auth, adminToken := admin } fs n = deleteJs H cfg fs n := fun _ _ => rfl
  have hl : ∀ fs, loadJs H { cfg with authToken := auth, adminToken := admin } fs = loadJs H cfg fs := fun _ => rfl
  have hh : ∀ fs, hooksReadable { cfg with authToken := auth, adminToken := admin } fs = hooksReadable cfg fs := fun _ => rfl
  have hst : ∀ n c, storeJs X H { cfg with authToken := auth, adminToken := admin } s n c = storeJs X H cfg s n c := fun _ _ => rfl
  unfold handle
  cases Str.lines request with
  | nil => rfl
  | cons first rest =>
    simp only
    split
    · simp only [route, evalPost, evalGet, uploadJs, updateJs, deleteJsRequest, listJs, reloadHooks, clearCache, w1, w2, hd, hl, hh, hst]
    · rfl

/-- **C125.** Two HTTP servers that differ in their tokens only, and a history of any requests, each of which carries none of the tokens in which the servers differ: all answers are the same, with
the health reports, and so is all that the servers keep. So no number of requests tells anything about a token but that it is not one of those tried; and the holder of the token for evaluations
learns nothing about the other. -/
theorem C125_http (H : HttpExt) (cfg : Config) (auth admin : Option Str) (h : List Visit) (l : Health.Live) (hX : ∀ v ∈ h, _root_.Spec.LowersWords v.X)
    (hb : ∀ v ∈ h, Blind v.request cfg.authToken auth ∧ Blind v.request cfg.adminToken admin) :
    answers H { cfg with authToken := auth, adminToken := admin } l h = answers H cfg l h := by
  induction h generalizing l with
  | nil => rfl
  | cons v vs ih =>
    have hv := hb v (by simp)
    have e : l.visit v.X H { cfg with authToken := auth, adminToken := admin } v.request v.micros = l.visit v.X H cfg v.request v.micros := by
      simp only [Health.Live.visit]
      rw [handle_tokens v.X H cfg auth admin v.request l.site (passes_blind (hX v (by simp)) hv.1) (passes_blind (hX v (by simp)) hv.2)]
    simp only [answers, e]
    rw [ih _ (fun w hw => hX w (by simp [hw])) (fun w hw => hb w (by simp [hw]))]

/-! ### The TCP server -/

namespace Spec

/-- A line that carries neither of the two tokens. -/
def Without (decode : Str → Except Str Tcp.Request) (a b line : Str) : Prop := ∀ q, decode line = .ok q → q.token ≠ some a ∧ q.token ≠ some b

end Spec

theorem answer_blind (X : Ext) (decode : Str → Except Str Tcp.Request) (reg : Registry) (a b : Str) (ha : a ≠ []) (hb : b ≠ []) (line : Str) (id : Nat) (h : Without decode a b line) :
    Tcp.answer X ⟨decode, reg, some a⟩ line id = Tcp.answer X ⟨decode, reg, some b⟩ line id := by
  unfold Tcp.answer
  simp only
  cases hd : decode line with
  | error e => rfl
  | ok q =>
    have := h q hd
    have key : ∀ t : Str, t ≠ [] → q.token ≠ some t → q.token.getD [] ≠ t := by
      intro t ht hq
      cases hqt : q.token with
      | none => exact fun e => ht e.symm
      | some u => rw [hqt] at hq; simpa using hq
    simp only [ne_eq, key a ha this.1, key b hb this.2, not_false_eq_true, if_true]

/-- The lines a connection still has to answer. -/
def pending (P : Str → Prop) (c : Tcp.Conn) : Prop := (∀ line, some line ∈ c.todo → P line) ∧ (∀ line id, c.work = some (line, id) → P line)

theorem go_blind (X : Ext) (decode : Str → Except Str Tcp.Request) (reg : Registry) (a b : Str) (ha : a ≠ []) (hb : b ≠ []) (w : Bool) (n : Nat) (c : Tcp.Conn)
    (h : pending (Without decode a b) c) :
    c.go X ⟨decode, reg, some a⟩ w n = c.go X ⟨decode, reg, some b⟩ w n ∧ pending (Without decode a b) (c.go X ⟨decode, reg, some b⟩ w n).1 := by
  unfold Tcp.Conn.go
  cases c.ended with
  | some e => exact ⟨rfl, h⟩
  | none =>
    simp only
    cases hw : c.work with
    | some x =>
      obtain ⟨line, id⟩ := x
      simp only
      rw [answer_blind X decode reg a b ha hb line id (h.2 line id hw)]
      refine ⟨rfl, ?_⟩
      cases Tcp.answer X ⟨decode, reg, some b⟩ line id with
      | error e => exact ⟨h.1, by simp⟩
      | ok r => cases w <;> exact ⟨h.1, by simp⟩
    | none =>
      refine ⟨rfl, ?_⟩
      cases ht : c.todo with
      | nil => exact ⟨by simp, by simp⟩
      | cons l rest =>
        have hr : ∀ line, some line ∈ rest → Without decode a b line := fun line hl => h.1 line (by rw [ht]; simp [hl])
        cases l with
        | none => exact ⟨hr, by simp⟩
        | some line =>
          simp only
          by_cases he : (Str.strip line).isEmpty = true
          · rw [if_pos he]; exact ⟨hr, by simp⟩
          · rw [if_neg he]
            refine ⟨hr, ?_⟩
            intro line' id e
            cases e
            exact h.1 line (by rw [ht]; simp)

/-- **C125.** Two TCP servers that differ in their token only, and clients that send any lines, none of which carries one of the two tokens, under any schedule: all that is sent is the same. -/
theorem C125_tcp (decode : Str → Except Str Tcp.Request) (reg : Registry) (a b : Str) (ha : a ≠ []) (hb : b ≠ []) (h : List Tcp.Event)
    (hn : ∀ c, Tcp.Event.accept c ∈ h → ∀ line, some line ∈ Tcp.linesOf c → Without decode a b line) :
    Tcp.Server.after ⟨decode, reg, some a⟩ h = Tcp.Server.after ⟨decode, reg, some b⟩ h := by
  have key : ∀ (h : List Tcp.Event) (s : Tcp.Server), (∀ c ∈ s.conns, pending (Without decode a b) c) →
      (∀ c, Tcp.Event.accept c ∈ h → ∀ line, some line ∈ Tcp.linesOf c → Without decode a b line) →
      h.foldl (Tcp.Server.step ⟨decode, reg, some a⟩) s = h.foldl (Tcp.Server.step ⟨decode, reg, some b⟩) s := by
    intro h
    induction h with
    | nil => intros; rfl
    | cons e es ih =>
      intro s hs hn
      have hes : ∀ c, Tcp.Event.accept c ∈ es → ∀ line, some line ∈ Tcp.linesOf c → Without decode a b line := fun c hc => hn c (by simp [hc])
      simp only [List.foldl_cons]
      have step : Tcp.Server.step ⟨decode, reg, some a⟩ s e = Tcp.Server.step ⟨decode, reg, some b⟩ s e ∧
          ∀ c ∈ (Tcp.Server.step ⟨decode, reg, some b⟩ s e).conns, pending (Without decode a b) c := by
        cases e with
        | accept c =>
          refine ⟨rfl, fun d hd => ?_⟩
          simp only [Tcp.Server.step, List.mem_append, List.mem_singleton] at hd
          rcases hd with hd | rfl
          · exact hs d hd
          · exact ⟨hn c (by simp), by simp⟩
        | go i X w =>
          simp only [Tcp.Server.step]
          cases hi : s.conns[i]? with
          | none => exact ⟨rfl, hs⟩
          | some c =>
            obtain ⟨e1, e2⟩ := go_blind X decode reg a b ha hb w s.counter c (hs c (List.mem_of_getElem? hi))
            simp only [e1, true_and]
            intro d hd
            rcases List.mem_or_eq_of_mem_set hd with hd | rfl
            · exact hs d hd
            · exact e2
      rw [step.1]
      exact ih _ step.2 hes
  exact key h Tcp.Server.start (by simp [Tcp.Server.start]) hn

/-! ### Cases -/

/-- A request without the token, which sees a refusal. -/
example (X : Ext) (H : HttpExt) (s : Site) : Blind c!"GET /list-js HTTP/1.1\r\n\r\n" (some c!"a") (some c!"b") ∧
    handle X H ⟨none, some c!"a", c!"hooks", []⟩ c!"GET /list-js HTTP/1.1\r\n\r\n" s = (some { status := 401 }, s) := by
  have hl : Str.lines c!"GET /list-js HTTP/1.1\r\n\r\n" = [c!"GET /list-js HTTP/1.1", []] := by decide +kernel
  have hn : ∀ l ∈ [c!"GET /list-js HTTP/1.1", []], ∀ t, ¬ _root_.Spec.AuthLine l t := by
    rintro l hl t ⟨name, rest, hs, hn, _⟩
    have hlen : name.length = 14 := by simpa using congrArg List.length hn
    simp only [List.mem_cons, List.not_mem_nil, or_false] at hl
    have hname : name = (Str.strip l).take 14 := by rw [hs, ← hlen]; simp
    rcases hl with rfl | rfl
    · rw [hname] at hn; revert hn; unfold _root_.Spec.SameIgnoringCase; decide +kernel
    · rw [hname] at hn; revert hn; unfold _root_.Spec.SameIgnoringCase; decide +kernel
  refine ⟨.inr ⟨_, _, rfl, rfl, by simp, by simp, ?_, ?_⟩, by kernel_rfl⟩ <;>
  · rintro ⟨before, line, after, e, _, ha⟩
    rw [hl] at e
    exact hn line (by rw [e]; simp) _ ha

/-- What the conditions are for: the request that carries the token is answered differently. -/
example (X : Ext) (H : HttpExt) (s : Site) :
    (handle X H ⟨none, some c!"a", c!"hooks", []⟩ c!"DELETE /cache HTTP/1.1\r\nAuthorization: a\r\n\r\n" s).1 = some { status := 200 } ∧
    (handle X H ⟨none, some c!"b", c!"hooks", []⟩ c!"DELETE /cache HTTP/1.1\r\nAuthorization: a\r\n\r\n" s).1 = some { status := 401 } := ⟨by kernel_rfl, by kernel_rfl⟩

/-- A line without a token. -/
example : Without (fun _ => .ok ⟨c!"1", none, none, none⟩) c!"a" c!"b" c!"{\"expression\": \"1\"}" := by
  rintro q ⟨⟩; exact ⟨by simp, by simp⟩

end TokenSecrecy
