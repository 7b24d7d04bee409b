import Verif.Model.TcpServer
import Verif.Lemmas.Utf8
import Verif.Base.KernelRfl
import Mathlib.Data.List.Forall2
import Mathlib.Data.List.Induction
/-! C61, C68: the line-based TCP server. -/

namespace Tcp

/-! ### Specification -/
namespace Spec

/-- The clients that have connected, in order: the `i`-th has connection `i`. -/
def clients (h : List Event) : List HttpRead.Client := h.filterMap fun
  | .accept c => some c
  | .go .. => none

/-- The lines that want an answer: those that are not blank. -/
def questions (ls : List (Option Str)) : List Str := (ls.filterMap id).filter fun l => !(Str.strip l).isEmpty

/-- The response answers the line: it is what the server computes for it, at a step of this connection. -/
def Answers (S : Setup) (h : List Event) (i : Nat) (line : Str) (r : Response) : Prop :=
  ∃ X w, Event.go i X w ∈ h ∧ answer X S line r.id = .ok r

/-- How often the handling of connection `i` went on. -/
def steps (h : List Event) (i : Nat) : Nat := h.countP fun
  | .go j _ _ => j = i
  | .accept _ => false

end Spec

open Tcp.Spec

/-! ### Histories -/

theorem after_snoc (S : Setup) (h : List Event) (e : Event) : Server.after S (h ++ [e]) = (Server.after S h).step S e := by
  simp [Server.after, List.foldl_append]

theorem answer_id {X : Ext} {S : Setup} {line : Str} {id : Nat} {r : Response} (h : answer X S line id = .ok r) : r.id = id := by
  have hp : ∀ q, process X S.reg q id = .ok r → r.id = id := by
    intro q hq
    unfold process at hq
    simp only at hq
    split at hq
    · simpa using (by simpa using hq : _ = r) ▸ rfl
    · simpa using (by simpa using hq : _ = r) ▸ rfl
    · simp at hq
  unfold answer at h
  cases hd : S.decode line with
  | error e =>
    rw [hd] at h
    simpa using (by simpa using h : _ = r) ▸ rfl
  | ok q =>
    rw [hd] at h
    cases ht : S.token with
    | none =>
      rw [ht] at h
      exact hp q h
    | some t =>
      rw [ht] at h
      simp only at h
      by_cases hq : q.token.getD [] ≠ t
      · rw [if_pos hq] at h
        simpa using (by simpa using h : _ = r) ▸ rfl
      · rw [if_neg hq] at h
        exact hp q h

/-- What holds of a connection whose client sent `full`. -/
def Inv (S : Setup) (h : List Event) (i : Nat) (full : List (Option Str)) (c : Conn) : Prop :=
  ∃ done ls, full = done ++ c.todo ∧ List.Forall₂ (Answers S h i) ls c.sent ∧
    match c.ended with
    | none => (∀ l ∈ done, l ≠ none) ∧ questions done = ls ++ (c.work.map (·.1)).toList
    | some .finished => (∀ l ∈ done, l ≠ none) ∧ questions done = ls ∧ c.todo = []
    | some .badLine => none ∈ full ∧ questions done = ls
    | some .panicked => ∃ l, questions done = ls ++ [l] ∧ ∃ X w id f, Event.go i X w ∈ h ∧ answer X S l id = .error f
    | some .writeFailed => ∃ l, questions done = ls ++ [l] ∧ ∃ X, Event.go i X false ∈ h

theorem Answers.mono {S : Setup} {h : List Event} {i : Nat} {l : Str} {r : Response} (e : Event) (ha : Answers S h i l r) : Answers S (h ++ [e]) i l r := by
  obtain ⟨X, w, h1, h2⟩ := ha
  exact ⟨X, w, by simp [h1], h2⟩

theorem Inv.mono {S : Setup} {h : List Event} {i : Nat} {full : List (Option Str)} {c : Conn} (e : Event) (hi : Inv S h i full c) : Inv S (h ++ [e]) i full c := by
  obtain ⟨done, ls, h1, h2, h3⟩ := hi
  refine ⟨done, ls, h1, h2.imp fun _ _ ha => Answers.mono e ha, ?_⟩
  match hE : c.ended, h3 with
  | none, h3 => exact h3
  | some .finished, h3 => exact h3
  | some .badLine, h3 => exact h3
  | some .panicked, ⟨l, hq, X, w, id, f, h4, h5⟩ => exact ⟨l, hq, X, w, id, f, by simp [h4], h5⟩
  | some .writeFailed, ⟨l, hq, X, h4⟩ => exact ⟨l, hq, X, by simp [h4]⟩

theorem questions_append (a b : List (Option Str)) : questions (a ++ b) = questions a ++ questions b := by
  simp [questions]

theorem Inv.go {S : Setup} {h : List Event} {i : Nat} {full : List (Option Str)} {c : Conn} (X : Ext) (w : Bool) (n : Nat) (hi : Inv S h i full c) :
    Inv S (h ++ [.go i X w]) i full (c.go X S w n).1 := by
  have hi' := hi.mono (.go i X w)
  obtain ⟨done, ls, h1, h2, h3⟩ := hi'
  rcases c with ⟨todo, work, sent, ended⟩
  unfold Conn.go
  simp only at h1 h2 h3
  cases ended with
  | some e => exact ⟨done, ls, h1, h2, h3⟩
  | none =>
    simp only at h3 ⊢
    cases work with
    | some p =>
      obtain ⟨line, id⟩ := p
      simp only [Option.map_some, Option.toList_some] at h3 ⊢
      match hA : answer X S line id with
      | .error f => exact ⟨done, ls, h1, h2, line, h3.2, X, w, id, f, by simp, hA⟩
      | .ok r =>
        cases w with
        | true =>
          refine ⟨done, ls ++ [line], h1, ?_, h3.1, by simpa using h3.2⟩
          refine List.rel_append h2 (.cons ⟨X, true, by simp, ?_⟩ .nil)
          rw [answer_id hA]
          exact hA
        | false => exact ⟨done, ls, h1, h2, line, h3.2, X, by simp⟩
    | none =>
      simp only [Option.map_none, Option.toList_none, List.append_nil] at h3 ⊢
      cases todo with
      | nil => exact ⟨done, ls, h1, h2, h3.1, h3.2, rfl⟩
      | cons l rest =>
        cases l with
        | none =>
          refine ⟨done ++ [none], ls, by rw [h1]; simp, h2, ?_, ?_⟩
          · rw [h1]; simp
          · rw [questions_append, h3.2]
            simp [questions]
        | some line =>
          have hd : ∀ l ∈ done ++ [some line], l ≠ none := by
            intro l hl
            rcases List.mem_append.1 hl with hl | hl
            · exact h3.1 l hl
            · simp at hl; simp [hl]
          simp only
          by_cases hb : (Str.strip line).isEmpty = true
          · rw [if_pos hb]
            refine ⟨done ++ [some line], ls, by rw [h1]; simp, h2, hd, ?_⟩
            rw [questions_append, h3.2]
            simp [questions, hb]
          · rw [if_neg hb]
            refine ⟨done ++ [some line], ls, by rw [h1]; simp, h2, hd, ?_⟩
            rw [questions_append, h3.2]
            simp [questions, hb]

theorem clients_snoc (h : List Event) (e : Event) : clients (h ++ [e]) = clients h ++ clients [e] := by simp [clients]

/-- Every connection of every reachable server. -/
theorem inv_all (S : Setup) (h : List Event) :
    (Server.after S h).conns.length = (clients h).length ∧
    ∀ i cl c, (clients h)[i]? = some cl → (Server.after S h).conns[i]? = some c → Inv S h i (linesOf cl) c := by
  induction h using List.reverseRecOn with
  | nil => exact ⟨rfl, fun i cl c h => by simp [clients] at h⟩
  | append_singleton h e ih =>
    obtain ⟨ih1, ih2⟩ := ih
    rw [after_snoc, clients_snoc]
    cases e with
    | accept cl0 =>
      refine ⟨by simp [Server.step, clients, ih1], fun i cl c hcl hc => ?_⟩
      simp only [Server.step] at hc
      rw [show clients [.accept cl0] = [cl0] from rfl] at hcl
      rcases Nat.lt_trichotomy i (clients h).length with hi | hi | hi
      · rw [List.getElem?_append_left hi] at hcl
        rw [List.getElem?_append_left (by omega)] at hc
        exact (ih2 i cl c hcl hc).mono _
      · rw [List.getElem?_append_right (by omega), show i - (clients h).length = 0 by omega] at hcl
        rw [List.getElem?_append_right (by omega), show i - (Server.after S h).conns.length = 0 by omega] at hc
        simp at hcl hc
        subst hcl hc
        exact ⟨[], [], rfl, .nil, by simp, rfl⟩
      · rw [List.getElem?_eq_none (by simp; omega)] at hcl
        simp at hcl
    | go j X w =>
      rw [show clients [.go j X w] = [] from rfl, List.append_nil]
      simp only [Server.step]
      cases hj : (Server.after S h).conns[j]? with
      | none =>
        simp only
        exact ⟨ih1, fun i cl c hcl hc => (ih2 i cl c hcl hc).mono _⟩
      | some cj =>
        simp only
        refine ⟨by simp [ih1], fun i cl c hcl hc => ?_⟩
        rw [List.getElem?_set] at hc
        by_cases hij : j = i
        · subst hij
          rw [if_pos rfl] at hc
          split at hc
          · obtain rfl : _ = c := by simpa using hc
            exact (ih2 j cl cj hcl hj).go X w _
          · simp at hc
        · rw [if_neg hij] at hc
          exact (ih2 i cl c hcl hc).mono _

theorem questions_prefix {a b : List (Option Str)} : questions a <+: questions (a ++ b) := by
  rw [questions_append]
  exact List.prefix_append _ _

/-! ### Claims -/

/-- C61: at every moment of every history, what a connection has sent are the responses to its first non-blank lines, one for each, in order. -/
theorem C61_in_order (S : Setup) (h : List Event) (i : Nat) (cl : HttpRead.Client) (c : Conn)
    (hcl : (clients h)[i]? = some cl) (hc : (Server.after S h).conns[i]? = some c) :
    ∃ ls, ls <+: questions (linesOf cl) ∧ List.Forall₂ (Answers S h i) ls c.sent := by
  obtain ⟨done, ls, h1, h2, h3⟩ := (inv_all S h).2 i cl c hcl hc
  refine ⟨ls, ?_, h2⟩
  have hq : questions done <+: questions (linesOf cl) := h1 ▸ questions_prefix
  refine List.IsPrefix.trans ?_ hq
  match hE : c.ended, h3 with
  | none, h3 => rw [h3.2]; exact List.prefix_append _ _
  | some .finished, h3 => rw [h3.2.1]; exact List.prefix_refl _
  | some .badLine, h3 => rw [h3.2]; exact List.prefix_refl _
  | some .panicked, ⟨l, hq, _⟩ => rw [hq]; exact List.prefix_append _ _
  | some .writeFailed, ⟨l, hq, _⟩ => rw [hq]; exact List.prefix_append _ _

/-- The size of what a connection still has to do. -/
def Conn.size (c : Conn) : Nat := if c.ended.isSome then 0 else 1 + 2 * c.todo.length + (if c.work.isSome then 1 else 0)

theorem size_go (X : Ext) (S : Setup) (w : Bool) (n : Nat) (c : Conn) : (c.go X S w n).1.size ≤ c.size - 1 := by
  unfold Conn.go
  match hE : c.ended with
  | some e => simp [Conn.size, hE]
  | none =>
    simp only
    match hW : c.work with
    | some (line, id) =>
      simp only
      match answer X S line id with
      | .error f => simp [Conn.size]
      | .ok r =>
        simp only
        cases w
        · simp [Conn.size]
        · simp [Conn.size, hE, hW]
    | none =>
      simp only
      match hT : c.todo with
      | [] => simp [Conn.size]
      | none :: rest => simp [Conn.size]
      | some line :: rest =>
        simp only
        split
        · simp [Conn.size, hE, hW, hT]; omega
        · simp [Conn.size, hE, hW, hT]; omega

theorem size_steps (S : Setup) (h1 : List Event) (cl : HttpRead.Client) (h2 : List Event) :
    ∃ c, (Server.after S (h1 ++ .accept cl :: h2)).conns[(clients h1).length]? = some c ∧
      c.size ≤ 1 + 2 * (linesOf cl).length - steps h2 (clients h1).length := by
  induction h2 using List.reverseRecOn with
  | nil =>
    rw [after_snoc]
    refine ⟨⟨linesOf cl, none, [], none⟩, ?_, by simp [Conn.size, steps]⟩
    simp only [Server.step]
    rw [List.getElem?_append_right (by rw [(inv_all S h1).1]; omega), (inv_all S h1).1]
    simp
  | append_singleton h2 e ih =>
    obtain ⟨c, hc, hs⟩ := ih
    rw [show h1 ++ .accept cl :: (h2 ++ [e]) = (h1 ++ .accept cl :: h2) ++ [e] by simp, after_snoc]
    cases e with
    | accept cl' =>
      refine ⟨c, ?_, by simpa [steps] using hs⟩
      simp only [Server.step]
      rw [List.getElem?_append_left (List.getElem?_eq_some_iff.1 hc).1]
      exact hc
    | go j X w =>
      simp only [Server.step]
      by_cases hj : j = (clients h1).length
      · subst hj
        rw [hc]
        refine ⟨(c.go X S w (Server.after S (h1 ++ .accept cl :: h2)).counter).1, ?_, ?_⟩
        · simp only
          rw [List.getElem?_set_self (List.getElem?_eq_some_iff.1 hc).1]
        · have := size_go X S w (Server.after S (h1 ++ .accept cl :: h2)).counter c
          have e : steps (h2 ++ [.go (clients h1).length X w]) (clients h1).length = steps h2 (clients h1).length + 1 := by
            simp [steps]
          rw [e]
          omega
      · refine ⟨c, ?_, by simpa [steps, hj] using hs⟩
        cases hcj : (Server.after S (h1 ++ .accept cl :: h2)).conns[j]? with
        | none => exact hc
        | some cj =>
          simp only
          rw [List.getElem?_set_ne hj]
          exact hc

/-- C61: a connection is never stuck: whatever the others do, its handling has ended when it went on as often as its lines require (twice for each, and once more). -/
theorem C61_ends (S : Setup) (h1 : List Event) (cl : HttpRead.Client) (h2 : List Event)
    (hs : 2 * (linesOf cl).length + 1 ≤ steps h2 (clients h1).length) :
    ∃ c, (Server.after S (h1 ++ .accept cl :: h2)).conns[(clients h1).length]? = some c ∧ c.ended ≠ none := by
  obtain ⟨c, hc, hz⟩ := size_steps S h1 cl h2
  refine ⟨c, hc, fun hn => ?_⟩
  have : c.size = 0 := by omega
  simp [Conn.size, hn] at this

/-- C61 for connections that meet no error: all lines are UTF-8 and the client closes its side after them, the client takes what is written, and no evaluation panics. When its handling has gone on often enough, whatever the other connections do, it has sent exactly one response for each non-blank line, in order. Missing: the three kinds of errors, after which the rest of the lines get no response (`C61_panic_drops`, `C61_bad_line_drops`). -/
theorem C61_all_answered_partial (S : Setup) (h1 : List Event) (cl : HttpRead.Client) (h2 : List Event)
    (hl : none ∉ linesOf cl)
    (hw : ∀ X, Event.go (clients h1).length X false ∉ h1 ++ .accept cl :: h2)
    (hp : ∀ X w line id f, Event.go (clients h1).length X w ∈ h1 ++ .accept cl :: h2 → line ∈ questions (linesOf cl) → answer X S line id ≠ .error f)
    (hs : 2 * (linesOf cl).length + 1 ≤ steps h2 (clients h1).length) :
    ∃ c, (Server.after S (h1 ++ .accept cl :: h2)).conns[(clients h1).length]? = some c ∧
      List.Forall₂ (Answers S (h1 ++ .accept cl :: h2) (clients h1).length) (questions (linesOf cl)) c.sent := by
  obtain ⟨c, hc, hend⟩ := C61_ends S h1 cl h2 hs
  refine ⟨c, hc, ?_⟩
  have hcl : (clients (h1 ++ .accept cl :: h2))[(clients h1).length]? = some cl := by
    simp [clients]
  obtain ⟨done, ls, e1, e2, e3⟩ := (inv_all S _).2 _ cl c hcl hc
  match hE : c.ended, e3 with
  | none, _ => exact absurd hE hend
  | some .finished, e3 =>
    rw [e3.2.2, List.append_nil] at e1
    rw [e1, e3.2.1]
    exact e2
  | some .badLine, e3 => exact absurd e3.1 hl
  | some .panicked, ⟨l, hq, X, w, id, f, h4, h5⟩ =>
    refine absurd h5 (hp X w l id f h4 ?_)
    have : l ∈ questions done := by rw [hq]; simp
    rw [e1]
    exact questions_prefix.subset this
  | some .writeFailed, ⟨l, hq, X, h4⟩ => exact absurd h4 (hw X)

/-! ### Ids -/

/-- The ids a connection has drawn and may still send. -/
def Conn.ids (c : Conn) : List Nat := c.sent.map (·.id) ++ (c.work.map (·.2)).toList

/-- What holds of the ids as long as the counter has not wrapped. -/
def IdsInv (s : Server) : Prop :=
  (∀ (i : ℕ) c, s.conns[i]? = some c → c.ids.Pairwise (· < ·) ∧ ∀ x ∈ c.ids, x < s.counter) ∧
  ∀ (i j : ℕ) c d, i ≠ j → s.conns[i]? = some c → s.conns[j]? = some d → ∀ x ∈ c.ids, x ∉ d.ids

theorem ids_go (X : Ext) (S : Setup) (w : Bool) (n : Nat) (c : Conn) :
    ((c.go X S w n).2 = n ∧ (c.go X S w n).1.ids.Sublist c.ids) ∨
    ((c.go X S w n).2 = (n + 1) % 2 ^ 64 ∧ (c.go X S w n).1.ids = c.ids ++ [n]) := by
  unfold Conn.go
  match hE : c.ended with
  | some e => exact Or.inl ⟨rfl, List.Sublist.refl _⟩
  | none =>
    simp only
    match hW : c.work with
    | some (line, id) =>
      simp only
      match hA : answer X S line id with
      | .error f => exact Or.inl ⟨rfl, by simp [Conn.ids]⟩
      | .ok r =>
        simp only
        cases w
        · exact Or.inl ⟨rfl, by simp [Conn.ids]⟩
        · exact Or.inl ⟨rfl, by simp [Conn.ids, hW, answer_id hA]⟩
    | none =>
      simp only
      match hT : c.todo with
      | [] => exact Or.inl ⟨rfl, by simp [Conn.ids, hW]⟩
      | none :: rest => exact Or.inl ⟨rfl, by simp [Conn.ids, hW]⟩
      | some line :: rest =>
        simp only
        split
        · exact Or.inl ⟨rfl, by simp [Conn.ids, hW]⟩
        · exact Or.inr ⟨rfl, by simp [Conn.ids, hW]⟩

theorem ids_inv (S : Setup) (h : List Event) (hl : h.length < 2 ^ 64) : (Server.after S h).counter ≤ h.length ∧ IdsInv (Server.after S h) := by
  induction h using List.reverseRecOn with
  | nil => exact ⟨Nat.le_refl _, fun i c hc => by simp [Server.after, Server.start] at hc, fun i j c d _ hc => by simp [Server.after, Server.start] at hc⟩
  | append_singleton h e ih =>
    rw [List.length_append, List.length_singleton] at hl ⊢
    obtain ⟨ih0, ih1, ih2⟩ := ih (by omega)
    rw [after_snoc]
    cases e with
    | accept cl =>
      have key : ∀ (i : ℕ) c, ((Server.after S h).conns ++ [⟨linesOf cl, none, [], none⟩])[i]? = some c → (Server.after S h).conns[i]? = some c ∨ c.ids = [] := by
        intro i c hc
        by_cases hi : i < (Server.after S h).conns.length
        · rw [List.getElem?_append_left hi] at hc
          exact Or.inl hc
        · rw [List.getElem?_append_right (by omega)] at hc
          refine Or.inr ?_
          have := List.mem_of_getElem? hc
          simp at this
          rw [this]
          rfl
      refine ⟨by simp only [Server.step]; omega, fun i c hc => ?_, fun i j c d hij hc hd x hx => ?_⟩
      · rcases key i c hc with h | h
        · exact ih1 i c h
        · rw [h]; simp
      · rcases key i c hc with h | h
        · rcases key j d hd with h' | h'
          · exact ih2 i j c d hij h h' x hx
          · rw [h']; simp
        · rw [h] at hx; simp at hx
    | go k X w =>
      simp only [Server.step]
      cases hk : (Server.after S h).conns[k]? with
      | none =>
        simp only
        exact ⟨by omega, ih1, ih2⟩
      | some ck =>
        simp only
        generalize hs : Server.after S h = s at *
        have hklt : k < s.conns.length := (List.getElem?_eq_some_iff.1 hk).1
        have get : ∀ (i : ℕ) c, (s.conns.set k (ck.go X S w s.counter).1)[i]? = some c →
            (i = k ∧ c = (ck.go X S w s.counter).1) ∨ (i ≠ k ∧ s.conns[i]? = some c) := by
          intro i c hc
          by_cases hi : i = k
          · subst hi
            rw [List.getElem?_set_self hklt] at hc
            exact Or.inl ⟨rfl, by simpa using hc.symm⟩
          · rw [List.getElem?_set_ne (fun e => hi e.symm)] at hc
            exact Or.inr ⟨hi, hc⟩
        obtain ⟨hkp, hkb⟩ := ih1 k ck hk
        rcases ids_go X S w s.counter ck with ⟨hn, hsub⟩ | ⟨hn, hids⟩
        · rw [IdsInv]
          simp only [hn]
          refine ⟨by omega, fun i c hc => ?_, fun i j c d hij hc hd x hx hx' => ?_⟩
          · rcases get i c hc with ⟨rfl, rfl⟩ | ⟨_, h⟩
            · exact ⟨hkp.sublist hsub, fun x hx => hkb x (hsub.subset hx)⟩
            · exact ih1 i c h
          · rcases get i c hc with ⟨rfl, rfl⟩ | ⟨_, h⟩
            · rcases get j d hd with ⟨rfl, rfl⟩ | ⟨_, h'⟩
              · exact hij rfl
              · exact ih2 i j ck d hij hk h' x (hsub.subset hx) hx'
            · rcases get j d hd with ⟨rfl, rfl⟩ | ⟨_, h'⟩
              · exact ih2 i j c ck hij h hk x hx (hsub.subset hx')
              · exact ih2 i j c d hij h h' x hx hx'
        · have hmod : (s.counter + 1) % 2 ^ 64 = s.counter + 1 := Nat.mod_eq_of_lt (by omega)
          rw [hmod] at hn
          rw [IdsInv]
          simp only [hn]
          refine ⟨by omega, fun i c hc => ?_, fun i j c d hij hc hd x hx hx' => ?_⟩
          · rcases get i c hc with ⟨rfl, rfl⟩ | ⟨_, h⟩
            · rw [hids]
              refine ⟨List.pairwise_append.2 ⟨hkp, by simp, fun a ha b hb => ?_⟩, fun x hx => ?_⟩
              · simp at hb
                subst hb
                exact hkb a ha
              · rcases List.mem_append.1 hx with hx | hx
                · exact Nat.lt_succ_of_lt (hkb x hx)
                · simp at hx; omega
            · exact ⟨(ih1 i c h).1, fun x hx => Nat.lt_succ_of_lt ((ih1 i c h).2 x hx)⟩
          · rcases get i c hc with ⟨rfl, rfl⟩ | ⟨_, h⟩
            · rcases get j d hd with ⟨rfl, rfl⟩ | ⟨_, h'⟩
              · exact hij rfl
              · rw [hids] at hx
                rcases List.mem_append.1 hx with hx | hx
                · exact ih2 i j ck d hij hk h' x hx hx'
                · simp at hx
                  subst hx
                  exact absurd ((ih1 j d h').2 _ hx') (Nat.lt_irrefl _)
            · rcases get j d hd with ⟨rfl, rfl⟩ | ⟨_, h'⟩
              · rw [hids] at hx'
                rcases List.mem_append.1 hx' with hx' | hx'
                · exact ih2 i j c ck hij h hk x hx hx'
                · simp at hx'
                  subst hx'
                  exact absurd ((ih1 i c h).2 _ hx) (Nat.lt_irrefl _)
              · exact ih2 i j c d hij h h' x hx hx'

/-- C61: ids are never used twice, on one connection or on two, under every interleaving, in every history of fewer than 2^64 events (the counter has 64 bits). On one connection they increase. -/
theorem C61_ids (S : Setup) (h : List Event) (hl : h.length < 2 ^ 64) (i j : Nat) (c d : Conn)
    (hc : (Server.after S h).conns[i]? = some c) (hd : (Server.after S h).conns[j]? = some d) (a b : Nat) (r r' : Response)
    (hr : c.sent[a]? = some r) (hr' : d.sent[b]? = some r') :
    (r.id = r'.id ↔ i = j ∧ a = b) ∧ (i = j → a < b → r.id < r'.id) := by
  obtain ⟨_, h1, h2⟩ := ids_inv S h hl
  have ids : ∀ (e : Conn) (k : ℕ) q, e.sent[k]? = some q → e.ids[k]? = some q.id := by
    intro e k q hq
    unfold Conn.ids
    rw [List.getElem?_append_left (by simpa using (List.getElem?_eq_some_iff.1 hq).1), List.getElem?_map, hq]
    rfl
  have mono : ∀ (e : Conn), e.ids.Pairwise (· < ·) → ∀ (a b : ℕ) (q q' : Response), e.sent[a]? = some q → e.sent[b]? = some q' → a < b → q.id < q'.id := by
    intro e he a b q q' hq hq' hab
    obtain ⟨ha, ea⟩ := List.getElem?_eq_some_iff.1 (ids e a q hq)
    obtain ⟨hb, eb⟩ := List.getElem?_eq_some_iff.1 (ids e b q' hq')
    have := List.pairwise_iff_getElem.1 he a b ha hb hab
    rw [ea, eb] at this
    exact this
  by_cases hij : i = j
  · subst hij
    obtain rfl : c = d := by rw [hc] at hd; simpa using hd
    refine ⟨⟨fun he => ⟨rfl, ?_⟩, fun ⟨_, hab⟩ => ?_⟩, fun _ hab => mono c (h1 i c hc).1 a b r r' hr hr' hab⟩
    · rcases Nat.lt_trichotomy a b with hab | hab | hab
      · have := mono c (h1 i c hc).1 a b r r' hr hr' hab
        omega
      · exact hab
      · have := mono c (h1 i c hc).1 b a r' r hr' hr hab
        omega
    · subst hab
      rw [hr] at hr'
      rw [Option.some.inj hr']
  · refine ⟨⟨fun he => ?_, fun hab => absurd hab.1 hij⟩, fun h => absurd h hij⟩
    refine absurd ?_ (h2 i j c d hij hc hd r.id (List.mem_of_getElem? (ids c a r hr)))
    rw [he]
    exact List.mem_of_getElem? (ids d b r' hr')

/-! ### The lines of a client -/
namespace Spec

/-- What a client sends: its lines, each with a newline. -/
def sends (ls : List Str) : HttpRead.Client := ⟨(ls.flatMap fun l => l ++ ['\n']).flatMap String.utf8EncodeChar, true⟩

end Spec

theorem encode_newline {c : Char} (h : c ≠ '\n') : (10 : UInt8) ∉ String.utf8EncodeChar c := by
  have hv : c.val.toNat ≠ 10 := by
    intro he
    apply h
    rw [← Char.ofNat_toNat c]
    have : c.toNat = 10 := he
    rw [this]
  have hb : ∀ n, n < 256 → n ≠ 10 → (10 : UInt8) ≠ UInt8.ofNat n := by
    intro n hn h10 he
    have := congrArg UInt8.toNat he
    rw [UInt8.toNat_ofNat', Nat.mod_eq_of_lt (by omega)] at this
    exact h10 this.symm
  unfold String.utf8EncodeChar
  simp only
  split
  · simp only [List.mem_singleton]
    exact hb _ (by omega) hv
  split
  · simp only [List.mem_cons, List.not_mem_nil, or_false, not_or]
    exact ⟨hb _ (by omega) (by omega), hb _ (by omega) (by omega)⟩
  split
  · simp only [List.mem_cons, List.not_mem_nil, or_false, not_or]
    exact ⟨hb _ (by omega) (by omega), hb _ (by omega) (by omega), hb _ (by omega) (by omega)⟩
  · simp only [List.mem_cons, List.not_mem_nil, or_false, not_or]
    exact ⟨hb _ (by omega) (by omega), hb _ (by omega) (by omega), hb _ (by omega) (by omega), hb _ (by omega) (by omega)⟩

theorem linesGo_line (closes : Bool) : ∀ (a acc rest : HttpRead.Bytes), (10 : UInt8) ∉ a →
    linesGo closes acc (a ++ 10 :: rest) = lineText (a.reverse ++ acc) :: linesGo closes [] rest
  | [], acc, rest, _ => by simp [linesGo]
  | b :: a, acc, rest, h => by
    have hb : b ≠ 10 := fun e => h (by simp [e])
    have := linesGo_line closes a (b :: acc) rest fun h' => h (by simp [h'])
    simp only [List.cons_append, linesGo, if_neg hb, List.reverse_cons, List.append_assoc, List.nil_append]
    exact this

/-- The last byte of a text is a carriage return only if its last character is. -/
theorem encode_last {l : Str} {rest : HttpRead.Bytes} (h : (l.flatMap String.utf8EncodeChar).reverse = 13 :: rest) : l.getLast? = some '\r' := by
  rcases List.eq_nil_or_concat l with rfl | ⟨l', c, rfl⟩
  · simp at h
  · rw [List.concat_eq_append, List.flatMap_append, List.reverse_append] at h
    simp only [List.flatMap_cons, List.flatMap_nil, List.append_nil] at h
    rw [List.concat_eq_append, List.getLast?_append]
    simp only [List.getLast?_singleton, Option.some_or, Option.some.injEq]
    have hb : ∀ n, n < 256 → UInt8.ofNat n = 13 → n = 13 := by
      intro n hn he
      have := congrArg UInt8.toNat he
      rw [UInt8.toNat_ofNat', Nat.mod_eq_of_lt (by omega)] at this
      exact this
    have hv : c.val.toNat = 13 := by
      unfold String.utf8EncodeChar at h
      simp only at h
      split at h
      · simp only [List.reverse_cons, List.reverse_nil, List.nil_append, List.cons_append, List.cons.injEq] at h
        exact hb _ (by omega) h.1
      split at h
      · simp only [List.reverse_cons, List.reverse_nil, List.nil_append, List.cons_append, List.cons.injEq] at h
        have := hb _ (by omega) h.1
        omega
      split at h
      · simp only [List.reverse_cons, List.reverse_nil, List.nil_append, List.cons_append, List.cons.injEq] at h
        have := hb _ (by omega) h.1
        omega
      · simp only [List.reverse_cons, List.reverse_nil, List.nil_append, List.cons_append, List.cons.injEq] at h
        have := hb _ (by omega) h.1
        omega
    rw [← Char.ofNat_toNat c]
    have : c.toNat = 13 := hv
    rw [this]

theorem lineText_encode (l : Str) (h : l.getLast? ≠ some '\r') : lineText (l.flatMap String.utf8EncodeChar).reverse = some l := by
  unfold lineText
  rw [← HttpRead.utf8_of_encode l]
  congr 1
  split
  · rename_i rest he
    exact absurd (encode_last he) h
  · rw [List.reverse_reverse]

/-- C61: the lines the server sees are the lines the client sends (a carriage return at the end of a line is taken off). -/
theorem C61_lines (ls : List Str) (h : ∀ l ∈ ls, '\n' ∉ l ∧ l.getLast? ≠ some '\r') : linesOf (sends ls) = ls.map some := by
  unfold linesOf sends
  simp only
  induction ls with
  | nil => rfl
  | cons l ls ih =>
    have hl := h l (by simp)
    rw [List.flatMap_cons, List.flatMap_append, List.flatMap_append]
    have e : List.flatMap String.utf8EncodeChar ['\n'] = [10] := by rfl
    rw [e, List.append_assoc, List.singleton_append, linesGo_line true _ _ _ ?_, List.append_nil, lineText_encode l hl.2, ih fun l' h' => h l' (by simp [h'])]
    · rfl
    · intro hm
      obtain ⟨c, hc, hm⟩ := List.mem_flatMap.1 hm
      exact encode_newline (fun e => hl.1 (e ▸ hc)) hm

/-- The hypothesis of `C61_lines`: lines without a line end, the last of them blank. -/
example : linesOf (sends [c!"1+1", c!"año", c!" "]) = [some c!"1+1", some c!"año", some c!" "] := C61_lines _ (by decide)

/-- C61 for clients that send lines of text and close their side: with enough steps, one response for each line that is not blank, in order. -/
theorem C61_lines_answered_partial (S : Setup) (h1 : List Event) (ls : List Str) (h2 : List Event)
    (hl : ∀ l ∈ ls, '\n' ∉ l ∧ l.getLast? ≠ some '\r')
    (hw : ∀ X, Event.go (clients h1).length X false ∉ h1 ++ .accept (sends ls) :: h2)
    (hp : ∀ X w line id f, Event.go (clients h1).length X w ∈ h1 ++ .accept (sends ls) :: h2 → line ∈ ls → answer X S line id ≠ .error f)
    (hs : 2 * ls.length + 1 ≤ steps h2 (clients h1).length) :
    ∃ c, (Server.after S (h1 ++ .accept (sends ls) :: h2)).conns[(clients h1).length]? = some c ∧
      List.Forall₂ (Answers S (h1 ++ .accept (sends ls) :: h2) (clients h1).length) (ls.filter fun l => !(Str.strip l).isEmpty) c.sent := by
  have e := C61_lines ls hl
  have q : questions (linesOf (sends ls)) = ls.filter fun l => !(Str.strip l).isEmpty := by
    rw [e]
    simp [questions]
  rw [← q]
  refine C61_all_answered_partial S h1 (sends ls) h2 ?_ hw ?_ (by rw [e, List.length_map]; exact hs)
  · rw [e]
    simp
  · intro X w line id f hm hq
    rw [q] at hq
    exact hp X w line id f hm (List.mem_of_mem_filter hq)

/-- The hypotheses of `C61_lines_answered_partial`: a client that comes second and sends a line, an empty line and a line, on a server that refuses every token. -/
example (X : Ext) := C61_lines_answered_partial ⟨fun l => .ok ⟨l, none, none, none⟩, Registry.empty, some c!"secret"⟩ [.accept (sends [c!"3"]), .go 0 X true] [c!"1+1", [], c!"2"]
  [.go 1 X true, .go 0 X true, .go 1 X true, .go 1 X true, .go 1 X true, .go 1 X true, .go 1 X true, .go 1 X true] (by decide) (by simp [clients])
  (by
    intro X' w line id f _ _ h
    unfold answer at h
    simp at h) (by show 7 ≤ 7; exact Nat.le_refl 7)

/-! ### What errors do -/

theorem ended_stays (S : Setup) (h1 h2 : List Event) (i : Nat) (c : Conn) (hc : (Server.after S h1).conns[i]? = some c) (he : c.ended ≠ none) :
    (Server.after S (h1 ++ h2)).conns[i]? = some c := by
  induction h2 using List.reverseRecOn with
  | nil => simpa using hc
  | append_singleton h2 e ih =>
    rw [← List.append_assoc, after_snoc]
    cases e with
    | accept cl =>
      simp only [Server.step]
      rw [List.getElem?_append_left (List.getElem?_eq_some_iff.1 ih).1]
      exact ih
    | go j X w =>
      simp only [Server.step]
      cases hj : (Server.after S (h1 ++ h2)).conns[j]? with
      | none => exact ih
      | some cj =>
        simp only
        by_cases hij : j = i
        · subst hij
          rw [ih] at hj
          obtain rfl : c = cj := by simpa using hj
          rw [List.getElem?_set_self (List.getElem?_eq_some_iff.1 ih).1]
          unfold Conn.go
          cases hE : c.ended with
          | none => exact absurd hE he
          | some e => rfl
        · rw [List.getElem?_set_ne hij]
          exact ih

/-- A client that sends a line whose evaluation panics, and another line. -/
def panicking : List Str := [c!"{\"expression\":\"SORT([\\\"nan\\\"::Float, 1])\"}", c!"{\"expression\":\"1\"}"]

/-- C61 is false as stated: after a line whose evaluation panics, neither it nor the lines after it ever get a response. -/
theorem C61_panic_drops (X : Ext) (S : Setup) (hd : S.decode c!"{\"expression\":\"SORT([\\\"nan\\\"::Float, 1])\"}" = .ok ⟨c!"SORT([\"nan\"::Float, 1])", none, none, none⟩)
    (hr : S.reg = Registry.empty) (ht : S.token = none) :
    linesOf (sends panicking) = panicking.map some ∧
    ∀ h2, ∃ c, (Server.after S ([.accept (sends panicking), .go 0 X true, .go 0 X true] ++ h2)).conns[0]? = some c ∧ c.sent = [] := by
  have hl : linesOf (sends panicking) = panicking.map some := C61_lines panicking (by decide)
  have ha : answer X S c!"{\"expression\":\"SORT([\\\"nan\\\"::Float, 1])\"}" 0 = panics "called `Option::unwrap()` on a `None` value" := by
    unfold answer
    rw [hd, ht]
    simp only
    rw [hr]
    kernel_rfl
  refine ⟨hl, fun h2 => ?_⟩
  have key : (Server.after S [.accept (sends panicking), .go 0 X true, .go 0 X true]).conns[0]? =
      some ⟨[some c!"{\"expression\":\"1\"}"], none, [], some .panicked⟩ := by
    simp only [Server.after, List.foldl_cons, List.foldl_nil, Server.step, Server.start, List.nil_append, hl]
    simp only [List.getElem?_cons_zero, Conn.go, panicking, List.map_cons, List.map_nil]
    rw [if_neg (by decide)]
    simp only [List.set_cons_zero, List.getElem?_cons_zero, ha, panics]
  exact ⟨_, ended_stays S _ h2 0 _ key (by simp), rfl⟩

/-- C61 is false as stated: a line that is not UTF-8 ends the connection, the lines after it get no response. -/
theorem C61_bad_line_drops (X : Ext) (S : Setup) (h2 : List Event) :
    ∃ c, (Server.after S ([.accept ⟨[0xFF, 10, 49, 10], true⟩, .go 0 X true] ++ h2)).conns[0]? = some c ∧ c.sent = [] ∧
      linesOf ⟨[0xFF, 10, 49, 10], true⟩ = [none, some c!"1"] :=
  ⟨⟨[some c!"1"], none, [], some .badLine⟩, ended_stays S _ h2 0 _ (by kernel_rfl) (by simp), rfl, by kernel_rfl⟩

/-- Not vacuous: two clients, interleaved; both get their answers, with different ids. -/
example (X : Ext) : ∃ c d, (Server.after ⟨fun l => .ok ⟨l, none, none, none⟩, Registry.empty, none⟩
      [.accept (sends [c!"1+1", c!"", c!"2"]), .accept (sends [c!"3"]), .go 0 X true, .go 1 X true, .go 1 X true, .go 0 X true,
       .go 0 X true, .go 0 X true, .go 0 X true, .go 0 X true]).conns = [c, d] ∧
    c.sent.map (·.id) = [0, 2] ∧ d.sent.map (·.id) = [1] ∧ c.ended = some .finished := by
  refine ⟨_, _, rfl, ?_, ?_, ?_⟩ <;> kernel_rfl

/-! ### The token -/

/-- C68: with a token configured, a line is evaluated only if it carries that token: any other gets the same refusal, whatever it asks. A line without a token counts as carrying the empty one. -/
theorem C68_refused (X : Ext) (S : Setup) (t line : Str) (id : Nat) (q : Request) (ht : S.token = some t) (hq : S.decode line = .ok q) (hn : q.token.getD [] ≠ t) :
    answer X S line id = .ok ⟨false, none, some .unauthorized, id⟩ := by
  unfold answer
  rw [hq, ht]
  simp only
  rw [if_pos hn]

/-- C68: a line that carries the token, and every line if there is none, is answered as a server without tokens answers it. -/
theorem C68_passes (X : Ext) (S : Setup) (line : Str) (id : Nat) (h : ∀ t q, S.token = some t → S.decode line = .ok q → q.token.getD [] = t) :
    answer X S line id = answer X { S with token := none } line id := by
  unfold answer
  simp only
  cases hd : S.decode line with
  | error e => rfl
  | ok q =>
    simp only
    cases ht : S.token with
    | none => rfl
    | some t =>
      simp only
      rw [if_neg (by simpa using h t q ht hd)]

/-- C68: every response that carries a result has passed the check. -/
theorem C68_results (X : Ext) (S : Setup) (line : Str) (id : Nat) (r : Response) (h : answer X S line id = .ok r) (hr : r.success = true) :
    ∃ q, S.decode line = .ok q ∧ ∀ t, S.token = some t → q.token.getD [] = t := by
  cases hd : S.decode line with
  | error e =>
    unfold answer at h
    rw [hd] at h
    obtain rfl : _ = r := by simpa using h
    simp at hr
  | ok q =>
    refine ⟨q, rfl, fun t ht => ?_⟩
    by_contra hn
    rw [C68_refused X S t line id q ht hd hn] at h
    obtain rfl : _ = r := by simpa using h
    simp at hr

/-- C68: with an empty token configured the check lets every line through that carries none. -/
theorem C68_empty_token (X : Ext) (S : Setup) (line : Str) (id : Nat) (q : Request) (ht : S.token = some []) (hq : S.decode line = .ok q) (hn : q.token = none) :
    answer X S line id = answer X { S with token := none } line id := by
  refine C68_passes X S line id fun t q' h1 h2 => ?_
  rw [ht] at h1
  rw [hq] at h2
  obtain rfl : [] = t := by simpa using h1
  obtain rfl : q = q' := by simpa using h2
  rw [hn]
  rfl

/-- Not vacuous. -/
example (X : Ext) : answer X ⟨fun l => .ok ⟨l, none, none, some c!"guess"⟩, Registry.empty, some c!"secret"⟩ c!"1" 7 = .ok ⟨false, none, some .unauthorized, 7⟩ :=
  C68_refused X _ c!"secret" _ _ ⟨c!"1", none, none, some c!"guess"⟩ rfl rfl (by decide)

end Tcp
