import Verif.Model.Stats
import Mathlib.Data.List.Induction
/-! C88: the statistics of the servers. -/

open Stats

namespace Stats.Spec

/-- The requests that have been counted. -/
def counted (s : Server) : Nat := (s.actors.filter fun | .counted _ => true | .recorded _ => true | _ => false).length

/-- The times of the requests recorded completely. -/
def times (s : Server) : List Nat := s.actors.filterMap fun | .recorded t => some t | _ => none

/-- All requests that were begun. -/
def begun (h : List Event) : List Nat := h.filterMap fun | .request t => some t | _ => none

/-- Nothing is being recorded. -/
def Quiet (s : Server) : Prop := ∀ a ∈ s.actors, (∀ t, a ≠ .starts t) ∧ ∀ t, a ≠ .counted t

end Stats.Spec

namespace Stats
open Stats.Spec

/-- What an actor has added to the count. -/
def one : Actor → Nat
  | .counted _ => 1
  | .recorded _ => 1
  | _ => 0

/-- What an actor has added to the time. -/
def time : Actor → Nat
  | .recorded t => t
  | _ => 0

theorem counted_sum (s : Server) : counted s = (s.actors.map one).sum := by
  unfold counted
  induction s.actors with
  | nil => rfl
  | cons a l ih => cases a <;> simp [one, ih] <;> omega

theorem times_sum (s : Server) : (times s).sum = (s.actors.map time).sum := by
  unfold times
  induction s.actors with
  | nil => rfl
  | cons a l ih => cases a <;> simp [time, ih]

theorem sum_set (f : Actor → Nat) : ∀ (l : List Actor) (i : Nat) (a b : Actor), l[i]? = some a →
    ((l.set i b).map f).sum + f a = (l.map f).sum + f b
  | [], i, a, b, h => by simp at h
  | x :: l, 0, a, b, h => by
    simp only [List.getElem?_cons_zero, Option.some.injEq] at h
    subst h
    simp only [List.set_cons_zero, List.map_cons, List.sum_cons]
    omega
  | x :: l, i + 1, a, b, h => by
    simp only [List.getElem?_cons_succ] at h
    have := sum_set f l i a b h
    simp only [List.set_cons_succ, List.map_cons, List.sum_cons]
    omega

theorem after_snoc (h : List Event) (e : Event) : Server.after (h ++ [e]) = (Server.after h).step e := by
  unfold Server.after; rw [List.foldl_append]; rfl

/-- The counters are the sums of what the actors have added. -/
theorem sums (h : List Event) : (Server.after h).c.count = ((Server.after h).actors.map one).sum % 2 ^ 64 ∧
    (Server.after h).c.total = ((Server.after h).actors.map time).sum % 2 ^ 64 := by
  induction h using List.reverseRecOn with
  | nil => exact ⟨rfl, rfl⟩
  | append_singleton h e ih =>
    rw [after_snoc]
    generalize Server.after h = s at ih ⊢
    obtain ⟨⟨n, m⟩, as⟩ := s
    obtain ⟨i1, i2⟩ := ih
    simp only at i1 i2
    cases e with
    | request t => simp [Server.step, i1, i2, one, time]
    | health => simp [Server.step, i1, i2, one, time]
    | go i =>
      simp only [Server.step]
      cases ha : as[i]? with
      | none => exact ⟨i1, i2⟩
      | some a =>
        have s1 := sum_set one as i a (act ⟨n, m⟩ a).2 ha
        have s2 := sum_set time as i a (act ⟨n, m⟩ a).2 ha
        cases a <;> simp only [act, one, time] at s1 s2 ⊢ <;> constructor <;> omega

/-- **C88.** Under every interleaving, the counters are the number of requests counted and the sum of the times recorded so far (modulo 2^64). -/
theorem C88_counters (h : List Event) : (Server.after h).c.count = counted (Server.after h) % 2 ^ 64 ∧
    (Server.after h).c.total = (times (Server.after h)).sum % 2 ^ 64 := by
  rw [counted_sum, times_sum]; exact sums h

/-- What an actor was sent to record. -/
def sent : Actor → Option Nat
  | .starts t => some t
  | .counted t => some t
  | .recorded t => some t
  | _ => none

theorem act_sent (c : Counters) (a : Actor) : sent (act c a).2 = sent a := by cases a <;> rfl

theorem map_set_same {α β : Type} (f : α → β) : ∀ (l : List α) (i : Nat) (a b : α), l[i]? = some a → f b = f a → (l.set i b).map f = l.map f
  | [], _, _, _, h, _ => by simp at h
  | x :: l, 0, a, b, h, e => by
    simp only [List.getElem?_cons_zero, Option.some.injEq] at h
    subst h
    simp [e]
  | x :: l, i + 1, a, b, h, e => by
    simp only [List.getElem?_cons_succ] at h
    simp [map_set_same f l i a b h e]

theorem begun_sent (h : List Event) : begun h = (Server.after h).actors.filterMap sent := by
  induction h using List.reverseRecOn with
  | nil => rfl
  | append_singleton h e ih =>
    rw [after_snoc]
    unfold begun at ih ⊢
    rw [List.filterMap_append, ih]
    generalize Server.after h = s
    cases e with
    | request t => simp [Server.step, sent]
    | health => simp [Server.step, sent]
    | go i =>
      simp only [Server.step]
      cases ha : s.actors[i]? with
      | none => simp
      | some a =>
        have key : ∀ l : List Actor, l.filterMap sent = (l.map sent).filterMap id := by intro l; simp [List.filterMap_map]
        simp only [key, map_set_same sent s.actors i a _ ha (act_sent _ _)]
        simp

/-- **C88.** When nothing is being recorded, every request begun is in the counters, once and with its time. -/
theorem C88_exact (h : List Event) (hq : Quiet (Server.after h)) :
    (Server.after h).c.count = (begun h).length % 2 ^ 64 ∧ (Server.after h).c.total = (begun h).sum % 2 ^ 64 := by
  obtain ⟨h1, h2⟩ := sums h
  rw [h1, h2, begun_sent]
  have : ((Server.after h).actors.map one).sum = ((Server.after h).actors.filterMap sent).length ∧
      ((Server.after h).actors.map time).sum = ((Server.after h).actors.filterMap sent).sum := by
    unfold Quiet at hq
    revert hq
    induction (Server.after h).actors with
    | nil => exact fun _ => ⟨rfl, rfl⟩
    | cons a l ih =>
      intro hq
      obtain ⟨i1, i2⟩ := ih (fun b hb => hq b (List.mem_cons_of_mem _ hb))
      obtain ⟨q1, q2⟩ := hq a List.mem_cons_self
      cases a with
      | starts t => exact absurd rfl (q1 t)
      | counted t => exact absurd rfl (q2 t)
      | recorded t => simp [one, time, sent, i1, i2]; omega
      | asks => simpa [one, time, sent] using ⟨i1, i2⟩
      | seen => simpa [one, time, sent] using ⟨i1, i2⟩
      | told => simpa [one, time, sent] using ⟨i1, i2⟩
  rw [this.1, this.2]
  exact ⟨rfl, rfl⟩

theorem mem_set {α : Type} {l : List α} {i : Nat} {a b : α} (h : a ∈ l.set i b) : a ∈ l ∨ a = b := by
  rw [List.mem_iff_getElem?] at h
  obtain ⟨k, hk⟩ := h
  rw [List.getElem?_set] at hk
  split at hk
  · split at hk
    · exact .inr (by simpa using hk.symm)
    · cases hk
  · exact .inl (List.mem_of_getElem? hk)

/-- **C88.** Each number reported was the right one at a moment before the report, and the time was loaded after the count. -/
theorem C88_report (h : List Event) (n m : Nat) (hr : .told n m ∈ (Server.after h).actors) :
    ∃ h1 h2, h1 <+: h2 ∧ h2 <+: h ∧ n = counted (Server.after h1) % 2 ^ 64 ∧ m = (times (Server.after h2)).sum % 2 ^ 64 := by
  suffices key : (∀ n, .seen n ∈ (Server.after h).actors → ∃ h1, h1 <+: h ∧ n = (Server.after h1).c.count) ∧
      (∀ n m, .told n m ∈ (Server.after h).actors → ∃ h1 h2, h1 <+: h2 ∧ h2 <+: h ∧ n = (Server.after h1).c.count ∧ m = (Server.after h2).c.total) by
    obtain ⟨h1, h2, p1, p2, e1, e2⟩ := key.2 n m hr
    exact ⟨h1, h2, p1, p2, by rw [e1, (C88_counters h1).1], by rw [e2, (C88_counters h2).2]⟩
  clear hr n m
  induction h using List.reverseRecOn with
  | nil => exact ⟨fun n hn => by simp [Server.after, Server.start] at hn, fun n m hn => by simp [Server.after, Server.start] at hn⟩
  | append_singleton h e ih =>
    obtain ⟨i1, i2⟩ := ih
    have up1 : ∀ n, .seen n ∈ (Server.after h).actors → ∃ h1, h1 <+: h ++ [e] ∧ n = (Server.after h1).c.count := fun n hn => by
      obtain ⟨h1, p, q⟩ := i1 n hn
      exact ⟨h1, p.trans (List.prefix_append _ _), q⟩
    have up2 : ∀ n m, .told n m ∈ (Server.after h).actors → ∃ h1 h2, h1 <+: h2 ∧ h2 <+: h ++ [e] ∧ n = (Server.after h1).c.count ∧ m = (Server.after h2).c.total :=
      fun n m hn => by
        obtain ⟨h1, h2, p, p', q⟩ := i2 n m hn
        exact ⟨h1, h2, p, p'.trans (List.prefix_append _ _), q⟩
    rw [after_snoc]
    cases e with
    | request t =>
      refine ⟨fun n hn => up1 n ?_, fun n m hn => up2 n m ?_⟩ <;> simpa [Server.step] using hn
    | health =>
      refine ⟨fun n hn => up1 n ?_, fun n m hn => up2 n m ?_⟩ <;> simpa [Server.step] using hn
    | go i =>
      simp only [Server.step]
      cases ha : (Server.after h).actors[i]? with
      | none => exact ⟨up1, up2⟩
      | some a =>
        have ham := List.mem_of_getElem? ha
        constructor
        · intro n hn
          rcases mem_set hn with hn | hn
          · exact up1 n hn
          · cases a <;> simp only [act, reduceCtorEq, Actor.seen.injEq] at hn
            exact ⟨h, List.prefix_append _ _, hn⟩
        · intro n m hn
          rcases mem_set hn with hn | hn
          · exact up2 n m hn
          · cases a <;> simp only [act, reduceCtorEq, Actor.told.injEq] at hn
            · obtain ⟨h1, p, q⟩ := i1 _ ham
              exact ⟨h1, h, p, List.prefix_append _ _, by rw [hn.1]; exact q, hn.2⟩
            · rw [← hn.1, ← hn.2] at ham
              exact up2 n m ham

/-- The two numbers need not belong together: a report can count a request whose time is missing, or contain the time of one it does not count. -/
theorem C88_torn :
    (.told 1 0 ∈ (Server.after [.request 5000, .health, .go 0, .go 1, .go 1]).actors ∧ average 1 0 = .zero false) ∧
    (.told 0 5000 ∈ (Server.after [.request 5000, .health, .go 1, .go 0, .go 0, .go 1]).actors ∧ average 0 5000 = .zero false) ∧
    average 1 5000 = .fin 5 := by
  refine ⟨⟨by simp [Server.after, Server.start, Server.step, act], by decide +kernel⟩, ⟨by simp [Server.after, Server.start, Server.step, act], by decide +kernel⟩, by decide +kernel⟩

example : Quiet (Server.after [.request 3, .request 4, .go 1, .go 0, .go 0, .go 1, .health, .go 2, .go 2]) := by
  intro a ha
  simp [Server.after, Server.start, Server.step, act] at ha
  rcases ha with rfl | rfl | rfl <;> simp
example : (Server.after [.request 3, .request 4, .go 1, .go 0, .go 0, .go 1, .health, .go 2, .go 2]).c = ⟨2, 7⟩ := rfl

end Stats
