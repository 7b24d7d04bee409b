import Verif.Model.Workers
import Mathlib.Data.List.Induction
import Mathlib.Data.List.Perm.Basic
import Mathlib.Data.List.Range
/-! C94: connections, worker threads and shutting down. -/

namespace Workers

theorem after_snoc (k : Kind) (w : Nat) (h : List Event) (e : Event) : State.after k w (h ++ [e]) = (State.after k w h).step k w e := by
  simp [State.after, List.foldl_append]

theorem after_append (k : Kind) (w : Nat) (h h' : List Event) : State.after k w (h ++ h') = h'.foldl (State.step k w) (State.after k w h) := by
  simp [State.after, List.foldl_append]

/-- What holds in every reachable state. -/
structure Inv (k : Kind) (w : Nat) (s : State) : Prop where
  all : (s.finished ++ s.active ++ s.queue).Perm (List.range s.accepted)
  bound : s.active.length ≤ w
  sorted : s.queue.Pairwise (· < ·)
  order : ∀ c ∈ s.queue, ∀ d ∈ s.finished ++ s.active, d < c
  below : ∀ c ∈ s.queue, c < s.accepted
  below' : ∀ c ∈ s.finished ++ s.active, c < s.accepted
  drained : k = .tcp → s.phase = .exited → s.queue = [] ∧ s.active = []

theorem inv (k : Kind) (w : Nat) (h : List Event) : Inv k w (State.after k w h) := by
  induction h using List.reverseRecOn with
  | nil =>
    refine ⟨List.Perm.refl _, Nat.zero_le _, List.Pairwise.nil, ?_, ?_, ?_, fun _ _ => ⟨rfl, rfl⟩⟩ <;> intro c hc <;> simp [State.after, State.start] at hc
  | append_singleton h e ih =>
    rw [after_snoc]
    generalize State.after k w h = s at ih
    obtain ⟨h1, h2, h3, h4, h5, h6, h7⟩ := ih
    unfold State.step
    split
    · exact ⟨h1, h2, h3, h4, h5, h6, h7⟩
    · rename_i hne
      cases e with
      | signal => exact ⟨h1, h2, h3, h4, h5, h6, h7⟩
      | turn b =>
        simp only
        split
        · exact ⟨h1, h2, h3, h4, h5, h6, h7⟩
        · split
          · refine ⟨h1, h2, h3, h4, h5, h6, ?_⟩
            rintro rfl hp
            simp at hp
          · split
            · refine ⟨?_, h2, ?_, ?_, ?_, ?_, fun _ hp => absurd hp hne⟩
              · rw [List.range_succ, ← List.append_assoc]
                exact h1.append_right _
              · rw [List.pairwise_append]
                exact ⟨h3, List.pairwise_singleton _ _, by simpa using h5⟩
              · intro c hc d hd
                rcases List.mem_append.1 hc with hc | hc
                · exact h4 c hc d hd
                · rw [List.mem_singleton.1 hc]; exact h6 d hd
              · intro c hc
                rcases List.mem_append.1 hc with hc | hc
                · exact Nat.lt_succ_of_lt (h5 c hc)
                · rw [List.mem_singleton.1 hc]; exact Nat.lt_succ_self _
              · exact fun c hc => Nat.lt_succ_of_lt (h6 c hc)
            · exact ⟨h1, h2, h3, h4, h5, h6, h7⟩
      | take =>
        simp only
        split
        · rename_i c rest hq
          rw [hq] at h1 h3 h4 h5
          split
          · rename_i hl
            rw [List.pairwise_cons] at h3
            refine ⟨?_, ?_, h3.2, ?_, ?_, ?_, fun _ hp => absurd hp hne⟩
            · simpa using h1
            · rw [List.length_append, List.length_singleton]; omega
            · intro d hd x hx
              rw [← List.append_assoc] at hx
              rcases List.mem_append.1 hx with hx | hx
              · exact h4 d (List.mem_cons_of_mem _ hd) x hx
              · rw [List.mem_singleton.1 hx]; exact h3.1 d hd
            · exact fun d hd => h5 d (List.mem_cons_of_mem _ hd)
            · intro x hx
              rw [← List.append_assoc] at hx
              rcases List.mem_append.1 hx with hx | hx
              · exact h6 x hx
              · rw [List.mem_singleton.1 hx]; exact h5 c List.mem_cons_self
          · exact ⟨by rw [hq]; exact h1, h2, by rw [hq]; exact h3, by rw [hq]; exact h4, by rw [hq]; exact h5, h6, h7⟩
        · exact ⟨h1, h2, h3, h4, h5, h6, h7⟩
      | finish c =>
        simp only
        split
        · rename_i hc
          have hp : (s.finished ++ [c] ++ s.active.erase c).Perm (s.finished ++ s.active) := by
            rw [List.append_assoc]
            exact (List.perm_cons_erase hc).symm.append_left _
          refine ⟨(hp.append_right _).trans h1, ?_, h3, ?_, h5, ?_, fun _ hp => absurd hp hne⟩
          · exact Nat.le_trans (List.length_erase_le ..) h2
          · exact fun x hx d hd => h4 x hx d (hp.mem_iff.1 hd)
          · exact fun x hx => h6 x (hp.mem_iff.1 hx)
        · exact ⟨h1, h2, h3, h4, h5, h6, h7⟩
      | joined =>
        simp only
        split
        · rename_i hj
          exact ⟨h1, h2, h3, h4, h5, h6, fun _ _ => hj.2⟩
        · exact ⟨h1, h2, h3, h4, h5, h6, h7⟩

/-- **C94.** At any moment, every connection that was accepted is in exactly one place: it has been handled, is being handled, or waits. None is lost, none is handled twice, at most
`workers` are handled at a time. -/
theorem C94_accounted (k : Kind) (workers : Nat) (h : List Event) :
    let s := State.after k workers h
    (∀ c, c ∈ s.finished ++ s.active ++ s.queue ↔ c < s.accepted) ∧ (s.finished ++ s.active ++ s.queue).Nodup ∧ s.active.length ≤ workers := by
  obtain ⟨h1, h2, -, -, -, -, -⟩ := inv k workers h
  exact ⟨fun c => by rw [h1.mem_iff, List.mem_range], h1.nodup_iff.2 List.nodup_range, h2⟩

/-- **C94.** Connections are begun in the order in which they were accepted. -/
theorem C94_in_order (k : Kind) (workers : Nat) (h : List Event) (c d : Nat) :
    let s := State.after k workers h
    c ∈ s.finished ++ s.active → d ∈ s.queue → c < d := by
  intro s hc hd
  exact (inv k workers h).order d hd c hc

/-- **C94.** When the TCP server ends, every connection it has accepted has been handled. -/
theorem C94_tcp_graceful (workers : Nat) (h : List Event) (c : Nat) :
    let s := State.after .tcp workers h
    s.phase = .exited → c < s.accepted → c ∈ s.finished := by
  intro s hp hc
  obtain ⟨h1, _, _, _, _, _, h7⟩ := inv .tcp workers h
  obtain ⟨hq, ha⟩ := h7 rfl hp
  have := h1.mem_iff (a := c)
  rw [hq, ha, List.append_nil, List.append_nil, List.mem_range] at this
  exact this.2 hc

theorem step_stop (k : Kind) (w : Nat) (s : State) (hs : s.stop = true ∨ s.phase = .exited) (e : Event) :
    (s.step k w e).accepted = s.accepted ∧ ((s.step k w e).stop = true ∨ (s.step k w e).phase = .exited) := by
  unfold State.step
  split
  · rename_i hp; exact ⟨rfl, .inr hp⟩
  · rename_i hne
    have hst : s.stop = true := hs.resolve_right hne
    cases e with
    | signal => exact ⟨rfl, .inl rfl⟩
    | turn b =>
      simp only
      split
      · exact ⟨rfl, .inl hst⟩
      · split
        · exact ⟨rfl, .inl hst⟩
        · exact ⟨rfl, .inl hst⟩
    | take => simp only; split <;> (try split) <;> exact ⟨rfl, .inl hst⟩
    | finish c => simp only; split <;> exact ⟨rfl, .inl hst⟩
    | joined => simp only; split <;> exact ⟨rfl, .inl hst⟩

/-- **C94.** After the signal no connection is accepted any more. -/
theorem C94_no_more (k : Kind) (workers : Nat) (h h' : List Event) :
    (State.after k workers (h ++ .signal :: h')).accepted = (State.after k workers h).accepted := by
  rw [after_append, List.foldl_cons]
  have h0 : ((State.after k workers h).step k workers .signal).accepted = (State.after k workers h).accepted ∧
      (((State.after k workers h).step k workers .signal).stop = true ∨ ((State.after k workers h).step k workers .signal).phase = .exited) := by
    unfold State.step
    split
    · rename_i hp; exact ⟨rfl, .inr hp⟩
    · exact ⟨rfl, .inl rfl⟩
  rw [← h0.1]
  have hs := h0.2
  generalize (State.after k workers h).step k workers .signal = s at hs
  induction h' generalizing s with
  | nil => rfl
  | cons e h' ih =>
    rw [List.foldl_cons, ih _ (step_stop k workers s hs e).2, (step_stop k workers s hs e).1]

/-! ### It can stop -/

theorem drain (w : Nat) (hw : 0 < w) : ∀ (n : Nat) (s : State), 2 * s.queue.length + s.active.length ≤ n → s.phase = .joining →
    ∃ h : List Event, (h.foldl (State.step .tcp w) s).phase = .exited
  | 0, s, hn, hp => by
    have hq : s.queue = [] := List.length_eq_zero_iff.1 (by omega)
    have ha : s.active = [] := List.length_eq_zero_iff.1 (by omega)
    refine ⟨[.joined], ?_⟩
    simp [State.step, hp, hq, ha]
  | n + 1, s, hn, hp => by
    cases ha : s.active with
    | cons c a =>
      obtain ⟨h, hh⟩ := drain w hw n (s.step .tcp w (.finish c)) (by
        simp only [State.step, hp, ha, List.mem_cons, true_or, if_true, List.erase_cons_head, reduceCtorEq, if_false]
        rw [ha, List.length_cons] at hn
        omega) (by simp [State.step, hp, ha])
      exact ⟨.finish c :: h, hh⟩
    | nil =>
      cases hq : s.queue with
      | nil => exact ⟨[.joined], by simp [State.step, hp, hq, ha]⟩
      | cons c q =>
        obtain ⟨h, hh⟩ := drain w hw n (s.step .tcp w .take) (by
          simp only [State.step, hp, hq, ha, List.length_nil, hw, if_true, reduceCtorEq, if_false, List.nil_append, List.length_singleton]
          rw [hq, ha, List.length_cons, List.length_nil] at hn
          omega) (by simp [State.step, hp, hq, ha, hw])
        exact ⟨.take :: h, hh⟩

/-- **C94.** There is no deadlock in shutting down: from any reachable state of a TCP server with workers, after the signal some continuation ends it. -/
theorem C94_tcp_can_stop (workers : Nat) (hw : 0 < workers) (h : List Event) :
    ∃ h', (State.after .tcp workers (h ++ .signal :: h')).phase = .exited := by
  generalize hs : (State.after .tcp workers h).step .tcp workers .signal = s
  have h0 : s.phase = .exited ∨ s.stop = true := by
    rw [← hs]
    unfold State.step
    split
    · rename_i hp; exact .inl hp
    · exact .inr rfl
  have go : ∃ h' : List Event, (h'.foldl (State.step .tcp workers) s).phase = .exited := by
    rcases h0 with h0 | h0
    · exact ⟨[], h0⟩
    · cases hp : s.phase with
      | exited => exact ⟨[], hp⟩
      | joining => exact drain workers hw _ s (Nat.le_refl _) hp
      | serving =>
        obtain ⟨h', hh⟩ := drain workers hw _ (s.step .tcp workers (.turn false)) (Nat.le_refl _) (by simp [State.step, hp, h0])
        exact ⟨.turn false :: h', hh⟩
  obtain ⟨h', hh⟩ := go
  refine ⟨h', ?_⟩
  rw [after_append, List.foldl_cons, hs]
  exact hh

/-! ### What goes wrong -/

/-- **C94 fails** for the HTTP server: a connection that was accepted, and one that is being handled, are dropped when it is told to stop. -/
theorem C94_http_drops : let s := State.after .http 1 [.turn true, .turn true, .take, .signal, .turn true]
    s.phase = .exited ∧ s.accepted = 2 ∧ s.active = [0] ∧ s.queue = [1] ∧ s.finished = [] := by decide

/-- **C94 fails** for clients that wait: while as many connections as there are workers do not finish (a client of the TCP server that sends nothing is read from without a time
limit), no other connection is handled, whatever happens, and the server does not end. -/
theorem C94_idle_clients_block (workers : Nat) (h h' : List Event) (hw : 0 < workers)
    (hfull : (State.after .tcp workers h).active.length = workers)
    (hidle : ∀ c ∈ (State.after .tcp workers h).active, .finish c ∉ h') :
    (State.after .tcp workers (h ++ h')).active = (State.after .tcp workers h).active ∧
    (State.after .tcp workers (h ++ h')).finished = (State.after .tcp workers h).finished ∧
    (State.after .tcp workers (h ++ h')).phase ≠ .exited := by
  have hp : (State.after .tcp workers h).phase ≠ .exited := by
    intro hp
    have := ((inv .tcp workers h).drained rfl hp).2
    rw [this] at hfull
    simp at hfull
    omega
  rw [after_append]
  generalize State.after .tcp workers h = s at hfull hidle hp
  have key : ∀ (h' : List Event) (t : State), t.active = s.active → t.finished = s.finished → t.phase ≠ .exited → (∀ c ∈ s.active, .finish c ∉ h') →
      (h'.foldl (State.step .tcp workers) t).active = s.active ∧ (h'.foldl (State.step .tcp workers) t).finished = s.finished ∧
      (h'.foldl (State.step .tcp workers) t).phase ≠ .exited := by
    intro h'
    induction h' with
    | nil => exact fun t h1 h2 h3 _ => ⟨h1, h2, h3⟩
    | cons e h' ih =>
      intro t h1 h2 h3 h4
      rw [List.foldl_cons]
      have hrest : ∀ c ∈ s.active, .finish c ∉ h' := fun c hc hm => h4 c hc (List.mem_cons_of_mem _ hm)
      have hstep : (t.step .tcp workers e).active = s.active ∧ (t.step .tcp workers e).finished = s.finished ∧ (t.step .tcp workers e).phase ≠ .exited := by
        unfold State.step
        rw [if_neg h3]
        cases e with
        | signal => exact ⟨h1, h2, h3⟩
        | turn b =>
          simp only
          split
          · exact ⟨h1, h2, h3⟩
          · split
            · exact ⟨h1, h2, by simp⟩
            · split <;> exact ⟨h1, h2, h3⟩
        | take =>
          simp only
          split
          · rw [if_neg (by rw [h1, hfull]; omega)]; exact ⟨h1, h2, h3⟩
          · exact ⟨h1, h2, h3⟩
        | finish c =>
          simp only
          rw [if_neg]
          · exact ⟨h1, h2, h3⟩
          · intro hc
            rw [h1] at hc
            exact h4 c hc List.mem_cons_self
        | joined =>
          simp only
          rw [if_neg]
          · exact ⟨h1, h2, h3⟩
          · rintro ⟨_, _, ha⟩
            rw [h1] at ha
            rw [ha] at hfull
            simp at hfull
            omega
      exact ih _ hstep.1 hstep.2.1 hstep.2.2 hrest
  exact key h' s rfl rfl hp hidle

/-- A case of the theorems: two connections, one worker, a signal in between; both are handled. -/
example : State.after .tcp 1 [.turn true, .take, .turn true, .signal, .turn true, .take, .finish 0, .joined, .take, .finish 1, .joined] =
    ⟨.exited, true, 2, [], [], [0, 1]⟩ := by decide
/-- A case of `C94_idle_clients_block`. -/
example : (State.after .tcp 1 [.turn true, .take, .turn true]).active.length = 1 ∧ (State.after .tcp 1 [.turn true, .take, .turn true]).queue = [1] := by decide

end Workers
