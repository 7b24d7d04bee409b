import Verif.Model.FileSteps
import Verif.Props.HttpFiles
import Verif.Lemmas.Utf8
import Verif.Base.KernelRfl
/-! C107: function files while requests run at the same time, and when the server is stopped at any moment. -/

namespace FileSteps

open Http (Path HttpExt)
open HttpRead (Bytes)

/-! ### Specification -/

/-- Different files have different numbers, all of them used. Every disk there is. -/
def Disk.Sound (d : Disk) : Prop :=
  (∀ p f, d.dir p = some f → f < d.next) ∧ ∀ p q f, d.dir p = some f → d.dir q = some f → p = q

/-- The request number `i` is about path `p` and has come to this phase. -/
def At (w : World) (i : Nat) (p : Path) (ph : Phase) : Prop := w.jobs[i]? = some ⟨p, ph⟩

/-- No request but number `i` does anything about path `p` during the events `h`. -/
def Undisturbed (X : Ext) (H : HttpExt) (i : Nat) (p : Path) : World → List Event → Prop
  | _, [] => True
  | w, e :: h => (∀ j n fails, e = .go j n fails → j ≠ i → ∀ q ph, At w j q ph → q ≠ p) ∧ Undisturbed X H i p (w.step X H e) h

/-- Answered with success. -/
def Phase.succeeded : Phase → Bool
  | .answered (some 200) => true
  | _ => false

/-- The number of requests about path `p` that were answered with success. -/
def successes (w : World) (p : Path) : Nat := w.jobs.countP fun j => decide (j.path = p) && j.phase.succeeded

/-! ### Invariant -/

/-- The code a request carries once it has been validated. -/
def Phase.validCode : Phase → Option Str
  | .saving c => some c
  | .writing c _ _ => some c
  | _ => none

/-- The code a request carries. -/
def Phase.code : Phase → Option Str
  | .upload c => some c
  | .update c => some c
  | .saving c => some c
  | .writing c _ _ => some c
  | _ => none

/-- Who has a file open got it under the path it still has, if it has one. -/
def OpenOk (d : Disk) (j : Job) : Prop :=
  ∀ c f k, j.phase = .writing c f k → f < d.next ∧ ∀ q, d.dir q = some f → q = j.path

/-- What holds in every world. -/
structure Inv (w : World) : Prop where
  sound : w.disk.Sound
  opens : ∀ j ∈ w.jobs, OpenOk w.disk j

theorem mem_set {α : Type} {l : List α} {i : Nat} {a b : α} (h : b ∈ l.set i a) : b = a ∨ b ∈ l := by
  rcases List.mem_or_eq_of_mem_set h with h | h
  · exact .inr h
  · exact .inl h

/-- What one call may do to the disk: nothing at other paths. -/
theorem act_frame (X : Ext) (H : HttpExt) (d : Disk) (j : Job) (n : Nat) (fails : Bool) (hs : d.Sound) (ho : OpenOk d j) (p : Path) (hp : j.path ≠ p) :
    (act X H d j.path n fails j.phase).1.dir p = d.dir p ∧
    ∀ f, d.dir p = some f → (act X H d j.path n fails j.phase).1.data f = d.data f := by
  obtain ⟨q, ph⟩ := j
  cases ph with
  | upload c => simp [act]
  | update c => simp [act]
  | answered s => simp [act]
  | delete => simp [act]
  | saving c =>
    simp only [act]
    cases fails
    · simp only [Bool.false_eq_true, if_false]
      cases hd : d.dir q with
      | some f =>
        refine ⟨rfl, fun g hg => ?_⟩
        have : g ≠ f := fun e => hp (hs.2 q p f hd (e ▸ hg))
        simp [this]
      | none =>
        refine ⟨if_neg (Ne.symm hp), fun g hg => ?_⟩
        have : g ≠ d.next := fun e => by have := hs.1 p g hg; omega
        simp [this]
    · simp
  | writing c f k =>
    simp only [act]
    cases fails
    · simp only [Bool.false_eq_true, if_false]
      split
      · simp
      · refine ⟨rfl, fun g hg => ?_⟩
        have : g ≠ f := fun e => hp ((ho c f k rfl).2 p (e ▸ hg)).symm
        simp [this]
    · simp
  | removing =>
    simp only [act]
    cases fails
    · simp only [Bool.false_eq_true, if_false]
      cases hd : d.dir q with
      | some f => exact ⟨if_neg (Ne.symm hp), fun g hg => rfl⟩
      | none => simp
    · simp

theorem act_next (X : Ext) (H : HttpExt) (d : Disk) (p : Path) (n : Nat) (fails : Bool) (ph : Phase) : d.next ≤ (act X H d p n fails ph).1.next := by
  cases ph <;> simp only [act] <;> (try split) <;> (try split) <;> simp

/-- A path leads where it led before, or nowhere, or to a new file. -/
theorem act_dir (X : Ext) (H : HttpExt) (d : Disk) (p : Path) (n : Nat) (fails : Bool) (ph : Phase) (q : Path) (f : Nat)
    (h : (act X H d p n fails ph).1.dir q = some f) :
    d.dir q = some f ∨ (q = p ∧ f = d.next ∧ (act X H d p n fails ph).1.next = d.next + 1) := by
  cases ph with
  | upload c => exact .inl h
  | update c => exact .inl h
  | answered s => exact .inl h
  | delete => exact .inl h
  | saving c =>
    simp only [act] at h ⊢
    cases fails
    · simp only [Bool.false_eq_true, if_false] at h ⊢
      cases hd : d.dir p with
      | some g => simp only [hd] at h; exact .inl h
      | none =>
        simp only [hd] at h ⊢
        by_cases hq : q = p
        · simp only [hq, if_true, Option.some.injEq] at h
          exact .inr ⟨hq, h.symm, trivial⟩
        · simp only [if_neg hq] at h; exact .inl h
    · exact .inl h
  | writing c g k =>
    simp only [act] at h
    cases fails
    · simp only [Bool.false_eq_true, if_false] at h
      split at h <;> exact .inl h
    · exact .inl h
  | removing =>
    simp only [act] at h
    cases fails
    · simp only [Bool.false_eq_true, if_false] at h
      cases hd : d.dir p with
      | some g =>
        simp only [hd] at h
        by_cases hq : q = p
        · simp [hq] at h
        · simp only [if_neg hq] at h; exact .inl h
      | none => simp only [hd] at h; exact .inl h
    · exact .inl h

/-- A request that has opened a file had it open before, or has just opened the file of its path. -/
theorem act_writing (X : Ext) (H : HttpExt) (d : Disk) (p : Path) (n : Nat) (fails : Bool) (ph : Phase) (c : Str) (f k : Nat)
    (h : (act X H d p n fails ph).2 = .writing c f k) :
    (∃ k', ph = .writing c f k') ∨ (ph = .saving c ∧ k = 0 ∧ (act X H d p n fails ph).1.dir p = some f) := by
  have hv : ∀ c', validated X H c' ≠ .writing c f k := by
    intro c'; unfold validated; split <;> simp
  cases ph with
  | upload c' => exact absurd h (hv c')
  | update c' =>
    simp only [act] at h
    split at h
    · exact absurd h (hv c')
    · exact absurd h (by simp)
  | answered s => exact absurd h (by simp [act])
  | delete => simp only [act] at h; split at h <;> simp at h
  | saving c' =>
    simp only [act] at h ⊢
    cases fails
    · simp only [Bool.false_eq_true, if_false] at h ⊢
      cases hd : d.dir p with
      | some g =>
        simp only [hd, Phase.writing.injEq] at h
        obtain ⟨rfl, rfl, rfl⟩ := h
        exact .inr ⟨rfl, rfl, hd⟩
      | none =>
        simp only [hd, Phase.writing.injEq] at h
        obtain ⟨rfl, rfl, rfl⟩ := h
        exact .inr ⟨rfl, rfl, by simp⟩
    · simp at h
  | writing c' g k' =>
    simp only [act] at h
    cases fails
    · simp only [Bool.false_eq_true, if_false] at h
      split at h
      · simp at h
      · simp only [Phase.writing.injEq] at h
        obtain ⟨rfl, rfl, _⟩ := h
        exact .inl ⟨k', rfl⟩
    · simp at h
  | removing =>
    simp only [act] at h
    cases fails
    · simp only [Bool.false_eq_true, if_false] at h
      cases hd : d.dir p <;> simp [hd] at h
    · simp at h

theorem act_sound (X : Ext) (H : HttpExt) (d : Disk) (p : Path) (n : Nat) (fails : Bool) (ph : Phase) (hs : d.Sound) :
    (act X H d p n fails ph).1.Sound := by
  have hn := act_next X H d p n fails ph
  constructor
  · intro q f h
    rcases act_dir X H d p n fails ph q f h with h | ⟨_, rfl, h⟩
    · exact lt_of_lt_of_le (hs.1 q f h) hn
    · omega
  · intro q r f hq hr
    rcases act_dir X H d p n fails ph q f hq with h1 | ⟨e1, f1, _⟩
    · rcases act_dir X H d p n fails ph r f hr with h2 | ⟨_, h2, _⟩
      · exact hs.2 q r f h1 h2
      · exact absurd (hs.1 q f h1) (by omega)
    · rcases act_dir X H d p n fails ph r f hr with h2 | ⟨e2, _, _⟩
      · exact absurd (hs.1 r _ h2) (by omega)
      · rw [e1, e2]

theorem Inv.step (X : Ext) (H : HttpExt) {w : World} (hi : Inv w) (e : Event) : Inv (w.step X H e) := by
  cases e with
  | request p q =>
    refine ⟨hi.sound, ?_⟩
    intro j hj
    simp only [World.step, List.mem_append, List.mem_singleton] at hj
    rcases hj with hj | rfl
    · exact hi.opens j hj
    · intro c f k h; cases q <;> simp [Wish.phase] at h
  | go i n fails =>
    simp only [World.step]
    cases hj : w.jobs[i]? with
    | none => exact hi
    | some j =>
      have hjm : j ∈ w.jobs := List.mem_of_getElem? hj
      have hs' := act_sound X H w.disk j.path n fails j.phase hi.sound
      have hn := act_next X H w.disk j.path n fails j.phase
      have old : ∀ (c : Str) (f k : Nat) (j' : Job), j' ∈ w.jobs → j'.phase = .writing c f k →
          f < (act X H w.disk j.path n fails j.phase).1.next ∧ ∀ q, (act X H w.disk j.path n fails j.phase).1.dir q = some f → q = j'.path := by
        intro c f k j' hj' hp
        obtain ⟨h1, h2⟩ := hi.opens j' hj' c f k hp
        refine ⟨lt_of_lt_of_le h1 hn, fun q hq => ?_⟩
        rcases act_dir X H _ _ _ _ _ q f hq with h | ⟨_, h, _⟩
        · exact h2 q h
        · omega
      refine ⟨hs', ?_⟩
      intro j' hj'
      rcases mem_set hj' with rfl | hj'
      · intro c f k hp
        rcases act_writing X H _ _ _ _ _ c f k hp with ⟨k', h⟩ | ⟨_, _, h⟩
        · exact old c f k' j hjm h
        · exact ⟨hs'.1 _ _ h, fun q hq => hs'.2 q _ f hq h⟩
      · intro c f k hp
        exact old c f k j' hj' hp

theorem Inv.run (X : Ext) (H : HttpExt) {w : World} (hi : Inv w) (h : List Event) : Inv (w.run X H h) := by
  induction h generalizing w with
  | nil => exact hi
  | cons e h ih => exact ih (hi.step X H e)

theorem run_cons (X : Ext) (H : HttpExt) (w : World) (e : Event) (h : List Event) : w.run X H (e :: h) = (w.step X H e).run X H h := rfl
theorem run_append (X : Ext) (H : HttpExt) (w : World) (h h' : List Event) : w.run X H (h ++ h') = (w.run X H h).run X H h' := by
  unfold World.run; rw [List.foldl_append]

/-- The jobs stay about their paths. -/
theorem step_paths (X : Ext) (H : HttpExt) (w : World) (e : Event) (i : Nat) (q : Path) (ph : Phase) (h : At (w.step X H e) i q ph) :
    (∃ ph', At w i q ph') ∨ (∃ x, e = .request q x ∧ i = w.jobs.length ∧ ph = x.phase) := by
  unfold At at *
  cases e with
  | request p x =>
    simp only [World.step, List.getElem?_append] at h
    split at h
    · exact .inl ⟨ph, h⟩
    · have : i - w.jobs.length = 0 := by
        by_contra hc
        obtain ⟨m, hm⟩ : ∃ m, i - w.jobs.length = m + 1 := ⟨i - w.jobs.length - 1, by omega⟩
        simp [hm] at h
      rw [this] at h
      simp only [List.getElem?_cons_zero, Option.some.injEq, Job.mk.injEq] at h
      exact .inr ⟨x, by rw [h.1], by omega, h.2.symm⟩
  | go k n fails =>
    simp only [World.step] at h
    cases hj : w.jobs[k]? with
    | none => simp only [hj] at h; exact .inl ⟨ph, h⟩
    | some j =>
      simp only [hj, List.getElem?_set] at h
      split at h
      · rename_i hk
        subst hk
        split at h
        · simp only [Option.some.injEq, Job.mk.injEq] at h
          exact .inl ⟨j.phase, by rw [hj, ← h.1]⟩
        · simp at h
      · exact .inl ⟨ph, h⟩

/-- A step of a request about another path, and the arrival of a request, leave a file alone. -/
theorem step_frame (X : Ext) (H : HttpExt) {w : World} (hi : Inv w) (e : Event) (p : Path)
    (he : ∀ j n fails, e = .go j n fails → ∀ q ph, At w j q ph → q ≠ p) :
    (w.step X H e).disk.dir p = w.disk.dir p ∧ ∀ f, w.disk.dir p = some f → (w.step X H e).disk.data f = w.disk.data f := by
  cases e with
  | request q x => exact ⟨rfl, fun _ _ => rfl⟩
  | go i n fails =>
    simp only [World.step]
    cases hj : w.jobs[i]? with
    | none => exact ⟨rfl, fun _ _ => rfl⟩
    | some j =>
      exact act_frame X H w.disk j n fails hi.sound (hi.opens j (List.mem_of_getElem? hj)) p (he i n fails rfl j.path j.phase hj)

theorem content_frame {d d' : Disk} {p : Path} (h : d'.dir p = d.dir p ∧ ∀ f, d.dir p = some f → d'.data f = d.data f) : d'.content p = d.content p := by
  unfold Disk.content
  rw [h.1]
  cases hd : d.dir p with
  | none => rfl
  | some f => simp [h.2 f hd]

/-! ### C107 -/

theorem untouched (X : Ext) (H : HttpExt) (p : Path) (h : List Event) : ∀ (w : World), Inv w → (∀ i q ph, At w i q ph → q ≠ p) →
    (∀ q x, .request q x ∈ h → q ≠ p) → (w.run X H h).disk.content p = w.disk.content p := by
  induction h with
  | nil => intro w _ _ _; rfl
  | cons e h ih =>
    intro w hi hw hh
    rw [run_cons, ih _ (hi.step X H e) ?_ (fun q x hm => hh q x (List.mem_cons_of_mem _ hm))]
    · exact content_frame (step_frame X H hi e p fun j n f _ q ph ha => hw j q ph ha)
    · intro i q ph ha
      rcases step_paths X H w e i q ph ha with ⟨ph', h'⟩ | ⟨x, rfl, _, _⟩
      · exact hw i q ph' h'
      · exact hh q x (by simp)

/-- **C107.** Whatever requests run at the same time, and wherever the server stops: a file that none of them names is as it was. -/
theorem C107_untouched (X : Ext) (H : HttpExt) (d : Disk) (hd : d.Sound) (h : List Event) (p : Path) (hp : ∀ q x, .request q x ∈ h → q ≠ p) :
    (World.run X H ⟨d, []⟩ h).disk.content p = d.content p :=
  untouched X H p h ⟨d, []⟩ ⟨hd, by simp⟩ (by intro i q ph ha; simp [At] at ha) hp

theorem writeAt_end (old chunk : Bytes) : writeAt old old.length chunk = old ++ chunk := by
  simp [writeAt]

theorem take_add_chunk (bs : Bytes) (k n : Nat) :
    bs.take k ++ (bs.drop k).take (n + 1) = bs.take (k + ((bs.drop k).take (n + 1)).length) := by
  have h := (List.take_add (l := bs) (i := k) (j := ((bs.drop k).take (n + 1)).length)).symm
  rw [← h]
  congr 1
  rw [List.length_take, List.length_drop]
  by_cases h : n + 1 ≤ bs.length - k
  · rw [min_eq_left h]
  · rw [min_eq_right (by omega), List.take_of_length_le (i := n + 1) (by rw [List.length_drop]; omega),
      List.take_of_length_le (i := bs.length - k) (by rw [List.length_drop])]

/-- How far an undisturbed request has come, and what its file looks like: `old` is what it was. `upd`: it is an update. `bad`: a call has failed. -/
inductive Own (X : Ext) (H : HttpExt) (code : Str) (p : Path) (old : Option Bytes) (upd bad : Prop) (d : Disk) : Phase → Prop
  | upload : d.content p = old → Own X H code p old upd bad d (.upload code)
  | update : upd → d.content p = old → Own X H code p old upd bad d (.update code)
  | saving : validated X H code = .saving code → d.content p = old → Own X H code p old upd bad d (.saving code)
  | writing {f k : Nat} : validated X H code = .saving code → d.dir p = some f → d.data f = (encode code).take k → k ≤ (encode code).length →
      Own X H code p old upd bad d (.writing code f k)
  | done : validated X H code = .saving code → d.content p = some (encode code) → Own X H code p old upd bad d (.answered (some 200))
  | failed {k : Nat} : bad → d.content p = some ((encode code).take k) → Own X H code p old upd bad d (.answered (some 500))
  | refused {s : Option Nat} : validated X H code = .answered s ∨ (s = some 500 ∧ bad) ∨ (s = some 404 ∧ upd ∧ old = none) → d.content p = old →
      Own X H code p old upd bad d (.answered s)

section
variable {X : Ext} {H : HttpExt} {code : Str} {p : Path} {old : Option Bytes} {upd bad : Prop} {d d' : Disk} {ph : Phase}

theorem Own.frame (ho : Own X H code p old upd bad d ph)
    (h : d'.dir p = d.dir p ∧ ∀ f, d.dir p = some f → d'.data f = d.data f) : Own X H code p old upd bad d' ph := by
  have hc := content_frame h
  cases ho with
  | upload h1 => exact .upload (hc.trans h1)
  | update h0 h1 => exact .update h0 (hc.trans h1)
  | saving h0 h1 => exact .saving h0 (hc.trans h1)
  | writing h0 h1 h2 h3 => exact .writing h0 (h.1.trans h1) ((h.2 _ h1).trans h2) h3
  | done h0 h1 => exact .done h0 (hc.trans h1)
  | failed h0 h1 => exact .failed h0 (hc.trans h1)
  | refused h0 h1 => exact .refused h0 (hc.trans h1)

theorem Own.act (ho : Own X H code p old upd bad d ph) (n : Nat) (fails : Bool) (hb : fails = true → bad) :
    Own X H code p old upd bad (act X H d p n fails ph).1 (act X H d p n fails ph).2 := by
  have hv : d.content p = old → Own X H code p old upd bad d (validated X H code) := by
    intro h
    have : validated X H code = .saving code ∨ ∃ s, validated X H code = .answered s := by
      unfold validated; split <;> simp
    rcases this with e | ⟨s, e⟩
    · rw [e]; exact .saving e h
    · rw [e]; exact .refused (.inl e) h
  cases ho with
  | upload h1 => exact hv h1
  | update h0 h1 =>
    simp only [FileSteps.act]
    cases hd : d.dir p with
    | some f => exact hv h1
    | none => exact .refused (.inr (.inr ⟨rfl, h0, by rw [← h1]; simp [Disk.content, hd]⟩)) h1
  | saving h0 h1 =>
    simp only [FileSteps.act]
    cases fails
    · simp only [Bool.false_eq_true, if_false]
      cases hd : d.dir p with
      | some f => exact .writing h0 hd (by simp) (by simp)
      | none => exact .writing h0 (by simp) (by simp) (by simp)
    · exact .refused (.inr (.inl ⟨rfl, hb rfl⟩)) h1
  | @writing f k h0 h1 h2 h3 =>
    simp only [FileSteps.act]
    cases fails
    · simp only [Bool.false_eq_true, if_false]
      split
      · rename_i hk
        refine .done h0 ?_
        rw [List.take_of_length_le hk] at h2
        simp [Disk.content, h1, h2]
      · refine .writing h0 h1 ?_ ?_
        · simp only [if_true, h2]
          have : writeAt ((encode code).take k) k = writeAt ((encode code).take k) ((encode code).take k).length := by rw [List.length_take, min_eq_left h3]
          rw [this, writeAt_end, take_add_chunk _ _ _]
        · rw [List.length_take, List.length_drop]; omega
    · exact .failed (k := k) (hb rfl) (by simp [Disk.content, h1, h2])
  | done h0 h1 => exact .done h0 h1
  | failed h0 h1 => exact .failed h0 h1
  | refused h0 h1 => exact .refused h0 h1

/-- How far an undisturbed deletion has come. -/
inductive OwnDelete (p : Path) (old : Option Bytes) (bad : Prop) (d : Disk) : Phase → Prop
  | delete : d.content p = old → OwnDelete p old bad d .delete
  | removing : old ≠ none → d.content p = old → OwnDelete p old bad d .removing
  | done : old ≠ none → d.content p = none → OwnDelete p old bad d (.answered (some 200))
  | refused : old = none ∨ bad → d.content p = old → OwnDelete p old bad d (.answered (some 500))

theorem OwnDelete.frame (ho : OwnDelete p old bad d ph)
    (h : d'.dir p = d.dir p ∧ ∀ f, d.dir p = some f → d'.data f = d.data f) : OwnDelete p old bad d' ph := by
  have hc := content_frame h
  cases ho with
  | delete h1 => exact .delete (hc.trans h1)
  | removing h0 h1 => exact .removing h0 (hc.trans h1)
  | done h0 h1 => exact .done h0 (hc.trans h1)
  | refused h0 h1 => exact .refused h0 (hc.trans h1)

theorem OwnDelete.act (ho : OwnDelete p old bad d ph) (X : Ext) (H : HttpExt) (n : Nat) (fails : Bool) (hb : fails = true → bad) :
    OwnDelete p old bad (act X H d p n fails ph).1 (act X H d p n fails ph).2 := by
  cases ho with
  | delete h1 =>
    simp only [FileSteps.act]
    cases hd : d.dir p with
    | some f => exact .removing (by rw [← h1]; simp [Disk.content, hd]) h1
    | none => exact .refused (.inl (by rw [← h1]; simp [Disk.content, hd])) h1
  | removing h0 h1 =>
    simp only [FileSteps.act]
    cases fails
    · simp only [Bool.false_eq_true, if_false]
      cases hd : d.dir p with
      | some f => exact .done h0 (by simp [Disk.content])
      | none => exact absurd (by rw [← h1]; simp [Disk.content, hd]) h0
    · exact .refused (.inr (hb rfl)) h1
  | done h0 h1 => exact .done h0 h1
  | refused h0 h1 => exact .refused h0 h1

end

/-- Following one request, to which `Q` applies and nobody else about its path does anything. -/
theorem follow_step (X : Ext) (H : HttpExt) (Q : Disk → Phase → Prop) (i : Nat) (p : Path) (ok : Bool → Prop)
    (hf : ∀ d d' ph, Q d ph → (d'.dir p = d.dir p ∧ ∀ f, d.dir p = some f → d'.data f = d.data f) → Q d' ph)
    (ha : ∀ d ph n fails, ok fails → Q d ph → Q (act X H d p n fails ph).1 (act X H d p n fails ph).2)
    {w : World} (hi : Inv w) (ph : Phase) (hat : At w i p ph) (ho : Q w.disk ph) (e : Event)
    (he : ∀ j n fails, e = .go j n fails → j ≠ i → ∀ q ph, At w j q ph → q ≠ p) (hok : ∀ n fails, e = .go i n fails → ok fails) :
    ∃ ph', At (w.step X H e) i p ph' ∧ Q (w.step X H e).disk ph' := by
  have hlt : i < w.jobs.length := by
    unfold At at hat
    by_contra hc
    rw [List.getElem?_eq_none (by omega)] at hat
    simp at hat
  cases e with
  | request q x => exact ⟨ph, by simp only [At, World.step, List.getElem?_append_left hlt]; exact hat, ho⟩
  | go j n fails =>
    by_cases hj : j = i
    · subst hj
      refine ⟨(FileSteps.act X H w.disk p n fails ph).2, ?_, ?_⟩
      · unfold At at hat ⊢
        simp only [World.step, hat, List.getElem?_set_self hlt]
      · unfold At at hat
        simp only [World.step, hat]
        exact ha _ _ n fails (hok n fails rfl) ho
    · refine ⟨ph, ?_, hf _ _ _ ho (step_frame X H hi _ p ?_)⟩
      · unfold At at hat ⊢
        simp only [World.step]
        cases hw : w.jobs[j]? with
        | none => exact hat
        | some _ => simp only [List.getElem?_set_ne hj]; exact hat
      · intro j' n' f' e' q ph' hq
        simp only [Event.go.injEq] at e'
        exact he j n fails rfl hj q ph' (e'.1 ▸ hq)

theorem follow (X : Ext) (H : HttpExt) (Q : Disk → Phase → Prop) (i : Nat) (p : Path) (ok : Bool → Prop)
    (hf : ∀ d d' ph, Q d ph → (d'.dir p = d.dir p ∧ ∀ f, d.dir p = some f → d'.data f = d.data f) → Q d' ph)
    (ha : ∀ d ph n fails, ok fails → Q d ph → Q (act X H d p n fails ph).1 (act X H d p n fails ph).2) (h : List Event) :
    ∀ {w : World}, Inv w → ∀ {ph : Phase}, At w i p ph → Q w.disk ph → Undisturbed X H i p w h → (∀ n fails, .go i n fails ∈ h → ok fails) →
      ∃ ph', At (w.run X H h) i p ph' ∧ Q (w.run X H h).disk ph' := by
  induction h with
  | nil => intro w _ ph ha ho _ _; exact ⟨ph, ha, ho⟩
  | cons e h ih =>
    intro w hi ph hat ho hu hok
    obtain ⟨ph', ha', ho'⟩ := follow_step X H Q i p ok hf ha hi ph hat ho e hu.1 (fun n f he => hok n f (by simp [he]))
    exact ih (hi.step X H e) ha' ho' hu.2 (fun n f hm => hok n f (List.mem_cons_of_mem _ hm))

theorem At.unique {w : World} {i : Nat} {p : Path} {s t : Phase} (h : At w i p s) (h' : At w i p t) : s = t := by
  unfold At at h h'
  rw [h] at h'
  simpa using h'

/-- Whether one of its calls fails. -/
def Fails (i : Nat) (h : List Event) : Prop := ∃ n, .go i n true ∈ h

theorem alone_own (X : Ext) (H : HttpExt) (d : Disk) (hd : d.Sound) (before during : List Event) (i : Nat) (p : Path) (code : Str) (start : Phase) (upd : Prop)
    (hs : start = .upload code ∨ (start = .update code ∧ upd)) (hj : At (World.run X H ⟨d, []⟩ before) i p start)
    (hu : Undisturbed X H i p (World.run X H ⟨d, []⟩ before) during) :
    ∃ ph, At (World.run X H ⟨d, []⟩ (before ++ during)) i p ph ∧
      Own X H code p ((World.run X H ⟨d, []⟩ before).disk.content p) upd (Fails i during) (World.run X H ⟨d, []⟩ (before ++ during)).disk ph := by
  have hi : Inv (World.run X H ⟨d, []⟩ before) := Inv.run X H ⟨hd, by simp⟩ before
  rw [run_append]
  refine follow X H _ i p (fun f => f = true → Fails i during) (fun d d' ph h h' => h.frame h') (fun d ph n f hf h => h.act n f hf) during hi hj ?_ hu ?_
  · rcases hs with rfl | ⟨rfl, hu⟩
    · exact .upload rfl
    · exact .update hu rfl
  · intro n f hm hf
    exact ⟨n, hf ▸ hm⟩

/-- **C107.** While nothing else happens to its file, an upload or update of a file changes it from what it was to a beginning of the new content. Once it is answered with
success the file has the new content; if it is refused, the file is as before. This holds at every moment, hence also when the server is stopped, after any earlier requests,
and whatever happens to other files at the same time. -/
theorem C107_alone (X : Ext) (H : HttpExt) (d : Disk) (hd : d.Sound) (before during : List Event) (i : Nat) (p : Path) (code : Str)
    (hj : At (World.run X H ⟨d, []⟩ before) i p (.upload code) ∨ At (World.run X H ⟨d, []⟩ before) i p (.update code))
    (hu : Undisturbed X H i p (World.run X H ⟨d, []⟩ before) during) :
    let old := (World.run X H ⟨d, []⟩ before).disk.content p
    let w := World.run X H ⟨d, []⟩ (before ++ during)
    (w.disk.content p = old ∨ ∃ k, w.disk.content p = some ((encode code).take k)) ∧
    (At w i p (.answered (some 200)) → w.disk.content p = some (encode code)) ∧
    (∀ s, s ≠ some 200 → s ≠ some 500 → At w i p (.answered s) → w.disk.content p = old) ∧
    (At w i p (.answered (some 500)) → Fails i during) := by
  obtain ⟨ph, ha, ho⟩ : ∃ ph, At (World.run X H ⟨d, []⟩ (before ++ during)) i p ph ∧
      Own X H code p ((World.run X H ⟨d, []⟩ before).disk.content p) True (Fails i during) (World.run X H ⟨d, []⟩ (before ++ during)).disk ph := by
    rcases hj with hj | hj
    · exact alone_own X H d hd before during i p code _ True (.inl rfl) hj hu
    · exact alone_own X H d hd before during i p code _ True (.inr ⟨rfl, trivial⟩) hj hu
  dsimp only
  have hval : ∀ {s}, validated X H code = .answered s → s = some 400 ∨ s = none := by
    intro s hv
    unfold validated at hv
    split at hv <;> simp at hv <;> simp [← hv]
  cases ho with
  | upload h1 => exact ⟨.inl h1, fun h => (by cases ha.unique h), fun s _ _ h => h1, fun h => (by cases ha.unique h)⟩
  | update _ h1 => exact ⟨.inl h1, fun h => (by cases ha.unique h), fun s _ _ h => h1, fun h => (by cases ha.unique h)⟩
  | saving _ h1 => exact ⟨.inl h1, fun h => (by cases ha.unique h), fun s _ _ h => h1, fun h => (by cases ha.unique h)⟩
  | @writing f k _ h1 h2 h3 =>
    exact ⟨.inr ⟨k, by simp [Disk.content, h1, h2]⟩, fun h => (by cases ha.unique h), fun s _ _ h => (by cases ha.unique h), fun h => (by cases ha.unique h)⟩
  | done _ h1 =>
    exact ⟨.inr ⟨(encode code).length, by simpa using h1⟩, fun _ => h1, fun s h0 _ h => absurd (by cases ha.unique h; rfl) h0, fun h => (by cases ha.unique h)⟩
  | @failed k hb h1 => exact ⟨.inr ⟨k, h1⟩, fun h => (by cases ha.unique h), fun s _ h0 h => absurd (by cases ha.unique h; rfl) h0, fun _ => hb⟩
  | @refused s h0 h1 =>
    refine ⟨.inl h1, fun h => ?_, fun s _ _ _ => h1, fun h => ?_⟩
    · cases ha.unique h
      rcases h0 with h0 | ⟨h0, _⟩ | ⟨h0, _⟩
      · rcases hval h0 with h | h <;> simp at h
      · simp at h0
      · simp at h0
    · cases ha.unique h
      rcases h0 with h0 | ⟨_, h0⟩ | ⟨h0, _⟩
      · rcases hval h0 with h | h <;> simp at h
      · exact h0
      · simp at h0

/-- **C107.** While nothing else happens to its file, a deletion leaves it as it was until it removes it. It is answered with success exactly if it has removed it, and with a
failure only if there was no file or a call failed. -/
theorem C107_alone_delete (X : Ext) (H : HttpExt) (d : Disk) (hd : d.Sound) (before during : List Event) (i : Nat) (p : Path)
    (hj : At (World.run X H ⟨d, []⟩ before) i p .delete) (hu : Undisturbed X H i p (World.run X H ⟨d, []⟩ before) during) :
    let old := (World.run X H ⟨d, []⟩ before).disk.content p
    let w := World.run X H ⟨d, []⟩ (before ++ during)
    (w.disk.content p = old ∨ w.disk.content p = none) ∧
    (At w i p (.answered (some 200)) ↔ old ≠ none ∧ w.disk.content p = none) ∧
    (∀ s, s ≠ some 200 → At w i p (.answered s) → s = some 500 ∧ (old = none ∨ Fails i during)) := by
  have hi : Inv (World.run X H ⟨d, []⟩ before) := Inv.run X H ⟨hd, by simp⟩ before
  obtain ⟨ph, ha, ho⟩ : ∃ ph, At (World.run X H ⟨d, []⟩ (before ++ during)) i p ph ∧
      OwnDelete p ((World.run X H ⟨d, []⟩ before).disk.content p) (Fails i during) (World.run X H ⟨d, []⟩ (before ++ during)).disk ph := by
    rw [run_append]
    exact follow X H _ i p (fun f => f = true → Fails i during) (fun d d' ph h h' => h.frame h') (fun d ph n f hf h => h.act X H n f hf) during hi hj (.delete rfl) hu
      (fun n f hm hf => ⟨n, hf ▸ hm⟩)
  dsimp only
  cases ho with
  | delete h1 => exact ⟨.inl h1, ⟨fun h => (by cases ha.unique h), fun h => absurd (h1.symm.trans h.2) h.1⟩, fun s _ h => (by cases ha.unique h)⟩
  | removing h0 h1 => exact ⟨.inl h1, ⟨fun h => (by cases ha.unique h), fun h => absurd (h1.symm.trans h.2) h.1⟩, fun s _ h => (by cases ha.unique h)⟩
  | done h0 h1 => exact ⟨.inr h1, ⟨fun _ => ⟨h0, h1⟩, fun _ => ha⟩, fun s hs h => absurd (by cases ha.unique h; rfl) hs⟩
  | refused h0 h1 =>
    refine ⟨.inl h1, ⟨fun h => (by cases ha.unique h), fun h => absurd (h1.symm.trans h.2) h.1⟩, fun s _ h => ?_⟩
    cases ha.unique h
    exact ⟨rfl, h0⟩

/-! ### Any number of requests about one file -/

/-- An upload or update with this content was requested. -/
def Requested (h : List Event) (p : Path) (c : Str) : Prop := .request p (.upload c) ∈ h ∨ .request p (.update c) ∈ h

/-- Validation accepts it. -/
def Accepted (X : Ext) (H : HttpExt) (c : Str) : Prop := ∃ r, Http.validateJs X H c = .ok r

theorem validated_valid {X : Ext} {H : HttpExt} {c c' : Str} (h : (validated X H c).validCode = some c') : c' = c ∧ Accepted X H c := by
  unfold validated at h
  split at h
  · rename_i r hr
    simp only [Phase.validCode, Option.some.injEq] at h
    exact ⟨h.symm, r, hr⟩
  · simp [Phase.validCode] at h
  · simp [Phase.validCode] at h

theorem validated_code {X : Ext} {H : HttpExt} {c c' : Str} (h : (validated X H c).code = some c') : c' = c := by
  unfold validated at h
  split at h <;> simp [Phase.code] at h
  exact h.symm

theorem writeAt_get {old chunk : Bytes} {k m : Nat} {b : UInt8} (h : (writeAt old k chunk)[m]? = some b) :
    old[m]? = some b ∨ b = 0 ∨ (k ≤ m ∧ chunk[m - k]? = some b) := by
  unfold writeAt at h
  have hl : ((old ++ List.replicate (k - old.length) 0).take k).length = k := by
    rw [List.length_take, List.length_append, List.length_replicate]; omega
  rw [List.append_assoc] at h
  by_cases hm : m < k
  · rw [List.getElem?_append_left (by omega), List.getElem?_take_of_lt hm] at h
    by_cases ho : m < old.length
    · rw [List.getElem?_append_left ho] at h
      exact .inl h
    · rw [List.getElem?_append_right (by omega), List.getElem?_replicate] at h
      split at h
      · simp only [Option.some.injEq] at h; exact .inr (.inl h.symm)
      · simp at h
  · rw [List.getElem?_append_right (by omega), hl] at h
    by_cases hc : m - k < chunk.length
    · rw [List.getElem?_append_left hc] at h
      exact .inr (.inr ⟨by omega, h⟩)
    · rw [List.getElem?_append_right (by omega), List.getElem?_drop] at h
      refine .inl ?_
      rw [← h]
      congr 1
      omega

/-- Where the bytes and the requests come from. -/
structure From (X : Ext) (H : HttpExt) (R : Path → Str → Prop) (P : Path → Nat → UInt8 → Prop) (w : World) : Prop where
  inv : Inv w
  codes : ∀ j ∈ w.jobs, ∀ c, j.phase.code = some c → R j.path c
  valid : ∀ j ∈ w.jobs, ∀ c, j.phase.validCode = some c → Accepted X H c
  bytes : ∀ p f k b, w.disk.dir p = some f → (w.disk.data f)[k]? = some b → P p k b

theorem act_code (X : Ext) (H : HttpExt) (d : Disk) (p : Path) (n : Nat) (fails : Bool) (ph : Phase) (c : Str) :
    ((act X H d p n fails ph).2.code = some c → ph.code = some c) ∧
    ((act X H d p n fails ph).2.validCode = some c → ph.validCode = some c ∨ Accepted X H c) := by
  cases ph with
  | upload c' =>
    exact ⟨fun h => by rw [validated_code h]; rfl, fun h => by obtain ⟨rfl, h⟩ := validated_valid h; exact .inr h⟩
  | update c' =>
    simp only [act]
    split
    · exact ⟨fun h => by rw [validated_code h]; rfl, fun h => by obtain ⟨rfl, h⟩ := validated_valid h; exact .inr h⟩
    · simp [Phase.code, Phase.validCode]
  | answered s => exact ⟨id, .inl⟩
  | delete => simp only [act]; split <;> simp [Phase.code, Phase.validCode]
  | saving c' =>
    simp only [act]
    split
    · simp [Phase.code, Phase.validCode]
    · cases d.dir p <;> simp [Phase.code, Phase.validCode] <;> exact .inl
  | writing c' f k =>
    simp only [act]
    split
    · simp [Phase.code, Phase.validCode]
    · split <;> simp [Phase.code, Phase.validCode] <;> exact .inl
  | removing =>
    simp only [act]
    split
    · simp [Phase.code, Phase.validCode]
    · cases d.dir p <;> simp [Phase.code, Phase.validCode]

theorem From.step {X : Ext} {H : HttpExt} {R : Path → Str → Prop} {P : Path → Nat → UInt8 → Prop}
    (hP : ∀ p c k b, R p c → Accepted X H c → (encode c)[k]? = some b → P p k b) (h0 : ∀ p k, P p k 0)
    {w : World} (hf : From X H R P w) (e : Event) (he : ∀ p c, e = .request p (.upload c) ∨ e = .request p (.update c) → R p c) : From X H R P (w.step X H e) := by
  refine ⟨hf.inv.step X H e, ?_, ?_, ?_⟩
  · intro j hj c hc
    cases e with
    | request p x =>
      simp only [World.step, List.mem_append, List.mem_singleton] at hj
      rcases hj with hj | rfl
      · exact hf.codes j hj c hc
      · cases x <;> simp only [Wish.phase, Phase.code, Option.some.injEq, reduceCtorEq] at hc
        · exact he p c (.inl (by rw [hc]))
        · exact he p c (.inr (by rw [hc]))
    | go i n fails =>
      simp only [World.step] at hj
      cases hw : w.jobs[i]? with
      | none => simp only [hw] at hj; exact hf.codes j hj c hc
      | some j' =>
        simp only [hw] at hj
        rcases mem_set hj with rfl | hj
        · exact hf.codes j' (List.mem_of_getElem? hw) c ((act_code X H _ _ _ _ _ c).1 hc)
        · exact hf.codes j hj c hc
  · intro j hj c hc
    cases e with
    | request p x =>
      simp only [World.step, List.mem_append, List.mem_singleton] at hj
      rcases hj with hj | rfl
      · exact hf.valid j hj c hc
      · cases x <;> simp [Wish.phase, Phase.validCode] at hc
    | go i n fails =>
      simp only [World.step] at hj
      cases hw : w.jobs[i]? with
      | none => simp only [hw] at hj; exact hf.valid j hj c hc
      | some j' =>
        simp only [hw] at hj
        rcases mem_set hj with rfl | hj
        · rcases (act_code X H _ _ _ _ _ c).2 hc with h | h
          · exact hf.valid j' (List.mem_of_getElem? hw) c h
          · exact h
        · exact hf.valid j hj c hc
  · intro p f k b hd hb
    cases e with
    | request q x => exact hf.bytes p f k b hd hb
    | go i n fails =>
      simp only [World.step] at hd hb
      cases hw : w.jobs[i]? with
      | none => simp only [hw] at hd hb; exact hf.bytes p f k b hd hb
      | some j =>
        simp only [hw] at hd hb
        have hm := List.mem_of_getElem? hw
        obtain ⟨q, ph⟩ := j
        cases ph with
        | upload c => exact hf.bytes p f k b hd hb
        | update c => exact hf.bytes p f k b hd hb
        | answered c => exact hf.bytes p f k b hd hb
        | delete => exact hf.bytes p f k b hd hb
        | saving c =>
          simp only [act] at hd hb
          cases fails
          · simp only [Bool.false_eq_true, if_false] at hd hb
            cases hq : w.disk.dir q with
            | some g =>
              simp only [hq] at hd hb
              split at hb
              · simp at hb
              · exact hf.bytes p f k b hd hb
            | none =>
              simp only [hq] at hd hb
              split at hb
              · simp at hb
              · rename_i hg
                split at hd
                · simp only [Option.some.injEq] at hd; exact absurd hd.symm hg
                · exact hf.bytes p f k b hd hb
          · exact hf.bytes p f k b hd hb
        | writing c g m =>
          simp only [act] at hd hb
          cases fails
          · simp only [Bool.false_eq_true, if_false] at hd hb
            split at hd
            · rename_i hl
              rw [if_pos hl] at hb
              exact hf.bytes p f k b hd hb
            · rename_i hl
              rw [if_neg hl] at hb
              simp only at hd hb
              split at hb
              · rename_i hfg
                subst hfg
                have hpq : p = q := (hf.inv.opens _ hm c f m rfl).2 p hd
                subst hpq
                rcases writeAt_get hb with h | rfl | ⟨h1, h2⟩
                · exact hf.bytes p f k b hd h
                · exact h0 p k
                · refine hP p c k b (hf.codes _ hm c rfl) (hf.valid _ hm c rfl) ?_
                  rw [List.getElem?_take] at h2
                  split at h2
                  · rw [List.getElem?_drop] at h2
                    rw [← h2]
                    congr 1
                    omega
                  · simp at h2
              · exact hf.bytes p f k b hd hb
          · exact hf.bytes p f k b hd hb
        | removing =>
          simp only [act] at hd hb
          cases fails
          · simp only [Bool.false_eq_true, if_false] at hd hb
            cases hq : w.disk.dir q with
            | some g =>
              simp only [hq] at hd hb
              split at hd
              · simp at hd
              · exact hf.bytes p f k b hd hb
            | none => simp only [hq] at hd hb; exact hf.bytes p f k b hd hb
          · exact hf.bytes p f k b hd hb

theorem From.run {X : Ext} {H : HttpExt} {R : Path → Str → Prop} {P : Path → Nat → UInt8 → Prop}
    (hP : ∀ p c k b, R p c → Accepted X H c → (encode c)[k]? = some b → P p k b) (h0 : ∀ p k, P p k 0) (h : List Event) :
    ∀ {w : World}, From X H R P w → (∀ p c, Requested h p c → R p c) → From X H R P (w.run X H h) := by
  induction h with
  | nil => intro w hf _; exact hf
  | cons e h ih =>
    intro w hf hr
    refine ih (hf.step hP h0 e fun p c he => hr p c ?_) fun p c hc => hr p c ?_
    · rcases he with rfl | rfl <;> simp [Requested]
    · rcases hc with hc | hc
      · exact .inl (List.mem_cons_of_mem _ hc)
      · exact .inr (List.mem_cons_of_mem _ hc)

/-- **C107.** Whatever requests run at the same time: every byte of a file was there before, at the same place, or is the byte at this place of a content that was sent for this
file and accepted, or is zero. -/
theorem C107_bytes (X : Ext) (H : HttpExt) (d : Disk) (hd : d.Sound) (h : List Event) (p : Path) (bs : Bytes) (k : Nat) (b : UInt8)
    (hc : (World.run X H ⟨d, []⟩ h).disk.content p = some bs) (hb : bs[k]? = some b) :
    (∃ old, d.content p = some old ∧ old[k]? = some b) ∨ (∃ c, Requested h p c ∧ Accepted X H c ∧ (encode c)[k]? = some b) ∨ b = 0 := by
  have := From.run (X := X) (H := H) (R := Requested h)
    (P := fun p k b => (∃ old, d.content p = some old ∧ old[k]? = some b) ∨ (∃ c, Requested h p c ∧ Accepted X H c ∧ (encode c)[k]? = some b) ∨ b = 0)
    (fun p c k b hr ha hb => .inr (.inl ⟨c, hr, ha, hb⟩)) (fun p k => .inr (.inr rfl)) h (w := ⟨d, []⟩)
    ⟨⟨hd, by simp⟩, by simp, by simp, fun p f k b hd' hb => .inl ⟨d.data f, by simp only at hd'; simp [Disk.content, hd'], hb⟩⟩ (fun p c hc => hc)
  unfold Disk.content at hc
  cases hdir : (World.run X H ⟨d, []⟩ h).disk.dir p with
  | none => simp [hdir] at hc
  | some f =>
    simp only [hdir, Option.map_some, Option.some.injEq] at hc
    exact this.bytes p f k b hdir (hc ▸ hb)

/-- What holds while all requests about `p` are deletions. -/
structure Deleting (p : Path) (old : Bytes) (w : World) : Prop where
  inv : Inv w
  jobs : ∀ j ∈ w.jobs, j.path = p → j.phase = .delete ∨ j.phase = .removing ∨ ∃ s, j.phase = .answered s
  outcome : (successes w p = 0 ∧ w.disk.content p = some old) ∨ (successes w p = 1 ∧ w.disk.content p = none)

theorem successes_set (w : World) (d : Disk) (p : Path) (i : Nat) (j : Job) (ph : Phase) (hj : w.jobs[i]? = some j) :
    successes ⟨d, w.jobs.set i ⟨j.path, ph⟩⟩ p =
      successes w p - (if decide (j.path = p) && j.phase.succeeded then 1 else 0) + (if decide (j.path = p) && ph.succeeded then 1 else 0) := by
  obtain ⟨hl, he⟩ := List.getElem?_eq_some_iff.mp hj
  unfold successes
  rw [List.countP_set hl, he]

theorem Deleting.step (X : Ext) (H : HttpExt) {p : Path} {old : Bytes} {w : World} (hd : Deleting p old w) (e : Event)
    (he : ∀ x, e = .request p x → x = .delete) : Deleting p old (w.step X H e) := by
  refine ⟨hd.inv.step X H e, ?_, ?_⟩
  · intro j hj hp
    cases e with
    | request q x =>
      simp only [World.step, List.mem_append, List.mem_singleton] at hj
      rcases hj with hj | rfl
      · exact hd.jobs j hj hp
      · simp only at hp
        subst hp
        rw [he x rfl]
        exact .inl rfl
    | go i n fails =>
      simp only [World.step] at hj
      cases hw : w.jobs[i]? with
      | none => simp only [hw] at hj; exact hd.jobs j hj hp
      | some j' =>
        simp only [hw] at hj
        rcases mem_set hj with rfl | hj
        · simp only at hp ⊢
          rcases hd.jobs j' (List.mem_of_getElem? hw) hp with h | h | ⟨s, h⟩
          · rw [h]; simp only [act]; split <;> simp
          · rw [h]; simp only [act]; split
            · simp
            · cases w.disk.dir j'.path <;> simp
          · rw [h]; simp [act]
        · exact hd.jobs j hj hp
  · cases e with
    | request q x =>
      have : successes (w.step X H (.request q x)) p = successes w p := by
        simp only [successes, World.step, List.countP_append]
        cases x <;> simp [Wish.phase, Phase.succeeded]
      rw [this]
      exact hd.outcome
    | go i n fails =>
      cases hw : w.jobs[i]? with
      | none => simp only [World.step, hw]; exact hd.outcome
      | some j =>
        by_cases hp : j.path = p
        · have hs := successes_set w (act X H w.disk j.path n fails j.phase).1 p i j (act X H w.disk j.path n fails j.phase).2 hw
          simp only [World.step, hw]
          rw [hs]
          have ho := hd.outcome
          rcases hd.jobs j (List.mem_of_getElem? hw) hp with h | h | ⟨s, h⟩
          · simp only [h, act]
            have : Phase.succeeded (if (w.disk.dir j.path).isSome then .removing else .answered (some 500)) = false := by split <;> rfl
            simpa [this, show Phase.succeeded .delete = false from rfl] using ho
          · simp only [h, act]
            cases fails
            · simp only [Bool.false_eq_true, if_false]
              cases hq : w.disk.dir j.path with
              | some f =>
                rcases ho with ⟨h1, _⟩ | ⟨_, h2⟩
                · refine .inr ⟨by simp [h1, hp, Phase.succeeded], by simp [Disk.content, hp]⟩
                · simp [Disk.content, ← hp, hq] at h2
              | none => simpa [Phase.succeeded] using ho
            · simpa [Phase.succeeded] using ho
          · simp only [h, act]
            by_cases hsu : Phase.succeeded (.answered s) = true
            · have : 1 ≤ successes w p := by
                unfold successes
                rw [Nat.one_le_iff_ne_zero, ← Nat.pos_iff_ne_zero, List.countP_pos_iff]
                exact ⟨j, List.mem_of_getElem? hw, by simp [hp, h, hsu]⟩
              simp only [hp, hsu, decide_true, Bool.and_self, if_true]
              rw [Nat.sub_add_cancel this]
              exact ho
            · simpa [hsu] using ho
        · have hs := successes_set w (act X H w.disk j.path n fails j.phase).1 p i j (act X H w.disk j.path n fails j.phase).2 hw
          have hc : (w.step X H (.go i n fails)).disk.content p = w.disk.content p := by
            refine content_frame (step_frame X H hd.inv _ p ?_)
            intro i' n' f' e' q ph' hq
            simp only [Event.go.injEq] at e'
            unfold At at hq
            rw [← e'.1, hw] at hq
            simp only [Option.some.injEq] at hq
            rw [hq] at hp
            exact hp
          have hs' : successes (w.step X H (.go i n fails)) p = successes w p := by
            simp only [World.step, hw]
            rw [hs]
            simp [hp]
          rw [hc, hs']
          exact hd.outcome

/-- **C107.** If all requests about a file are deletions, at most one of them is answered with success, however they overlap and whatever happens to other files: as long as none
has, the file is as it was, and afterwards it is gone. -/
theorem C107_deletes (X : Ext) (H : HttpExt) (d : Disk) (hd : d.Sound) (h : List Event) (p : Path) (old : Bytes) (ho : d.content p = some old)
    (hh : ∀ x, .request p x ∈ h → x = .delete) :
    let w := World.run X H ⟨d, []⟩ h
    (successes w p = 0 ∧ w.disk.content p = some old) ∨ (successes w p = 1 ∧ w.disk.content p = none) := by
  have key : ∀ (h : List Event) (w : World), Deleting p old w → (∀ x, .request p x ∈ h → x = .delete) → Deleting p old (w.run X H h) := by
    intro h
    induction h with
    | nil => intro w hw _; exact hw
    | cons e h ih =>
      intro w hw hh
      exact ih _ (hw.step X H e fun x he => hh x (by simp [he])) fun x hm => hh x (List.mem_cons_of_mem _ hm)
  exact (key h ⟨d, []⟩ ⟨⟨hd, by simp⟩, by simp, .inl ⟨by simp [successes], ho⟩⟩ hh).outcome

/-! ### The requests one after the other -/

/-- The file `p` holds this text, as bytes, or is not there. -/
def Holds (d : Disk) (p : Path) (t : Option Str) : Prop := d.content p = t.map encode

open Http (Config Site storeJs deleteJs joinPath) in
theorem own_serial (X : Ext) (H : HttpExt) (d : Disk) (p : Path) (code filename : Str) (st : Option Nat) (cfg : Config) (s : Site) (upd bad : Prop)
    (hdir : s.fs.exists cfg.cwd cfg.hooksDir = true) (hp : s.fs.resolve cfg.cwd (joinPath cfg.hooksDir filename) = some p) (hnd : s.fs.isDir p = false)
    (hio : H.ioError (joinPath cfg.hooksDir filename) = false) (old : Option Bytes) (hold : old = (s.fs.read p).map encode)
    (hupd : upd → old ≠ none) (hnf : ¬ bad) (ho : Own X H code p old upd bad d (.answered st)) :
    st = (storeJs X H cfg s filename (some code)).1.map (·.status) ∧ Holds d p ((storeJs X H cfg s filename (some code)).2.fs.read p) := by
  have hsave : Http.saveJs H cfg s.fs filename code = (s.fs.write p code, true) := by
    simp [Http.saveJs, Http.ensureHooks, Http.writeJs, hdir, hp, hnd, hio]
  simp only [storeJs]
  cases ho with
  | done h0 h1 =>
    unfold validated at h0
    split at h0
    · rename_i r hr
      simp only [hr, Http.guarded, hsave, Http.reply, Option.map_some]
      refine ⟨trivial, ?_⟩
      rw [Holds, h1, read_write]
      simp
    · simp at h0
    · simp at h0
  | failed hb _ => exact absurd hb hnf
  | refused h0 h1 =>
    rcases h0 with h0 | ⟨_, h0⟩ | ⟨_, h0, h2⟩
    · unfold validated at h0
      split at h0
      · simp at h0
      · rename_i r hr
        simp only [Phase.answered.injEq] at h0
        simp only [hr, Http.guarded, Http.reply, Option.map_some]
        exact ⟨h0.symm, h1.trans hold⟩
      · rename_i r hr
        simp only [Phase.answered.injEq] at h0
        simp only [hr, Http.guarded, Option.map_none]
        exact ⟨h0.symm, h1.trans hold⟩
    · exact absurd h0 hnf
    · exact absurd h2 (hupd h0)

open Http (Config Site storeJs deleteJs joinPath) in
/-- **C107.** Undisturbed and without failing calls, an upload is answered as handling it in one piece is (`Http.storeJs`, about which C56 and C57 speak) and leaves the
file with the same content. -/
theorem C107_upload_serial (X : Ext) (H : HttpExt) (d : Disk) (hd : d.Sound) (before during : List Event) (i : Nat) (p : Path) (code filename : Str) (st : Option Nat)
    (cfg : Config) (s : Site)
    (hdir : s.fs.exists cfg.cwd cfg.hooksDir = true) (hp : s.fs.resolve cfg.cwd (joinPath cfg.hooksDir filename) = some p) (hnd : s.fs.isDir p = false)
    (hio : H.ioError (joinPath cfg.hooksDir filename) = false)
    (hj : At (World.run X H ⟨d, []⟩ before) i p (.upload code)) (hold : Holds (World.run X H ⟨d, []⟩ before).disk p (s.fs.read p))
    (hu : Undisturbed X H i p (World.run X H ⟨d, []⟩ before) during) (hnf : ¬ Fails i during)
    (hst : At (World.run X H ⟨d, []⟩ (before ++ during)) i p (.answered st)) :
    st = (storeJs X H cfg s filename (some code)).1.map (·.status) ∧
    Holds (World.run X H ⟨d, []⟩ (before ++ during)).disk p ((storeJs X H cfg s filename (some code)).2.fs.read p) := by
  obtain ⟨ph, ha, ho⟩ := alone_own X H d hd before during i p code _ False (.inl rfl) hj hu
  have := ha.unique hst
  subst this
  exact own_serial X H _ p code filename st cfg s False _ hdir hp hnd hio _ hold (fun h => h.elim) hnf ho

open Http (Config Site storeJs deleteJs joinPath) in
/-- **C107.** The same for an update, which is refused if there is no such file (the last part of `Http.updateJs`). -/
theorem C107_update_serial (X : Ext) (H : HttpExt) (d : Disk) (hd : d.Sound) (before during : List Event) (i : Nat) (p : Path) (code filename : Str) (st : Option Nat)
    (cfg : Config) (s : Site)
    (hdir : s.fs.exists cfg.cwd cfg.hooksDir = true) (hp : s.fs.resolve cfg.cwd (joinPath cfg.hooksDir filename) = some p) (hnd : s.fs.isDir p = false)
    (hio : H.ioError (joinPath cfg.hooksDir filename) = false)
    (hj : At (World.run X H ⟨d, []⟩ before) i p (.update code)) (hold : Holds (World.run X H ⟨d, []⟩ before).disk p (s.fs.read p))
    (hu : Undisturbed X H i p (World.run X H ⟨d, []⟩ before) during) (hnf : ¬ Fails i during)
    (hst : At (World.run X H ⟨d, []⟩ (before ++ during)) i p (.answered st)) :
    let r := if !s.fs.exists cfg.cwd (joinPath cfg.hooksDir filename) then Http.reply s 404 else storeJs X H cfg s filename (some code)
    st = r.1.map (·.status) ∧ Holds (World.run X H ⟨d, []⟩ (before ++ during)).disk p (r.2.fs.read p) := by
  have hi : Inv (World.run X H ⟨d, []⟩ before) := Inv.run X H ⟨hd, by simp⟩ before
  have hex : s.fs.exists cfg.cwd (joinPath cfg.hooksDir filename) = (s.fs.read p).isSome := by simp [Http.Fs.exists, hp, hnd]
  dsimp only
  cases hr : s.fs.read p with
  | none =>
    rw [hr] at hex hold
    rw [hex]
    simp only [Option.isSome_none, Bool.not_false, if_true, Http.reply, Option.map_some]
    obtain ⟨ph, ha, ho, hph⟩ : ∃ ph, At ((World.run X H ⟨d, []⟩ before).run X H during) i p ph ∧
        (fun d ph => Disk.content d p = none ∧ (ph = .update code ∨ ph = .answered (some 404))) ((World.run X H ⟨d, []⟩ before).run X H during).disk ph := by
      refine follow X H (fun d ph => Disk.content d p = none ∧ (ph = .update code ∨ ph = .answered (some 404))) i p (fun _ => True)
        (fun d d' ph h h' => ⟨(content_frame h').trans h.1, h.2⟩) ?_ during hi hj ⟨hold, .inl rfl⟩ hu (fun _ _ _ => trivial)
      rintro d ph n fails - ⟨h1, rfl | rfl⟩
      · have : d.dir p = none := by simpa [Disk.content] using h1
        simp [act, this, h1]
      · exact ⟨h1, .inr rfl⟩
    rw [← run_append] at ha ho
    have := ha.unique hst
    subst this
    rcases hph with hph | hph
    · simp at hph
    · simp only [Phase.answered.injEq] at hph
      exact ⟨hph, by rw [hr]; exact ho⟩
  | some t =>
    rw [hr] at hex
    rw [hex]
    simp only [Option.isSome_some, Bool.not_true, Bool.false_eq_true, if_false]
    obtain ⟨ph, ha, ho⟩ := alone_own X H d hd before during i p code _ True (.inr ⟨rfl, trivial⟩) hj hu
    have := ha.unique hst
    subst this
    exact own_serial X H _ p code filename st cfg s True _ hdir hp hnd hio _ hold (fun _ => by rw [hold, hr]; simp) hnf ho

open Http (Config Site storeJs deleteJs joinPath) in
/-- **C107.** The same for a deletion (the last part of `Http.deleteJsRequest`). -/
theorem C107_delete_serial (X : Ext) (H : HttpExt) (d : Disk) (hd : d.Sound) (before during : List Event) (i : Nat) (p : Path) (filename : Str) (st : Option Nat)
    (cfg : Config) (fs : Http.Fs) (hp : fs.resolve cfg.cwd (joinPath cfg.hooksDir filename) = some p) (hio : H.ioError (joinPath cfg.hooksDir filename) = false)
    (hj : At (World.run X H ⟨d, []⟩ before) i p .delete) (hold : Holds (World.run X H ⟨d, []⟩ before).disk p (fs.read p))
    (hu : Undisturbed X H i p (World.run X H ⟨d, []⟩ before) during) (hnf : ¬ Fails i during)
    (hst : At (World.run X H ⟨d, []⟩ (before ++ during)) i p (.answered st)) :
    st = some (if (deleteJs H cfg fs filename).2 then 200 else 500) ∧
    Holds (World.run X H ⟨d, []⟩ (before ++ during)).disk p ((deleteJs H cfg fs filename).1.read p) := by
  obtain ⟨h1, h2, h3⟩ := C107_alone_delete X H d hd before during i p hj hu
  cases hr : fs.read p with
  | none =>
    have hdel : deleteJs H cfg fs filename = (fs, false) := by simp [deleteJs, hp, hr]
    rw [hdel]
    have hold' : (World.run X H ⟨d, []⟩ before).disk.content p = none := by rw [hold, hr]; rfl
    have h200 : st ≠ some 200 := fun e => by subst e; exact (h2.mp hst).1 hold'
    refine ⟨(h3 st h200 hst).1, ?_⟩
    rw [Holds, hr]
    rcases h1 with h1 | h1
    · rw [h1, hold']; rfl
    · rw [h1]; rfl
  | some t =>
    have hdel : deleteJs H cfg fs filename = (fs.remove p, true) := by simp [deleteJs, hp, hr, hio]
    rw [hdel]
    have hold' : (World.run X H ⟨d, []⟩ before).disk.content p ≠ none := by rw [hold, hr]; simp
    have h200 : st = some 200 := by
      by_contra hne
      rcases (h3 st hne hst).2 with h | h
      · exact hold' h
      · exact hnf h
    subst h200
    refine ⟨rfl, ?_⟩
    rw [Holds, (h2.mp hst).2, read_remove]
    simp

/-! ### What does not hold, and examples -/

namespace Wit

/-- A path. -/
def p : Path := [c!"hooks", c!"f.js"]

/-- Another. -/
def q : Path := [c!"hooks", c!"g.js"]

/-- A function named `AB`. -/
def ab : Str := c!"// @name: AB"

/-- A function named `C`. -/
def c : Str := c!"// @name: C"

/-- No files. -/
def empty : Disk := ⟨fun _ => none, fun _ => [], 0⟩

/-- One file. -/
def one : Disk := ⟨fun r => if r = p then some 0 else none, fun _ => encode c, 1⟩

theorem empty_sound : empty.Sound := ⟨by simp [empty], by simp [empty]⟩

theorem one_sound : one.Sound := by
  refine ⟨fun r f h => ?_, fun r r' f h h' => ?_⟩
  · simp only [one] at h ⊢
    split at h <;> simp at h
    omega
  · simp only [one] at h h'
    split at h <;> simp at h
    split at h' <;> simp at h'
    simp_all

/-- Two uploads at the same time: both open the file, then the longer one is written, then the shorter one over it. -/
def overlap : List Event :=
  [.request p (.upload ab), .request p (.upload c), .go 0 0 false, .go 1 0 false, .go 0 0 false, .go 1 0 false, .go 0 99 false, .go 1 99 false, .go 0 0 false, .go 1 0 false]

/-- An upload that is stopped after eleven bytes. -/
def stopped : List Event := [.request p (.upload ab), .go 0 0 false, .go 0 0 false, .go 0 10 false]

/-- An update and a deletion at the same time: both see the file, it is deleted, then written. -/
def race : List Event :=
  [.request p (.update ab), .request p .delete, .go 0 0 false, .go 1 0 false, .go 1 0 false, .go 0 0 false, .go 0 99 false, .go 0 0 false]

end Wit

open Wit in
/-- **C107**, where the property fails: two uploads of the same file at the same time are both answered with success, the file holds neither content, and a reload finds in it a
function, `CB`, that nobody sent. -/
theorem C107_torn (X : Ext) (H : HttpExt) :
    At (World.run X H ⟨empty, []⟩ overlap) 0 p (.answered (some 200)) ∧ At (World.run X H ⟨empty, []⟩ overlap) 1 p (.answered (some 200)) ∧
    (World.run X H ⟨empty, []⟩ overlap).disk.content p = some (encode c!"// @name: CB") ∧
    (loaded (World.run X H ⟨empty, []⟩ overlap).disk p).map (·.name) = some c!"CB" := by
  refine ⟨?_, ?_, ?_, ?_⟩
  · unfold At; kernel_rfl
  · unfold At; kernel_rfl
  · kernel_rfl
  · kernel_rfl

open Wit in
/-- **C107**, where the property fails: the server is stopped while it saves the function `AB`, and the next start finds a function `A`. -/
theorem C107_cut (X : Ext) (H : HttpExt) :
    (loaded (World.run X H ⟨empty, []⟩ stopped).disk p).map (·.name) = some c!"A" := by
  kernel_rfl

open Wit in
/-- **C107**, where the property fails: an update and a deletion of the same file are both answered with success, and the file is there with the new content. One after the other,
either the file is gone in the end or the update is refused. -/
theorem C107_race (X : Ext) (H : HttpExt) :
    At (World.run X H ⟨one, []⟩ race) 0 p (.answered (some 200)) ∧ At (World.run X H ⟨one, []⟩ race) 1 p (.answered (some 200)) ∧
    (World.run X H ⟨one, []⟩ race).disk.content p = some (encode ab) := by
  refine ⟨?_, ?_, ?_⟩
  · unfold At; kernel_rfl
  · unfold At; kernel_rfl
  · kernel_rfl

section Examples
open Wit

/-- C107_untouched: two requests about `p` overlap, `q` is as it was. -/
example (X : Ext) (H : HttpExt) : (World.run X H ⟨empty, []⟩ overlap).disk.content q = none := by
  rw [C107_untouched X H empty empty_sound overlap q (by intro r x h; simp [overlap] at h; rcases h with ⟨rfl, _⟩ | ⟨rfl, _⟩ <;> decide)]
  rfl

/-- C107_alone: an update of `p` while `g.js` is uploaded; after six bytes, and when it is answered. -/
example (X : Ext) (H : HttpExt) :
    let before : List Event := [.request p (.update ab), .request q (.upload c), .go 1 0 false]
    let during : List Event := [.go 0 0 false, .go 1 0 false, .go 0 0 false, .go 1 3 false, .go 0 5 false]
    At (World.run X H ⟨one, []⟩ before) 0 p (.update ab) ∧
    (World.run X H ⟨one, []⟩ (before ++ during)).disk.content p = some ((encode ab).take 6) ∧
    At (World.run X H ⟨one, []⟩ (before ++ during ++ [.go 0 99 false, .go 0 0 false])) 0 p (.answered (some 200)) := by
  refine ⟨?_, ?_, ?_⟩
  · unfold At; kernel_rfl
  · kernel_rfl
  · unfold At; kernel_rfl

example (X : Ext) (H : HttpExt) : Undisturbed X H 0 p (World.run X H ⟨one, []⟩ [.request p (.update ab), .request q (.upload c), .go 1 0 false])
    [.go 0 0 false, .go 1 0 false, .go 0 0 false, .go 1 3 false, .go 0 5 false] := by
  have hq : ∀ (w : World) j n f (e : Event), e = .go 1 n f → (∃ ph, At w 1 q ph) → ∀ n' f', e = .go j n' f' → j ≠ 0 → ∀ r ph, At w j r ph → r ≠ p := by
    intro w j n f e he ⟨ph, ha⟩ n' f' he' _ r ph' ha'
    rw [he] at he'
    simp only [Event.go.injEq] at he'
    rw [← he'.1] at ha'
    unfold At at ha ha'
    rw [ha] at ha'
    simp only [Option.some.injEq, Job.mk.injEq] at ha'
    rw [← ha'.1]
    decide
  have h0 : ∀ (w : World) j n f (e : Event), e = .go 0 n f → ∀ n' f', e = .go j n' f' → j ≠ 0 → ∀ r ph, At w j r ph → r ≠ p := by
    intro w j n f e he n' f' he' hj
    rw [he] at he'
    simp only [Event.go.injEq] at he'
    exact absurd he'.1.symm hj
  refine ⟨fun j n f => h0 _ j _ _ _ rfl n f, fun j n f => hq _ j _ _ _ rfl ⟨.saving c, ?_⟩ n f, fun j n f => h0 _ j _ _ _ rfl n f,
    fun j n f => hq _ j _ _ _ rfl ⟨.writing c 1 0, ?_⟩ n f, fun j n f => h0 _ j _ _ _ rfl n f, trivial⟩
  · unfold At; kernel_rfl
  · unfold At; kernel_rfl

/-- C107_deletes: two deletions, both of which see the file. -/
example (X : Ext) (H : HttpExt) :
    let w := World.run X H ⟨one, []⟩ [.request p .delete, .request p .delete, .go 0 0 false, .go 1 0 false, .go 1 0 false, .go 0 0 false]
    At w 0 p (.answered (some 500)) ∧ At w 1 p (.answered (some 200)) ∧ w.disk.content p = none := by
  refine ⟨?_, ?_, ?_⟩
  · unfold At; kernel_rfl
  · unfold At; kernel_rfl
  · kernel_rfl

/-- C107_bytes: in the torn file, the last byte is from `AB`, the byte before it from `C`. -/
example (X : Ext) (H : HttpExt) : (World.run X H ⟨empty, []⟩ overlap).disk.content p = some (encode c!"// @name: CB") ∧
    Requested overlap p ab ∧ Accepted X H ab ∧ (encode ab)[11]? = some 66 ∧ Requested overlap p c ∧ Accepted X H c ∧ (encode c)[10]? = some 67 :=
  ⟨(C107_torn X H).2.2.1, .inl (by simp [overlap]), ⟨_, rfl⟩, by decide, .inl (by simp [overlap]), ⟨_, rfl⟩, by decide⟩

/-- The theorems about one request after the other: a directory `hooks` with the file `f.js`. -/
example (H : HttpExt) (hio : H.ioError c!"hooks/f.js" = false) :
    let fs : Http.Fs := ⟨[[c!"hooks"]], [(p, c)]⟩
    fs.exists [] c!"hooks" = true ∧ fs.resolve [] (Http.joinPath c!"hooks" c!"f.js") = some p ∧ fs.isDir p = false ∧
    H.ioError (Http.joinPath c!"hooks" c!"f.js") = false ∧ Holds one p (fs.read p) :=
  ⟨by decide, by decide, by decide, hio, by unfold Holds; rfl⟩

end Examples

end FileSteps
