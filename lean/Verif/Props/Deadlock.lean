import Verif.Model.Locks
import Verif.Spec.Names
import Mathlib.Logic.Relation
import Mathlib.Data.Fintype.Basic
import Mathlib.Algebra.BigOperators.Group.Finset.Basic
import Mathlib.Algebra.Order.BigOperators.Group.Finset
import Mathlib.Algebra.BigOperators.Ring.Finset
/-! C47: can evaluating and registering block each other for ever? -/

open Locks

namespace Spec

/-- `s` occurs in `e`. -/
inductive Within : Expr → Expr → Prop
  | self (e : Expr) : Within e e
  | sub {s e e' : Expr} : e' ∈ subs e → Within s e' → Within s e

/-- In `e`, no function is called inside the arguments of a function that may be a custom one. -/
def NoNestedCalls (may : Str → Prop) (e : Expr) : Prop := ∀ n args, Within (.call n args) e → may n → callsList args = []

/-- What a thread may be doing: evaluating expressions with `evaluate_with_custom`, registering and unregistering functions, and asking what is registered,
one after the other. `ok` restricts the expressions. -/
inductive Job (may : Str → Prop) (ok : Expr → Prop) : List Act → Prop
  | done : Job may ok []
  | eval {e tr rest} : ok e → Trace may e tr → Job may ok rest → Job may ok (tr ++ rest)
  | change {rest} : Job may ok rest → Job may ok (changing ++ rest)
  | ask {rest} : Job may ok rest → Job may ok (asking ++ rest)

/-- The state reached by some execution. -/
def Reaches {ι : Type} [DecidableEq ι] (prog : ι → List Act) (s : State ι) : Prop := Relation.ReflTransGen Step (State.start prog) s

end Spec

open Spec

/-- **C47.** They can: one thread evaluates `F(F())`, another registers a function. The evaluation takes a read guard for the outer call, the registration
queues behind it, and the evaluation then waits for its second read guard behind the registration. -/
theorem C47_deadlock : ∃ (prog : Fin 2 → List Act) (s : State (Fin 2)),
    Trace (fun n => n = c!"F") (.call c!"F" [.call c!"F" []]) (prog 0) ∧ prog 1 = changing ∧ Reaches prog s ∧ s.Stuck := by
  refine ⟨fun t => if t = 0 then [.rd, .rd, .unrd, .unrd] else changing,
    { prog := fun t => if t = 0 then [.rd, .unrd, .unrd] else changing, waiting := fun t => t == 1, reading := fun t => if t = 0 then 1 else 0, writer := none },
    ?_, rfl, ?_, ?_⟩
  · have h1 : Trace (fun n => n = c!"F") (.call c!"F" []) ([.rd] ++ ([] ++ [.unrd])) :=
      Trace.custom (may := fun n => n = c!"F") rfl .nil
    have h2 : Traces (fun n => n = c!"F") [.call c!"F" []] ([.rd, .unrd] ++ []) := .cons (by simp) h1 .nil
    exact Trace.custom (may := fun n => n = c!"F") rfl h2
  · have h1 := Step.rd (State.start (fun t : Fin 2 => if t = 0 then [.rd, .rd, .unrd, .unrd] else changing)) 0 [.rd, .unrd, .unrd] rfl rfl (fun _ => rfl)
    have h2 := Step.queue (⟨fun u => if u = 0 then [.rd, .unrd, .unrd] else if u = 0 then [.rd, .rd, .unrd, .unrd] else changing, fun _ => false,
      fun u => if u = 0 then 0 + 1 else 0, none⟩ : State (Fin 2)) 1 [.unwr] rfl rfl
    have h3 := (Relation.ReflTransGen.single h1).tail h2
    refine cast ?_ h3
    unfold Reaches
    congr 1
    simp only [State.mk.injEq, and_true]
    refine ⟨?_, ?_⟩ <;> (funext t; rcases (by omega : t = 0 ∨ t = 1) with rfl | rfl <;> rfl)
  · refine ⟨?_, ?_⟩
    · intro h; exact absurd (h 1) (by simp [changing])
    · intro s' hs
      cases hs with
      | rd t p hp _ hw => have := hw 1; simp at this
      | unrd t p hp => simp only at hp; split at hp <;> simp [changing] at hp
      | queue t p hp hw =>
        simp only at hp hw
        split at hp
        · simp at hp
        · rename_i h; have : t = 1 := by omega
          subst this; simp at hw
      | wr t p hp _ _ hr => have := hr 0; simp at this
      | unwr t p hp => simp only at hp; split at hp <;> simp [changing] at hp

/-! Without nested guards this cannot happen. -/

/-- Guards are dropped before the next is taken. -/
inductive Locks.Flat : List Act → Prop
  | nil : Flat []
  | read {p} : Flat p → Flat (.rd :: .unrd :: p)
  | write {p} : Flat p → Flat (.wr :: .unwr :: p)

theorem Locks.Flat.append {p q : List Act} (hp : Flat p) (hq : Flat q) : Flat (p ++ q) := by
  induction hp with
  | nil => exact hq
  | read _ ih => exact .read ih
  | write _ ih => exact .write ih

theorem calls_subs {e e' : Expr} (h : calls e = []) (he : e' ∈ subs e) : calls e' = [] := by
  have list : ∀ es, callsList es = [] → ∀ x ∈ es, calls x = [] := by
    intro es
    induction es with
    | nil => simp
    | cons a es ih =>
      intro h x hx
      simp only [callsList, List.append_eq_nil_iff] at h
      rcases List.mem_cons.1 hx with rfl | hx
      · exact h.1
      · exact ih h.2 x hx
  have members : ∀ ms : List (Str × Expr), callsMembers ms = [] → ∀ x ∈ ms.map (·.2), calls x = [] := by
    intro ms
    induction ms with
    | nil => simp
    | cons a ms ih =>
      obtain ⟨k, a⟩ := a
      intro h x hx
      simp only [callsMembers, List.append_eq_nil_iff] at h
      rcases List.mem_cons.1 hx with rfl | hx
      · exact h.1
      · exact ih h.2 x hx
  cases e <;> simp only [subs, calls, List.append_eq_nil_iff, List.mem_cons, List.not_mem_nil, or_false, List.mem_append, Option.mem_toList] at h he
  case unary => subst he; exact h
  case binary => rcases he with rfl | rfl; exacts [h.1, h.2]
  case prop => subst he; exact h
  case safeProp => subst he; exact h
  case safeCall => rcases he with rfl | he; exacts [h.1, list _ h.2 _ he]
  case array => exact list _ h _ he
  case object => exact members _ h _ he
  case index => rcases he with rfl | rfl; exacts [h.1, h.2]
  case slice t a b =>
    rcases he with rfl | he | he
    · exact h.1.1
    · subst he; simpa [callsOpt] using h.1.2
    · subst he; simpa [callsOpt] using h.2
  case cast => subst he; exact h
  case method => rcases he with rfl | he; exacts [h.1, list _ h.2 _ he]
  case spread => subst he; exact h
  case assign => subst he; exact h
  case seq => exact list _ h _ he
  case call => simp at h

theorem callsList_mem {es : List Expr} (h : callsList es = []) : ∀ x ∈ es, calls x = [] := by
  induction es with
  | nil => simp
  | cons a es ih =>
    intro x hx
    simp only [callsList, List.append_eq_nil_iff] at h
    rcases List.mem_cons.1 hx with rfl | hx
    · exact h.1
    · exact ih h.2 x hx

mutual
theorem trace_no_calls {may : Str → Prop} : ∀ {e : Expr} {tr : List Act}, Trace may e tr → calls e = [] → tr = []
  | _, _, .noGuard h, hc => traces_no_calls h (fun _ hx => calls_subs hc hx)
  | _, _, .builtin _, hc => by simp [calls] at hc
  | _, _, .custom _ _, hc => by simp [calls] at hc
theorem traces_no_calls {may : Str → Prop} : ∀ {es : List Expr} {tr : List Act}, Traces may es tr → (∀ x ∈ es, calls x = []) → tr = []
  | _, _, .nil, _ => rfl
  | _, _, .cons hm ht hr, hc => by rw [trace_no_calls ht (hc _ hm), traces_no_calls hr hc]; rfl
end

mutual
theorem trace_flat {may : Str → Prop} : ∀ {e : Expr} {tr : List Act}, Trace may e tr → NoNestedCalls may e → Flat tr
  | _, _, .noGuard h, hn => traces_flat h (fun x hx n args hw => hn n args (.sub hx hw))
  | _, _, .builtin h, hn => .read (traces_flat h (fun x hx n args hw => hn n args (.sub hx hw)))
  | _, _, .custom hm h, hn => by
    rw [traces_no_calls h (callsList_mem (hn _ _ (.self _) hm))]
    exact .read .nil
theorem traces_flat {may : Str → Prop} : ∀ {es : List Expr} {tr : List Act}, Traces may es tr → (∀ x ∈ es, NoNestedCalls may x) → Flat tr
  | _, _, .nil, _ => .nil
  | _, _, .cons hm ht hr, hn => (trace_flat ht (hn _ hm)).append (traces_flat hr hn)
end

theorem job_flat {may : Str → Prop} {p : List Act} (h : Job may (NoNestedCalls may) p) : Flat p := by
  induction h with
  | done => exact .nil
  | eval ho ht _ ih => exact (trace_flat ht ho).append ih
  | change _ ih => exact .write ih
  | ask _ ih => exact .read ih

/-- Where a thread is, judged by what it has left to do. -/
def Locks.State.Sound {ι : Type} (s : State ι) : Prop :=
  (∀ t, (Flat (s.prog t) ∧ s.reading t = 0 ∧ s.writer ≠ some t) ∨
    (∃ p, s.prog t = .unrd :: p ∧ Flat p ∧ s.reading t = 1 ∧ s.writer ≠ some t ∧ s.waiting t = false) ∨
    (∃ p, s.prog t = .unwr :: p ∧ Flat p ∧ s.reading t = 0 ∧ s.writer = some t ∧ s.waiting t = false)) ∧
  ∀ t, s.waiting t = true → ∃ p, s.prog t = .wr :: p

theorem sound_step {ι : Type} [DecidableEq ι] {s s' : State ι} (h : s.Sound) (hs : Step s s') : s'.Sound := by
  obtain ⟨h1, h2⟩ := h
  cases hs with
  | rd t p hp hw hq =>
    have hf : Flat (s.prog t) ∧ s.reading t = 0 := by
      rcases h1 t with ⟨a, b, _⟩ | ⟨q, a, _⟩ | ⟨q, a, _⟩
      · exact ⟨a, b⟩
      · rw [hp] at a; cases a
      · rw [hp] at a; cases a
    rw [hp] at hf
    obtain ⟨hf, hr⟩ := hf
    cases hf with
    | read hf =>
      constructor
      · intro u
        by_cases hu : u = t
        · subst hu; right; left; refine ⟨_, by simp, hf, by simp [hr], by simp [hw], hq u⟩
        · simp only [if_neg hu]; exact h1 u
      · intro u hu; have := hq u; simp only at hu; rw [hu] at this; cases this
  | unrd t p hp =>
    have hf : Flat p ∧ s.reading t = 1 ∧ s.writer ≠ some t ∧ s.waiting t = false := by
      rcases h1 t with ⟨a, _⟩ | ⟨q, a, b, c, d, e⟩ | ⟨q, a, _⟩
      · rw [hp] at a; cases a
      · rw [hp] at a; cases a; exact ⟨b, c, d, e⟩
      · rw [hp] at a; cases a
    obtain ⟨hf, hr, hw, hq⟩ := hf
    constructor
    · intro u
      by_cases hu : u = t
      · subst hu; left; exact ⟨by simpa using hf, by simp [hr], hw⟩
      · simp only [if_neg hu]; exact h1 u
    · intro u hu
      simp only at hu
      have hne : u ≠ t := by rintro rfl; rw [hq] at hu; cases hu
      simp only [if_neg hne]; exact h2 u hu
  | queue t p hp hq =>
    have hf : Flat (s.prog t) ∧ s.reading t = 0 ∧ s.writer ≠ some t := by
      rcases h1 t with h | ⟨q, a, _⟩ | ⟨q, a, _⟩
      · exact h
      · rw [hp] at a; cases a
      · rw [hp] at a; cases a
    constructor
    · intro u
      by_cases hu : u = t
      · subst hu; left; exact hf
      · simp only [if_neg hu]; exact h1 u
    · intro u hu
      by_cases hut : u = t
      · subst hut; exact ⟨p, hp⟩
      · simp only [if_neg hut] at hu; exact h2 u hu
  | wr t p hp hq hw hr =>
    have hf : Flat (s.prog t) := by
      rcases h1 t with h | ⟨q, a, _⟩ | ⟨q, a, _⟩
      · exact h.1
      · rw [hp] at a; cases a
      · rw [hp] at a; cases a
    rw [hp] at hf
    cases hf with
    | write hf =>
      constructor
      · intro u
        by_cases hu : u = t
        · subst hu; right; right; exact ⟨_, by simp, hf, hr u, rfl, by simp⟩
        · simp only [if_neg hu]
          have hut : some t ≠ some u := by simpa using fun h => hu h.symm
          rcases h1 u with ⟨a, b, c⟩ | ⟨q, a, b, c, d, e⟩ | ⟨q, a, b, c, d, e⟩
          · left; exact ⟨a, b, hut⟩
          · right; left; exact ⟨q, a, b, c, hut, e⟩
          · rw [hw] at d; cases d
      · intro u hu
        by_cases hut : u = t
        · subst hut; simp at hu
        · simp only [if_neg hut] at hu ⊢; exact h2 u hu
  | unwr t p hp =>
    have hf : Flat p ∧ s.reading t = 0 ∧ s.writer = some t ∧ s.waiting t = false := by
      rcases h1 t with ⟨a, _⟩ | ⟨q, a, _⟩ | ⟨q, a, b, c, d, e⟩
      · rw [hp] at a; cases a
      · rw [hp] at a; cases a
      · rw [hp] at a; cases a; exact ⟨b, c, d, e⟩
    obtain ⟨hf, hr, hw, hq⟩ := hf
    constructor
    · intro u
      by_cases hu : u = t
      · subst hu; left; exact ⟨by simpa using hf, hr, by simp⟩
      · simp only [if_neg hu]
        rcases h1 u with ⟨a, b, c⟩ | ⟨q, a, b, c, d, e⟩ | ⟨q, a, b, c, d, e⟩
        · left; exact ⟨a, b, by simp⟩
        · right; left; exact ⟨q, a, b, c, by simp, e⟩
        · rw [hw] at d; cases d; exact absurd rfl hu
    · intro u hu
      simp only at hu
      have hne : u ≠ t := by rintro rfl; rw [hq] at hu; cases hu
      simp only [if_neg hne]; exact h2 u hu

theorem sound_reaches {ι : Type} [DecidableEq ι] {prog : ι → List Act} (hp : ∀ t, Flat (prog t)) {s : State ι} (h : Reaches prog s) : s.Sound := by
  induction h with
  | refl => exact ⟨fun t => .inl ⟨hp t, rfl, by simp [State.start]⟩, fun t ht => by simp [State.start] at ht⟩
  | tail _ hs ih => exact sound_step ih hs

/-- **C47 (partial).** Any number of threads, each evaluating expressions without nested calls in the arguments of custom functions, registering, unregistering
and asking, in any order: no schedule gets stuck. -/
theorem C47_no_deadlock_partial {ι : Type} [DecidableEq ι] (may : Str → Prop) (prog : ι → List Act) (hp : ∀ t, Job may (NoNestedCalls may) (prog t))
    (s : State ι) (h : Reaches prog s) : ¬ s.Stuck := by
  rintro ⟨hf, hno⟩
  obtain ⟨h1, h2⟩ := sound_reaches (fun t => job_flat (hp t)) h
  -- nobody holds a guard
  have hr : ∀ t, Flat (s.prog t) ∧ s.reading t = 0 := by
    intro t
    rcases h1 t with ⟨a, b, _⟩ | ⟨p, a, _⟩ | ⟨p, a, _⟩
    · exact ⟨a, b⟩
    · exact absurd (Step.unrd s t p a) (hno _)
    · exact absurd (Step.unwr s t p a) (hno _)
  have hw : s.writer = none := by
    cases hw : s.writer with
    | none => rfl
    | some t =>
      rcases h1 t with ⟨_, _, a⟩ | ⟨p, a, _⟩ | ⟨p, a, _⟩
      · exact absurd hw a
      · exact absurd (Step.unrd s t p a) (hno _)
      · exact absurd (Step.unwr s t p a) (hno _)
  -- nobody waits
  have hq : ∀ t, s.waiting t = false := by
    intro t
    cases hq : s.waiting t with
    | false => rfl
    | true =>
      obtain ⟨p, hp⟩ := h2 t hq
      exact absurd (Step.wr s t p hp hq hw (fun u => (hr u).2)) (hno _)
  apply hf
  intro t
  have hft := (hr t).1
  cases hpt : s.prog t with
  | nil => rfl
  | cons a p =>
    rw [hpt] at hft
    cases hft with
    | read _ => exact absurd (Step.rd s t _ hpt hw hq) (hno _)
    | write _ => exact absurd (Step.queue s t _ hpt (hq t)) (hno _)

/-- The hypotheses of `C47_no_deadlock_partial`: two threads, one evaluates `F()` twice, the other registers a function. -/
example : ∀ t : Fin 2, Job (fun n => n = c!"F") (NoNestedCalls fun n => n = c!"F") (if t = 0 then [.rd, .unrd, .rd, .unrd] else changing) := by
  have hn : NoNestedCalls (fun n => n = c!"F") (.call c!"F" []) := by
    intro n args hw _
    cases hw with
    | self => rfl
    | sub hm _ => simp [subs] at hm
  have ht : Trace (fun n => n = c!"F") (.call c!"F" []) [.rd, .unrd] := Trace.custom (may := fun n => n = c!"F") rfl .nil
  intro t
  rcases (by omega : t = 0 ∨ t = 1) with rfl | rfl
  · exact .eval hn ht (.eval hn ht .done)
  · exact .change .done

mutual
theorem trace_reads {may : Str → Prop} : ∀ {e : Expr} {tr : List Act}, Trace may e tr → .wr ∉ tr ∧ .unwr ∉ tr
  | _, _, .noGuard h => traces_reads h
  | _, _, .builtin h => by have := traces_reads h; simp; exact this
  | _, _, .custom _ h => by have := traces_reads h; simp; exact this
theorem traces_reads {may : Str → Prop} : ∀ {es : List Expr} {tr : List Act}, Traces may es tr → .wr ∉ tr ∧ .unwr ∉ tr
  | _, _, .nil => by simp
  | _, _, .cons _ ht hr => by
    have h1 := trace_reads ht
    have h2 := traces_reads hr
    simp only [List.mem_append, not_or]
    exact ⟨⟨h1.1, h2.1⟩, h1.2, h2.2⟩
end

/-- **C47 (partial).** Evaluations alone, nested or not, never block each other. -/
theorem C47_readers_partial {ι : Type} [DecidableEq ι] (may : Str → Prop) (prog : ι → List Act)
    (hp : ∀ t, ∃ trs : List (List Act), prog t = trs.flatten ∧ ∀ tr ∈ trs, tr = asking ∨ ∃ e, Trace may e tr)
    (s : State ι) (h : Reaches prog s) : ¬ s.Stuck := by
  replace hp : ∀ t, .wr ∉ prog t ∧ .unwr ∉ prog t := by
    intro t
    obtain ⟨trs, ht, hall⟩ := hp t
    have one : ∀ tr ∈ trs, .wr ∉ tr ∧ .unwr ∉ tr := by
      intro tr htr
      rcases hall tr htr with rfl | ⟨e, he⟩
      · simp [asking]
      · exact trace_reads he
    rw [ht]
    constructor <;> (intro hm; obtain ⟨tr, h1, h2⟩ := List.mem_flatten.1 hm)
    · exact (one tr h1).1 h2
    · exact (one tr h1).2 h2
  have inv : (∀ t, .wr ∉ s.prog t ∧ .unwr ∉ s.prog t) ∧ s.writer = none ∧ ∀ t, s.waiting t = false := by
    induction h with
    | refl => exact ⟨hp, rfl, fun _ => rfl⟩
    | tail _ hs ih =>
      obtain ⟨a, b, c⟩ := ih
      cases hs with
      | rd t p hpt _ _ =>
        refine ⟨fun u => ?_, b, c⟩
        by_cases hu : u = t
        · subst hu; have := a u; rw [hpt] at this; simp at this ⊢; exact this
        · simp only [if_neg hu]; exact a u
      | unrd t p hpt =>
        refine ⟨fun u => ?_, b, c⟩
        by_cases hu : u = t
        · subst hu; have := a u; rw [hpt] at this; simp at this ⊢; exact this
        · simp only [if_neg hu]; exact a u
      | queue t p hpt _ => have := a t; rw [hpt] at this; simp at this
      | wr t p hpt _ _ _ => have := a t; rw [hpt] at this; simp at this
      | unwr t p hpt => have := a t; rw [hpt] at this; simp at this
  obtain ⟨a, b, c⟩ := inv
  rintro ⟨hf, hno⟩
  apply hf
  intro t
  cases hpt : s.prog t with
  | nil => rfl
  | cons x p =>
    cases x with
    | rd => exact absurd (Step.rd s t p hpt b c) (hno _)
    | unrd => exact absurd (Step.unrd s t p hpt) (hno _)
    | wr => have := a t; rw [hpt] at this; simp at this
    | unwr => have := a t; rw [hpt] at this; simp at this

/-- The hypotheses of `C47_readers_partial`: every thread evaluates `F(F())` and then asks what is registered. -/
example : ∃ trs : List (List Act), [.rd, .rd, .unrd, .unrd, .rd, .unrd] = trs.flatten ∧ ∀ tr ∈ trs, tr = asking ∨ ∃ e, Trace (fun n => n = c!"F") e tr := by
  have h1 : Trace (fun n => n = c!"F") (.call c!"F" []) [.rd, .unrd] := Trace.custom (may := fun n => n = c!"F") rfl .nil
  have h2 : Traces (fun n => n = c!"F") [.call c!"F" []] ([.rd, .unrd] ++ []) := .cons (by simp) h1 .nil
  refine ⟨[[.rd, .rd, .unrd, .unrd], asking], rfl, ?_⟩
  intro tr htr
  simp only [List.mem_cons, List.not_mem_nil, or_false] at htr
  rcases htr with rfl | rfl
  · exact .inr ⟨_, Trace.custom (may := fun n => n = c!"F") rfl h2⟩
  · exact .inl rfl

/-- What is left to do, counting twice the steps that need queueing. -/
def Locks.State.work {ι : Type} [Fintype ι] (s : State ι) : ℕ := ∑ t, (2 * (s.prog t).length - if s.waiting t then 1 else 0)

theorem work_step {ι : Type} [DecidableEq ι] [Fintype ι] {s s' : State ι} (h2 : ∀ t, s.waiting t = true → ∃ p, s.prog t = .wr :: p) (hs : Step s s') :
    s'.work < s.work ∧ ∀ t, s'.waiting t = true → ∃ p, s'.prog t = .wr :: p := by
  have sum : ∀ (t : ι) (f g : ι → ℕ), f t < g t → (∀ u, u ≠ t → f u = g u) → ∑ u, f u < ∑ u, g u := by
    intro t f g h1 h2
    refine Finset.sum_lt_sum (fun u _ => ?_) ⟨t, Finset.mem_univ t, h1⟩
    by_cases hu : u = t
    · subst hu; omega
    · rw [h2 u hu]
  cases hs with
  | rd t p hp hw hq =>
    refine ⟨sum t _ _ ?_ ?_, ?_⟩
    · simp [hp, hq t]
    · intro u hu; simp [hu]
    · intro u hu; have := hq u; simp only at hu; rw [hu] at this; cases this
  | unrd t p hp =>
    have hq : s.waiting t = false := by
      cases hq : s.waiting t with
      | false => rfl
      | true => obtain ⟨q, h⟩ := h2 t hq; rw [hp] at h; cases h
    refine ⟨sum t _ _ ?_ ?_, ?_⟩
    · simp [hp, hq]
    · intro u hu; simp [hu]
    · intro u hu
      have hne : u ≠ t := by rintro rfl; simp only at hu; rw [hq] at hu; cases hu
      simp only [if_neg hne]; exact h2 u hu
  | queue t p hp hq =>
    refine ⟨sum t _ _ ?_ ?_, ?_⟩
    · simp [hp, hq] <;> omega
    · intro u hu; simp [hu]
    · intro u hu
      by_cases hut : u = t
      · subst hut; exact ⟨p, hp⟩
      · simp only [if_neg hut] at hu; exact h2 u hu
  | wr t p hp hq hw hr =>
    refine ⟨sum t _ _ ?_ ?_, ?_⟩
    · simp [hp, hq] <;> omega
    · intro u hu; simp [hu]
    · intro u hu
      by_cases hut : u = t
      · subst hut; simp at hu
      · simp only [if_neg hut] at hu ⊢; exact h2 u hu
  | unwr t p hp =>
    have hq : s.waiting t = false := by
      cases hq : s.waiting t with
      | false => rfl
      | true => obtain ⟨q, h⟩ := h2 t hq; rw [hp] at h; cases h
    refine ⟨sum t _ _ ?_ ?_, ?_⟩
    · simp [hp, hq]
    · intro u hu; simp [hu]
    · intro u hu
      have hne : u ≠ t := by rintro rfl; simp only at hu; rw [hq] at hu; cases hu
      simp only [if_neg hne]; exact h2 u hu

/-- **C47 (partial).** Every schedule of finitely many threads ends, so a schedule that does not get stuck finishes everybody's work. -/
theorem C47_ends_partial {ι : Type} [DecidableEq ι] [Fintype ι] (prog : ι → List Act) (run : ℕ → State ι) (h0 : run 0 = State.start prog) (n : ℕ)
    (hs : ∀ i < n, Step (run i) (run (i + 1))) : n ≤ 2 * ∑ t, (prog t).length := by
  have key : ∀ i ≤ n, (run i).work + i ≤ (run 0).work ∧ ∀ t, (run i).waiting t = true → ∃ p, (run i).prog t = .wr :: p := by
    intro i
    induction i with
    | zero => intro _; exact ⟨by omega, fun t ht => by rw [h0] at ht; simp [State.start] at ht⟩
    | succ i ih =>
      intro hi
      obtain ⟨a, b⟩ := ih (by omega)
      obtain ⟨c, d⟩ := work_step b (hs i (by omega))
      exact ⟨by omega, d⟩
  have := (key n (le_refl _)).1
  have e : (run 0).work = 2 * ∑ t, (prog t).length := by
    rw [h0]; simp [State.work, State.start, Finset.mul_sum]
  omega

/-- `SUM(1, F(2))` has no nested calls, where `F` may be custom. -/
example : NoNestedCalls (fun n => n = c!"F") (.call c!"SUM" [.number (.fin 1), .call c!"F" [.number (.fin 2)]]) := by
  intro n args hw hn
  subst hn
  cases hw with
  | sub hm hw =>
    simp [subs] at hm
    rcases hm with rfl | rfl
    · cases hw with
      | sub hm _ => simp [subs] at hm
    · cases hw with
      | self => rfl
      | sub hm hw =>
        simp [subs] at hm
        subst hm
        cases hw with
        | sub hm _ => simp [subs] at hm
