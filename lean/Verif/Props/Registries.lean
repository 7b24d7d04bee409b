import Verif.Model.ConcurrentRegistry
import Mathlib.Data.List.Nodup
import Mathlib.Data.List.Induction
/-! C45, C46: the function registries under every history, and the per-thread cache. -/

namespace Spec

/-- What can be done to a registry. -/
inductive RegOp where
  | register (f : CustomFn)
  | unregister (name : Str)

/-- A definition that is accepted: it has a name, and its arity range is not empty. -/
def Accepted (X : Ext) (f : CustomFn) : Prop := X.upper f.name ≠ [] ∧ ∀ m, f.maxArgs = some m → f.minArgs ≤ m

/-- The operation concerns the name (names are compared upper-cased). -/
def Concerns (X : Ext) (n : Str) : RegOp → Prop
  | .register f => Accepted X f ∧ X.upper f.name = X.upper n
  | .unregister m => X.upper m = X.upper n

/-- After the history `h` the name stands for `f`: the last operation concerning it registered `f`. -/
def Stands (X : Ext) (h : List RegOp) (n : Str) (f : CustomFn) : Prop :=
  ∃ h1 h2, h = h1 ++ .register f :: h2 ∧ Concerns X n (.register f) ∧ ∀ op ∈ h2, ¬ Concerns X n op

/-- What calling a function by name should do, given what the name stands for. -/
def Calls (name : Str) (f : CustomFn) (args : List Value) (result : Res Value) : Prop :=
  (f.minArgs ≤ args.length ∧ (∀ m, f.maxArgs = some m → args.length ≤ m) → result = f.run args) ∧
  (args.length < f.minArgs → result = fail "{} expects at least {} arguments, got {}" [name, Str.showInt f.minArgs, Str.showInt args.length]) ∧
  (∀ m, f.minArgs ≤ args.length → f.maxArgs = some m → m < args.length →
    result = fail "{} expects at most {} arguments, got {}" [name, Str.showInt m, Str.showInt args.length])

end Spec

open Spec

/-- One operation on the simple registry; the answer is whether it succeeded (`register(..).is_ok()`, the result of `unregister`). -/
def Registry.step (X : Ext) (r : Registry) : RegOp → Registry × Bool
  | .register f => match r.register X f with
    | .ok r' => (r', true)
    | .error _ => (r, false)
  | .unregister n => r.unregister X n

/-- One operation on the concurrent registry. -/
def ConcReg.step (X : Ext) (r : ConcReg) : RegOp → ConcReg × Bool
  | .register f => match r.register X f with
    | .ok r' => (r', true)
    | .error _ => (r, false)
  | .unregister n => r.unregister X n

/-- The registry after a history. -/
def Registry.after (X : Ext) (h : List RegOp) : Registry := h.foldl (fun r op => (r.step X op).1) Registry.empty

/-- The concurrent registry after a history. -/
def ConcReg.after (X : Ext) (h : List RegOp) : ConcReg := h.foldl (fun r op => (r.step X op).1) ConcReg.empty

theorem accepted_cond (X : Ext) (f : CustomFn) (hmin : f.minArgs ≤ Registry.usizeMax) :
    Accepted X f ↔ ¬ ((X.upper f.name).isEmpty = true) ∧ ¬ (f.minArgs > f.maxArgs.getD Registry.usizeMax) := by
  unfold Accepted
  rw [List.isEmpty_iff]
  refine and_congr_right fun _ => ?_
  cases f.maxArgs with
  | none => simp [hmin]
  | some m => simp

/-- Counts of arguments are `usize`. -/
def Spec.RegOp.Sized : RegOp → Prop
  | .register f => f.minArgs < 2 ^ 64
  | .unregister _ => True

theorem sized_le {n : ℕ} (h : n < 2 ^ 64) : n ≤ Registry.usizeMax := by unfold Registry.usizeMax; omega

/-- The effect of one operation. -/
theorem Registry.step_get (X : Ext) (r : Registry) (op : RegOp) (hs : op.Sized) (n : Str) :
    (∀ f, op = .register f → Concerns X n op → (r.step X op).1 (X.upper n) = some f) ∧
    (∀ m, op = .unregister m → Concerns X n op → (r.step X op).1 (X.upper n) = none) ∧
    (¬ Concerns X n op → (r.step X op).1 (X.upper n) = r (X.upper n)) := by
  cases op with
  | register f =>
    have hacc := accepted_cond X f (sized_le hs)
    refine ⟨?_, ?_, ?_⟩
    · intro g hg hc
      cases hg
      obtain ⟨h1, h2⟩ := hacc.1 hc.1
      simp only [Registry.step, Registry.register, if_neg h1, if_neg h2]
      rw [if_pos hc.2.symm]
    · intro m hm; cases hm
    · intro hc
      simp only [Registry.step, Registry.register]
      by_cases h1 : (X.upper f.name).isEmpty = true
      · simp [h1, fail]
      · by_cases h2 : f.minArgs > f.maxArgs.getD Registry.usizeMax
        · simp only [if_neg h1, if_pos h2, fail]
        · have : ¬ X.upper n = X.upper f.name := fun h => hc ⟨hacc.2 ⟨h1, h2⟩, h.symm⟩
          simp only [if_neg h1, if_neg h2, if_neg this]
  | unregister m =>
    refine ⟨(by intro f hf; cases hf), ?_, ?_⟩
    · intro m' hm hc
      cases hm
      have hc' : X.upper n = X.upper m := (show X.upper m = X.upper n from hc).symm
      simp [Registry.step, Registry.unregister, hc']
    · intro hc
      have : ¬ X.upper n = X.upper m := fun h => hc h.symm
      simp [Registry.step, Registry.unregister, this]

theorem Registry.foldl_none (X : Ext) (n : Str) (h : List RegOp) (hs : ∀ op ∈ h, op.Sized) (hn : ∀ op ∈ h, ¬ Concerns X n op) :
    ∀ r : Registry, (h.foldl (fun r op => (r.step X op).1) r) (X.upper n) = r (X.upper n) := by
  induction h with
  | nil => intro r; rfl
  | cons op h ih =>
    intro r
    rw [List.foldl_cons, ih (fun o ho => hs o (by simp [ho])) (fun o ho => hn o (by simp [ho])),
      (Registry.step_get X r op (hs op (by simp)) n).2.2 (hn op (by simp))]

/-- A history is either silent about a name, or has a last operation concerning it. -/
theorem last_concern (X : Ext) (n : Str) (h : List RegOp) :
    (∀ op ∈ h, ¬ Concerns X n op) ∨ ∃ h1 op h2, h = h1 ++ op :: h2 ∧ Concerns X n op ∧ ∀ o ∈ h2, ¬ Concerns X n o := by
  induction h with
  | nil => left; simp
  | cons op h ih =>
    rcases ih with ih | ⟨h1, o, h2, e, c, d⟩
    · by_cases hc : Concerns X n op
      · right; exact ⟨[], op, h, rfl, hc, ih⟩
      · left
        intro o ho
        rcases List.mem_cons.1 ho with rfl | ho
        · exact hc
        · exact ih o ho
    · right; exact ⟨op :: h1, o, h2, by rw [e]; rfl, c, d⟩

/-- What the registry holds after a history. -/
theorem Registry.after_get (X : Ext) (h : List RegOp) (hs : ∀ op ∈ h, op.Sized) (n : Str) (f : CustomFn) :
    Registry.after X h (X.upper n) = some f ↔ Stands X h n f := by
  have main : ∀ h1 op h2, h = h1 ++ op :: h2 → Concerns X n op → (∀ o ∈ h2, ¬ Concerns X n o) →
      Registry.after X h (X.upper n) = (match op with | .register g => some g | .unregister _ => none) := by
    intro h1 op h2 e hc hn
    subst e
    unfold Registry.after
    rw [List.foldl_append, List.foldl_cons, Registry.foldl_none X n h2 (fun o ho => hs o (by simp [ho])) hn]
    have := Registry.step_get X (h1.foldl (fun r op => (r.step X op).1) Registry.empty) op (hs op (by simp)) n
    cases op with
    | register g => exact this.1 g rfl hc
    | unregister m => exact this.2.1 m rfl hc
  constructor
  · intro hf
    rcases last_concern X n h with hno | ⟨h1, op, h2, e, hc, hn⟩
    · rw [Registry.after, Registry.foldl_none X n h hs hno] at hf
      simp [Registry.empty] at hf
    · have := main h1 op h2 e hc hn
      rw [hf] at this
      cases op with
      | register g => cases this; exact ⟨h1, h2, e, hc, hn⟩
      | unregister m => cases this
  · rintro ⟨h1, h2, e, hc, hn⟩
    exact main h1 _ h2 e hc hn

theorem stands_congr (X : Ext) (h : List RegOp) {a b : Str} (hab : X.upper a = X.upper b) (f : CustomFn) : Stands X h a f ↔ Stands X h b f := by
  have : Concerns X a = Concerns X b := by
    funext op; cases op <;> simp [Concerns, hab]
  unfold Stands; rw [this]

theorem calls_of (name : Str) (f : CustomFn) (args : List Value) : Calls name f args (ConcReg.call name f args) := by
  unfold Calls ConcReg.call
  refine ⟨?_, ?_, ?_⟩
  · rintro ⟨h1, h2⟩
    rw [if_neg (by omega)]
    cases hm : f.maxArgs with
    | none => rfl
    | some m => simp only; rw [if_neg (by have := h2 m hm; omega)]
  · intro h; rw [if_pos h]
  · intro m h1 h2 h3
    rw [if_neg (by omega), h2]
    simp only
    rw [if_pos h3]

/-! The concurrent registry refines the simple one. -/

theorem ConcReg.lookup_erase (r : ConcReg) (k n : Str) : (r.erase k).lookup n = if n = k then none else r.lookup n := by
  unfold lookup erase
  induction r with
  | nil => simp
  | cons e r ih =>
    by_cases h : e.1 = k
    · rw [List.filter_cons_of_neg (by simpa using h)]
      rw [ih]
      by_cases hn : n = k
      · simp [hn]
      · rw [if_neg hn, if_neg hn]
        have : ¬ e.1 = n := fun h' => hn (h'.symm.trans h)
        simp [this]
    · rw [List.filter_cons_of_pos (by simpa using h)]
      by_cases hn : e.1 = n
      · have : ¬ n = k := fun h' => h (hn.trans h')
        simp [hn, this]
      · simp only [List.find?_cons, hn, decide_false]
        rw [ih]

theorem ConcReg.lookup_insert (r : ConcReg) (k n : Str) (f : CustomFn) : (r.insert k f).lookup n = if n = k then some f else r.lookup n := by
  unfold insert
  by_cases h : n = k
  · subst h; simp [lookup]
  · rw [if_neg h]
    have : ¬ k = n := fun h' => h h'.symm
    have e := ConcReg.lookup_erase r k n
    rw [if_neg h] at e
    rw [← e]
    simp [lookup, this]

/-- Each operation has the same effect and the same answer on both registries. -/
theorem ConcReg.step_refines (X : Ext) (r : ConcReg) (op : RegOp) :
    (r.step X op).1.lookup = (Registry.step X r.lookup op).1 ∧ (r.step X op).2 = (Registry.step X r.lookup op).2 := by
  cases op with
  | register f =>
    simp only [ConcReg.step, Registry.step, ConcReg.register, Registry.register]
    split <;> rename_i h1
    · split at h1
      · simp [fail] at h1
      · split at h1
        · simp [fail] at h1
        · cases h1
          rename_i a b
          simp only [if_neg a, if_neg b]
          refine ⟨?_, trivial⟩
          funext n; rw [ConcReg.lookup_insert]
    · split at h1
      · rename_i a; simp [a, fail]
      · split at h1
        · rename_i a b; simp [a, b, fail]
        · cases h1
  | unregister m =>
    simp only [ConcReg.step, Registry.step, ConcReg.unregister, Registry.unregister]
    refine ⟨?_, trivial⟩
    funext n; rw [ConcReg.lookup_erase]

theorem ConcReg.after_refines (X : Ext) (h : List RegOp) : (ConcReg.after X h).lookup = Registry.after X h := by
  unfold ConcReg.after Registry.after
  have : ∀ (r : ConcReg), (h.foldl (fun r op => (r.step X op).1) r).lookup = h.foldl (fun (r : Registry) op => (r.step X op).1) r.lookup := by
    induction h with
    | nil => intro r; rfl
    | cons op h ih => intro r; rw [List.foldl_cons, List.foldl_cons, ih, (ConcReg.step_refines X r op).1]
  rw [this]; rfl

/-- **C45.** After any history of operations, of any number of threads: whether a name is registered, whether the next `register` or `unregister` of it
succeeds, and what a call of it does, are determined by the last operation that concerned it; and the two registries agree. -/
theorem C45_last_registration (X : Ext) (h : List RegOp) (hs : ∀ op ∈ h, op.Sized) (n : Str) :
    (((Registry.after X h).has X n = true ↔ ∃ f, Stands X h n f) ∧ ((ConcReg.after X h).has X n = true ↔ ∃ f, Stands X h n f)) ∧
    (((Registry.after X h).step X (.unregister n)).2 = true ↔ ∃ f, Stands X h n f) ∧
    (((ConcReg.after X h).step X (.unregister n)).2 = true ↔ ∃ f, Stands X h n f) ∧
    (∀ f args, Stands X h n f → Calls n f args ((Registry.after X h).execute X n args) ∧ Calls n f args ((ConcReg.after X h).execute X n args)) ∧
    (∀ args, (¬ ∃ f, Stands X h n f) → (Registry.after X h).execute X n args = fail "Unknown custom function: {}" [n] ∧
      (ConcReg.after X h).execute X n args = fail "Unknown custom function: {}" [n]) := by
  have hg := Registry.after_get X h hs n
  have hl := ConcReg.after_refines X h
  have hsome : (Registry.after X h (X.upper n)).isSome = true ↔ ∃ f, Stands X h n f := by
    rw [Option.isSome_iff_exists]; exact exists_congr hg
  refine ⟨⟨hsome, ?_⟩, hsome, ?_, ?_, ?_⟩
  · unfold ConcReg.has; rw [hl]; exact hsome
  · show ((ConcReg.after X h).lookup (X.upper n)).isSome = true ↔ _
    rw [hl]; exact hsome
  · intro f args hf
    have := (hg f).2 hf
    constructor
    · unfold Registry.execute Registry.get
      rw [this]; exact calls_of n f args
    · unfold ConcReg.execute
      rw [hl, this]; exact calls_of n f args
  · intro args hno
    have : Registry.after X h (X.upper n) = none := by
      cases hc : Registry.after X h (X.upper n) with
      | none => rfl
      | some f => exact absurd ⟨f, (hg f).1 hc⟩ hno
    constructor
    · unfold Registry.execute Registry.get; rw [this]
    · unfold ConcReg.execute; rw [hl, this]

/-- **C45.** A registration succeeds exactly when the definition is acceptable, and one that fails changes nothing. -/
theorem C45_invalid_rejected (X : Ext) (r : Registry) (c : ConcReg) (f : CustomFn) (hf : f.minArgs < 2 ^ 64) :
    ((r.step X (.register f)).2 = true ↔ Accepted X f) ∧ (¬ Accepted X f → (r.step X (.register f)).1 = r) ∧
    ((c.step X (.register f)).2 = true ↔ Accepted X f) ∧ (¬ Accepted X f → (c.step X (.register f)).1 = c) := by
  rw [accepted_cond X f (sized_le hf)]
  simp only [Registry.step, Registry.register, ConcReg.step, ConcReg.register]
  by_cases h1 : (X.upper f.name).isEmpty = true
  · simp [h1, fail]
  · by_cases h2 : f.minArgs > f.maxArgs.getD Registry.usizeMax
    · simp only [if_neg h1, if_pos h2, fail]; simp [h2]
    · simp only [if_neg h1, if_neg h2]; simp [h1]; omega

/-- **C45.** Names that differ only in case are the same name. -/
theorem C45_case_insensitive (X : Ext) (r : Registry) (c : ConcReg) (a b : Str) (h : X.upper a = X.upper b) :
    r.has X a = r.has X b ∧ c.has X a = c.has X b ∧ r.get X a = r.get X b ∧
    (r.step X (.unregister a)) = (r.step X (.unregister b)) ∧ (c.step X (.unregister a)) = (c.step X (.unregister b)) := by
  simp [Registry.has, ConcReg.has, Registry.get, Registry.step, ConcReg.step, Registry.unregister, ConcReg.unregister, h]

theorem ConcReg.keys_step (X : Ext) (r : ConcReg) (op : RegOp) (h : (r.map (·.1)).Nodup) : ((r.step X op).1.map (·.1)).Nodup := by
  have he : ∀ k, ((r.erase k).map (·.1)).Nodup := fun k => by
    unfold ConcReg.erase
    exact List.Nodup.sublist (List.Sublist.map _ List.filter_sublist) h
  cases op with
  | register f =>
    simp only [ConcReg.step, ConcReg.register]
    split
    · rename_i r' h1
      split at h1
      · simp [fail] at h1
      · split at h1
        · simp [fail] at h1
        · cases h1
          unfold ConcReg.insert
          rw [List.map_cons, List.nodup_cons]
          refine ⟨?_, he _⟩
          simp [ConcReg.erase]
    · exact h
  | unregister n => exact he _

theorem ConcReg.mem_keys (r : ConcReg) (k : Str) : k ∈ r.map (·.1) ↔ (r.lookup k).isSome = true := by
  unfold ConcReg.lookup
  rw [Option.isSome_map, List.find?_isSome, List.mem_map]
  simp

/-- **C45.** The list of functions has every registered name, upper-cased, exactly once, and its length is the count reported. -/
theorem C45_list (X : Ext) (h : List RegOp) :
    (ConcReg.after X h).list.Nodup ∧ (ConcReg.after X h).len = (ConcReg.after X h).list.length ∧
    ((ConcReg.after X h).isEmpty = true ↔ (ConcReg.after X h).list = []) ∧
    ∀ n, (X.upper n ∈ (ConcReg.after X h).list ↔ (ConcReg.after X h).has X n = true) ∧
      ((Registry.after X h).names (X.upper n) ↔ (Registry.after X h).has X n = true) := by
  have hnd : ((ConcReg.after X h).map (·.1)).Nodup := by
    unfold ConcReg.after
    have : ∀ (r : ConcReg), (r.map (·.1)).Nodup → ((h.foldl (fun r op => (r.step X op).1) r).map (·.1)).Nodup := by
      induction h with
      | nil => intro r hr; exact hr
      | cons op h ih => intro r hr; exact ih _ (ConcReg.keys_step X r op hr)
    exact this _ List.nodup_nil
  refine ⟨hnd, by simp [ConcReg.len, ConcReg.list], ?_, ?_⟩
  · unfold ConcReg.isEmpty ConcReg.list
    cases ConcReg.after X h <;> simp
  · intro n
    exact ⟨ConcReg.mem_keys _ _, Iff.rfl⟩

/-! The per-thread cache. -/

namespace Spec

/-- A step of a program with any number of threads, each with its own cache: an operation on the shared registry, a lookup of a name through the cache
of a thread, or a thread clearing its cache. -/
inductive CacheOp where
  | reg (op : RegOp)
  | get (thread : ℕ) (name : Str)
  | clear (thread : ℕ)

end Spec

/-- The shared registry and the caches of all threads. -/
structure World where
  reg : ConcReg
  caches : ℕ → LocalCache

namespace World

/-- At the start. -/
def init : World := ⟨ConcReg.empty, fun _ => LocalCache.new⟩

/-- One step, with the function found if it is a lookup. -/
def step (X : Ext) (w : World) : CacheOp → World × Option CustomFn
  | .reg op => ({ w with reg := (w.reg.step X op).1 }, none)
  | .get t n =>
    let r := LocalCache.get X w.reg (w.caches t) n
    ({ w with caches := fun t' => if t' = t then r.1 else w.caches t' }, r.2)
  | .clear t => ({ w with caches := fun t' => if t' = t then (w.caches t).clear else w.caches t' }, none)

/-- After a history. -/
def after (X : Ext) (h : List CacheOp) : World := h.foldl (fun w op => (w.step X op).1) init

/-- What looking up `n` through the cache of thread `t` finds after the history. -/
def found (X : Ext) (h : List CacheOp) (t : ℕ) (n : Str) : Option CustomFn := ((after X h).step X (.get t n)).2

end World

/-- The operations on the registry within a history. -/
def Spec.regOps (h : List CacheOp) : List RegOp := h.filterMap fun | .reg op => some op | _ => none

theorem World.foldl_reg (X : Ext) (h : List CacheOp) : ∀ w : World, (h.foldl (fun w op => (World.step X w op).1) w).reg =
    (regOps h).foldl (fun r op => (ConcReg.step X r op).1) w.reg := by
  induction h with
  | nil => intro w; rfl
  | cons op h ih =>
    intro w
    rw [List.foldl_cons, ih]
    cases op <;> rfl

/-- The registry only depends on the operations on it. -/
theorem World.after_reg (X : Ext) (h : List CacheOp) : (World.after X h).reg = ConcReg.after X (regOps h) := World.foldl_reg X h World.init

/-- **C46.** The cache does serve stale functions: once a thread has looked a name up, it goes on finding the function after it has been unregistered,
and finds the old function after another one has been registered. -/
theorem C46_stale (X : Ext) (f g : CustomFn) (hf : Accepted X f) (hg : Accepted X g) (hfs : f.minArgs < 2 ^ 64) (hgs : g.minArgs < 2 ^ 64)
    (hname : X.upper g.name = X.upper f.name) (t : ℕ) :
    World.found X [.reg (.register f), .get t f.name, .reg (.unregister f.name)] t f.name = some f ∧
    (¬ ∃ k, Stands X (regOps [.reg (.register f), .get t f.name, .reg (.unregister f.name)]) f.name k) ∧
    World.found X [.reg (.register f), .get t f.name, .reg (.register g)] t f.name = some f ∧
    Stands X (regOps [.reg (.register f), .get t f.name, .reg (.register g)]) f.name g := by
  have h1 := (accepted_cond X f (sized_le hfs)).1 hf
  have h2 := (accepted_cond X g (sized_le hgs)).1 hg
  have hl : ConcReg.lookup [(X.upper f.name, f)] (X.upper f.name) = some f := by simp [ConcReg.lookup]
  have r1 : ConcReg.register X ConcReg.empty f = .ok [(X.upper f.name, f)] := by
    simp only [ConcReg.register, if_neg h1.1, if_neg h1.2]; rfl
  have hget : ∀ op : RegOp, World.found X [.reg (.register f), .get t f.name, .reg op] t f.name = some f := by
    intro op
    simp only [World.found, World.after, List.foldl, World.step, World.init, ConcReg.step, r1, LocalCache.get, LocalCache.new, hl, if_true]
  refine ⟨hget _, ?_, hget _, ?_⟩
  · rintro ⟨k, hk⟩
    have := (Registry.after_get X _ (by intro op ho; simp [regOps] at ho; rcases ho with rfl | rfl; exact hfs; trivial) f.name k).2 hk
    simp [regOps, Registry.after, Registry.step, Registry.unregister] at this
  · refine ⟨[.register f], [], rfl, ⟨hg, hname⟩, by simp⟩

/-- The cache of a thread is only changed by its own steps. -/
theorem World.cache_other (X : Ext) (w : World) (op : CacheOp) (t : ℕ) (h : ∀ n, op ≠ .get t n) (h' : op ≠ .clear t) : (w.step X op).1.caches t = w.caches t := by
  cases op with
  | reg op => rfl
  | get t' n =>
    have : ¬ t = t' := fun e => h n (by rw [e])
    simp [World.step, this]
  | clear t' =>
    have : ¬ t = t' := fun e => h' (by rw [e])
    simp [World.step, this]

/-- What a cached function is: it was found in the registry at a moment when this thread looked it up, and not cleared since. -/
theorem World.cached_origin (X : Ext) (h : List CacheOp) (t : ℕ) (k : Str) (f : CustomFn) (hc : ((World.after X h).caches t).cache k = some f) :
    ∃ h1 n h2, h = h1 ++ .get t n :: h2 ∧ X.upper n = k ∧ (World.after X h1).reg.lookup k = some f ∧ .clear t ∉ h2 := by
  induction h using List.reverseRecOn with
  | nil => simp [World.after, World.init, LocalCache.new] at hc
  | append_singleton h op ih =>
    have hstep : World.after X (h ++ [op]) = ((World.after X h).step X op).1 := by
      unfold World.after; rw [List.foldl_append]; rfl
    rw [hstep] at hc
    have keep : op ≠ .clear t → ((World.after X h).caches t).cache k = some f →
        ∃ h1 n h2, h ++ [op] = h1 ++ .get t n :: h2 ∧ X.upper n = k ∧ (World.after X h1).reg.lookup k = some f ∧ .clear t ∉ h2 := by
      intro hne hc
      obtain ⟨h1, n, h2, e, a, b, c⟩ := ih hc
      refine ⟨h1, n, h2 ++ [op], by rw [e]; simp, a, b, ?_⟩
      simp [c]; exact fun h => hne h.symm
    by_cases hcl : op = .clear t
    · subst hcl; simp [World.step, LocalCache.clear] at hc
    by_cases hg : ∃ n, op = .get t n
    · obtain ⟨n, rfl⟩ := hg
      by_cases hold : ((World.after X h).caches t).cache k = some f
      · exact keep hcl hold
      · simp only [World.step, if_true, LocalCache.get] at hc
        cases hch : ((World.after X h).caches t).cache (X.upper n) with
        | some g => rw [hch] at hc; exact absurd hc hold
        | none =>
          rw [hch] at hc
          cases hl : (World.after X h).reg.lookup (X.upper n) with
          | none => rw [hl] at hc; exact absurd hc hold
          | some g =>
            rw [hl] at hc
            simp only at hc
            split at hc
            · rename_i hk
              cases hc
              exact ⟨h, n, [], rfl, hk.symm, by rw [hk]; exact hl, by simp⟩
            · exact absurd hc hold
    · have := World.cache_other X (World.after X h) op t (fun n hn => hg ⟨n, hn⟩) hcl
      rw [this] at hc
      exact keep hcl hc

/-- **C46 (partial).** A lookup finds the function now registered if the thread has cleared its cache (or has never used it), or at least not looked
the name up, since the last operation concerning that name. -/
theorem C46_fresh_partial (X : Ext) (h : List CacheOp) (hs : ∀ op ∈ regOps h, op.Sized) (t : ℕ) (n : Str)
    (hq : ∀ h1 m h2 op, h = h1 ++ .get t m :: h2 → X.upper m = X.upper n → .clear t ∉ h2 → .reg op ∈ h2 → ¬ Concerns X n op) :
    ∀ f, World.found X h t n = some f ↔ Stands X (regOps h) n f := by
  intro f
  rw [← Registry.after_get X _ hs n f, ← ConcReg.after_refines, ← World.after_reg]
  unfold World.found
  simp only [World.step, LocalCache.get]
  cases hc : ((World.after X h).caches t).cache (X.upper n) with
  | none =>
    cases hl : (World.after X h).reg.lookup (X.upper n) with
    | none => simp
    | some g => simp
  | some g =>
    obtain ⟨h1, m, h2, e, a, b, c⟩ := World.cached_origin X h t (X.upper n) g hc
    have hno := fun op => hq h1 m h2 op e a c
    have : (World.after X h).reg.lookup (X.upper n) = some g := by
      rw [← b, World.after_reg, World.after_reg, ConcReg.after_refines, ConcReg.after_refines]
      have er : regOps h = regOps h1 ++ regOps h2 := by rw [e]; simp [regOps]
      rw [er, Registry.after, List.foldl_append, Registry.foldl_none X n (regOps h2)]
      · rfl
      · intro op ho; exact hs op (by rw [er]; simp [ho])
      · intro op ho
        refine hno op ?_
        unfold regOps at ho
        rw [List.mem_filterMap] at ho
        obtain ⟨o, ho, he⟩ := ho
        cases o <;> simp at he
        subst he; exact ho
    simp only [this]

/-- The hypotheses of `C46_fresh_partial`: another thread looked the name up before it was registered anew, this one has not. -/
example (X : Ext) (f g : CustomFn) (hf : f.minArgs < 2 ^ 64) (hg : g.minArgs < 2 ^ 64) (k : CustomFn) :
    World.found X [.reg (.register f), .get 1 f.name, .reg (.register g)] 0 f.name = some k ↔ Stands X [.register f, .register g] f.name k :=
  C46_fresh_partial X [.reg (.register f), .get 1 f.name, .reg (.register g)] (by intro op ho; simp [regOps] at ho; rcases ho with rfl | rfl <;> assumption) 0 f.name (by
    intro h1 m h2 op e
    have : CacheOp.get 0 m ∈ [CacheOp.reg (.register f), .get 1 f.name, .reg (.register g)] := by rw [e]; simp
    simp at this) k

/-- **C46 (partial).** In every case what a lookup finds was registered under that name at some moment since the thread last cleared its cache, or is
registered now. -/
theorem C46_once_registered_partial (X : Ext) (h : List CacheOp) (hs : ∀ op ∈ regOps h, op.Sized) (t : ℕ) (n : Str) (f : CustomFn)
    (hf : World.found X h t n = some f) : ∃ h1 h2, h = h1 ++ h2 ∧ Stands X (regOps h1) n f ∧ .clear t ∉ h2 := by
  unfold World.found at hf
  simp only [World.step, LocalCache.get] at hf
  have fin : ∀ h1 : List CacheOp, (∀ op ∈ regOps h1, op.Sized) → (World.after X h1).reg.lookup (X.upper n) = some f → Stands X (regOps h1) n f := by
    intro h1 hs1 hl
    rw [World.after_reg, ConcReg.after_refines] at hl
    exact (Registry.after_get X _ hs1 n f).1 hl
  cases hc : ((World.after X h).caches t).cache (X.upper n) with
  | none =>
    rw [hc] at hf
    cases hl : (World.after X h).reg.lookup (X.upper n) with
    | none => rw [hl] at hf; cases hf
    | some g =>
      rw [hl] at hf
      cases hf
      exact ⟨h, [], by simp, fin h hs hl, by simp⟩
  | some g =>
    rw [hc] at hf
    cases hf
    obtain ⟨h1, m, h2, e, a, b, c⟩ := World.cached_origin X h t (X.upper n) f hc
    refine ⟨h1, .get t m :: h2, e, fin h1 ?_ b, by simp [c]⟩
    intro op ho
    exact hs op (by rw [e]; simp [regOps] at ho ⊢; left; exact ho)

/-- **C46.** The counters: hits and misses together count the successful lookups of the thread since it last cleared its cache. -/
theorem C46_stats (X : Ext) (h : List CacheOp) (t : ℕ) :
    ((World.after X h).caches t).hits + ((World.after X h).caches t).misses =
      (h.foldl (fun (s : World × ℕ) op => ((s.1.step X op).1,
        match op with
        | .get t' _ => if t' = t ∧ (s.1.step X op).2 ≠ none then s.2 + 1 else s.2
        | .clear t' => if t' = t then 0 else s.2
        | _ => s.2)) (World.init, 0)).2 := by
  have key : ∀ (w : World) (c : ℕ), (w.caches t).hits + (w.caches t).misses = c →
      ((h.foldl (fun w op => (World.step X w op).1) w).caches t).hits + ((h.foldl (fun w op => (World.step X w op).1) w).caches t).misses =
      (h.foldl (fun (s : World × ℕ) op => ((s.1.step X op).1,
        match op with
        | .get t' _ => if t' = t ∧ (s.1.step X op).2 ≠ none then s.2 + 1 else s.2
        | .clear t' => if t' = t then 0 else s.2
        | _ => s.2)) (w, c)).2 := by
    induction h with
    | nil => intro w c hc; exact hc
    | cons op h ih =>
      intro w c hc
      rw [List.foldl_cons, List.foldl_cons]
      apply ih
      cases op with
      | reg op => exact hc
      | get t' n =>
        by_cases ht : t' = t
        · subst ht
          simp only [World.step, if_true, LocalCache.get, true_and]
          cases (w.caches t').cache (X.upper n) with
          | some f => simp; omega
          | none =>
            cases w.reg.lookup (X.upper n) with
            | some f => simp; omega
            | none => simp; omega
        · have : ¬ t = t' := fun h => ht h.symm
          simp [World.step, ht, this, hc]
      | clear t' =>
        by_cases ht : t' = t
        · subst ht; simp [World.step, LocalCache.clear]
        · have : ¬ t = t' := fun h => ht h.symm
          simp [World.step, ht, this, hc]
  exact key World.init 0 rfl

/-- A definition that is accepted. -/
def sampleFn : CustomFn := ⟨c!"double", 1, some 1, fun _ => .ok .null⟩

example (X : Ext) : Accepted X sampleFn := by
  refine ⟨?_, by intro m hm; cases hm; decide⟩
  rw [show X.upper sampleFn.name = c!"DOUBLE" from rfl]; decide

example (X : Ext) : Stands X [.register sampleFn, .unregister c!"triple"] c!"Double" sampleFn := by
  refine ⟨[], [.unregister c!"triple"], rfl, ⟨⟨?_, by intro m hm; cases hm; decide⟩, rfl⟩, ?_⟩
  · rw [show X.upper sampleFn.name = c!"DOUBLE" from rfl]; decide
  · intro op ho
    simp at ho; subst ho
    rw [Concerns, show X.upper c!"triple" = c!"TRIPLE" from rfl, show X.upper c!"Double" = c!"DOUBLE" from rfl]; decide
