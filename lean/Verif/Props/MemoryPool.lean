import Verif.Model.MemoryPool
import Mathlib.Data.List.Induction
import Mathlib.Tactic.Common
/-! C48: pooled contexts are handed out empty, the pool is bounded, the counters add up. C49: copy-on-write contexts behave like copies. -/

open MemPool

namespace Spec

/-- How many contexts a history acquires. -/
def acquires (ops : List Op) : Nat := (ops.filter fun op => op matches .acquire).length

/-- What context number `h` contains after a history, latest operation first, if every `acquire` made a new empty map: what was written to that context, and to no other. -/
def pooledRev (h : Nat) : List Op → Option (Str → Option Value)
  | [] => none
  | .acquire :: ops => if acquires ops = h then some fun _ => none else pooledRev h ops
  | .insert h' k v :: ops => if h' = h then (pooledRev h ops).map fun m n => if n = k then some v else m n else pooledRev h ops
  | .withBase h' b :: ops => if h' = h then (pooledRev h ops).map fun m n => if (b n).isSome then b n else m n else pooledRev h ops
  | .drop h' :: ops => if h' = h then none else pooledRev h ops

/-- The same for a history given in order. -/
def pooled (h : Nat) (ops : List Op) : Option (Str → Option Value) := pooledRev h ops.reverse

/-- A full copy of `base` after inserting `kvs` in order. -/
def copyWith (base : Str → Option Value) (kvs : List (Str × Value)) : Str → Option Value := fun k =>
  match kvs.reverse.find? (fun kv => kv.1 = k) with
  | some kv => some kv.2
  | none => base k

end Spec

open Spec

theorem MemPool.World.after_snoc (m : Nat) (ops : List Op) (op : Op) : World.after m (ops ++ [op]) = (World.after m ops).step op := by
  simp [World.after]

theorem Spec.acquires_reverse (ops : List Op) : acquires ops.reverse = acquires ops := by
  simp [acquires, List.filter_reverse]

theorem Spec.acquires_snoc (ops : List Op) (op : Op) : acquires (ops ++ [op]) = acquires ops + if op matches .acquire then 1 else 0 := by
  simp only [acquires, List.filter_append, List.length_append]
  cases op <;> rfl

theorem MemPool.World.contexts_length (m : Nat) (ops : List Op) : (World.after m ops).contexts.length = acquires ops := by
  induction ops using List.reverseRecOn with
  | nil => rfl
  | append_singleton ops op ih =>
    rw [World.after_snoc, Spec.acquires_snoc]
    cases op with
    | acquire => simp [World.step, ih]
    | insert => simp [World.step, ih]
    | withBase => simp [World.step, ih]
    | drop h =>
      simp only [World.step]
      split <;> simp [ih]

theorem MemPool.Pool.acquire_empty (p : Pool) : p.acquire.1 = fun _ => none := by
  unfold Pool.acquire; split <;> rfl

/-- **C48.** Whatever happened to the pool before, a context contains what was written to it since it was acquired and nothing else: in particular it is empty when it
is handed out, and writing to one context or dropping it is not seen through any other. -/
theorem C48_contexts (maxSize : Nat) (ops : List Op) (h : Nat) : (World.after maxSize ops).read h = pooled h ops := by
  induction ops using List.reverseRecOn with
  | nil => rfl
  | append_singleton ops op ih =>
    have hlen := World.contexts_length maxSize ops
    rw [World.after_snoc]
    simp only [pooled, List.reverse_append, List.reverse_cons, List.reverse_nil, List.nil_append, List.singleton_append] at ih ⊢
    generalize World.after maxSize ops = w at ih hlen
    cases op with
    | acquire =>
      simp only [pooledRev, Spec.acquires_reverse, World.step, World.read]
      by_cases hh : acquires ops = h
      · rw [if_pos hh, ← hh, ← hlen]
        simp [Pool.acquire_empty]
      · rw [if_neg hh, ← ih]
        simp only [World.read]
        rcases Nat.lt_or_ge h w.contexts.length with hl | hl
        · rw [List.getElem?_append_left hl]
        · rw [List.getElem?_append_right hl, List.getElem?_eq_none hl]
          have : h - w.contexts.length ≠ 0 := by omega
          rw [List.getElem?_eq_none (by simp; omega)]
    | insert h' k v =>
      simp only [pooledRev, World.step, World.read] at ih ⊢
      rw [List.getElem?_modify]
      by_cases hh : h' = h
      · rw [if_pos hh, ← ih]
        simp only [hh, if_true, Option.map_eq_map]
        cases w.contexts[h]? with
        | none => rfl
        | some o => cases o <;> rfl
      · rw [if_neg hh, ← ih]
        simp only [hh, if_false, Option.map_eq_map]
        cases w.contexts[h]? <;> rfl
    | withBase h' b =>
      simp only [pooledRev, World.step, World.read] at ih ⊢
      rw [List.getElem?_modify]
      by_cases hh : h' = h
      · rw [if_pos hh, ← ih]
        simp only [hh, if_true, Option.map_eq_map]
        cases w.contexts[h]? with
        | none => rfl
        | some o =>
          cases o with
          | none => rfl
          | some m =>
            simp only [Option.map_some, Option.join_some]
            congr 1
            funext n
            simp only [extend]
            cases b n <;> rfl
      · rw [if_neg hh, ← ih]
        simp only [hh, if_false, Option.map_eq_map]
        cases w.contexts[h]? <;> rfl
    | drop h' =>
      simp only [pooledRev, World.step, World.read] at ih ⊢
      by_cases hh : h' = h
      · subst hh
        rw [if_pos rfl]
        split
        · rename_i ctx hc
          have hl : h' < w.contexts.length := (List.getElem?_eq_some_iff.1 hc).1
          simp [hl]
        · rename_i hc
          cases hg : w.contexts[h']? with
          | none => rfl
          | some o =>
            cases o with
            | none => rfl
            | some ctx => exact absurd hg (hc ctx)
      · rw [if_neg hh]
        split
        · simp only [List.getElem?_set_ne hh]; exact ih
        · exact ih

/-- **C48.** The pool never keeps more contexts than it was made for. -/
theorem C48_bounded (maxSize : Nat) (ops : List Op) : (World.after maxSize ops).pool.stats.1 ≤ maxSize := by
  have key : (World.after maxSize ops).pool.maxSize = maxSize ∧ (World.after maxSize ops).pool.pool.length ≤ maxSize := by
    induction ops using List.reverseRecOn with
    | nil => exact ⟨rfl, Nat.zero_le _⟩
    | append_singleton ops op ih =>
      rw [World.after_snoc]
      generalize World.after maxSize ops = w at ih
      cases op with
      | acquire =>
        simp only [World.step, Pool.acquire]
        split
        · rename_i ctx rest hp; rw [hp] at ih; simp at ih; exact ⟨ih.1, by simp; omega⟩
        · rename_i hp; exact ⟨ih.1, by simp [hp]⟩
      | insert => exact ih
      | withBase => exact ih
      | drop h =>
        simp only [World.step]
        split
        · simp only [Pool.release]
          split
          · exact ⟨ih.1, by simp; omega⟩
          · exact ih
        · exact ih
  exact key.2

/-- **C48.** Every acquisition is counted, either as created or as reused; and no more contexts are reused than were dropped. -/
theorem C48_counted (maxSize : Nat) (ops : List Op) :
    (World.after maxSize ops).pool.stats.2.1 + (World.after maxSize ops).pool.stats.2.2 = acquires ops ∧
    (World.after maxSize ops).pool.stats.2.2 + (World.after maxSize ops).pool.stats.1 ≤ (ops.filter fun op => op matches .drop _).length := by
  induction ops using List.reverseRecOn with
  | nil => exact ⟨rfl, Nat.le_refl _⟩
  | append_singleton ops op ih =>
    rw [World.after_snoc, Spec.acquires_snoc]
    simp only [List.filter_append, List.length_append]
    generalize World.after maxSize ops = w at ih
    simp only [Pool.stats] at ih ⊢
    cases op with
    | acquire =>
      simp only [World.step, Pool.acquire]
      split
      · rename_i ctx rest hp; rw [hp] at ih; simp at ih ⊢; omega
      · rename_i hp; rw [hp] at ih; simp [hp] at ih ⊢; omega
    | insert => simpa [World.step] using ih
    | withBase => simpa [World.step] using ih
    | drop h =>
      simp only [World.step]
      split
      · simp only [Pool.release]
        split
        · simp; omega
        · simp; omega
      · simp; omega

/-- A context that was written to, dropped and handed out again. -/
example : (World.after 1 [.acquire, .insert 0 c!"x" .null, .drop 0, .acquire]).pool.stats = (0, 1, 1) ∧
    ((World.after 1 [.acquire, .insert 0 c!"x" .null, .drop 0, .acquire]).read 1).bind (· c!"x") = none := by
  constructor
  · rfl
  · rw [C48_contexts]; rfl

/-! ### C49 -/

/-- **C49.** After any insertions a copy-on-write context reads, and combines to, what a full copy of the base with the same insertions holds; it says it was modified exactly if something was
inserted. -/
theorem C49_like_a_copy (base : Env) (kvs : List (Str × Value)) (c : Cow) (hc : c = kvs.foldl (fun c kv => c.insert kv.1 kv.2) (Cow.new base)) :
    (∀ k, c.get k = copyWith base kvs k) ∧ c.combined = copyWith base kvs ∧ (c.isModified = true ↔ kvs ≠ []) ∧ c.base = base := by
  have get_combined : ∀ c : Cow, c.combined = c.get := by
    intro c
    unfold Cow.combined Cow.get
    cases c.overlay with
    | none => rfl
    | some o =>
      funext k
      simp only [extend]
      cases o k <;> rfl
  have key : (∀ k, c.get k = copyWith base kvs k) ∧ (c.isModified = true ↔ kvs ≠ []) ∧ c.base = base := by
    subst hc
    induction kvs using List.reverseRecOn with
    | nil => exact ⟨fun _ => rfl, by simp [Cow.isModified, Cow.new], rfl⟩
    | append_singleton kvs kv ih =>
      simp only [List.foldl_append, List.foldl_cons, List.foldl_nil]
      generalize kvs.foldl (fun c kv => c.insert kv.1 kv.2) (Cow.new base) = d at ih
      obtain ⟨h1, h2, h3⟩ := ih
      refine ⟨fun k => ?_, ?_, ?_⟩
      · have e : copyWith base (kvs ++ [kv]) k = if kv.1 = k then some kv.2 else copyWith base kvs k := by
          simp only [copyWith, List.reverse_append, List.reverse_cons, List.reverse_nil, List.nil_append, List.singleton_append, List.find?_cons]
          by_cases hk : kv.1 = k <;> simp [hk]
        rw [e, ← h1 k]
        simp only [Cow.get, Cow.insert, put]
        by_cases hk : k = kv.1
        · simp [hk]
        · rw [if_neg hk, if_neg (fun h => hk h.symm)]
          cases d.overlay <;> rfl
      · simp [Cow.isModified, Cow.insert]
      · simpa [Cow.insert] using h3
  exact ⟨key.1, by rw [get_combined]; funext k; exact key.1 k, key.2⟩

/-- **C49.** Contexts sharing one base do not see each other's insertions: whatever is inserted into the other, in whatever order, each reads like its own copy. -/
theorem C49_independent (base : Env) (ops : List (Bool × Str × Value)) :
    let both := ops.foldl (fun (p : Cow × Cow) op => if op.1 then (p.1.insert op.2.1 op.2.2, p.2) else (p.1, p.2.insert op.2.1 op.2.2)) (Cow.new base, Cow.new base)
    both.1.get = copyWith base ((ops.filter (·.1)).map (·.2)) ∧ both.2.get = copyWith base ((ops.filter (! ·.1)).map (·.2)) := by
  intro both
  have key : both.1 = ((ops.filter (·.1)).map (·.2)).foldl (fun c kv => c.insert kv.1 kv.2) (Cow.new base) ∧
      both.2 = ((ops.filter (! ·.1)).map (·.2)).foldl (fun c kv => c.insert kv.1 kv.2) (Cow.new base) := by
    simp only [both]
    induction ops using List.reverseRecOn with
    | nil => exact ⟨rfl, rfl⟩
    | append_singleton ops op ih =>
      obtain ⟨b, k, v⟩ := op
      cases b <;> simp [List.filter_append, ih.1, ih.2]
  exact ⟨funext (C49_like_a_copy base _ _ key.1).1, funext (C49_like_a_copy base _ _ key.2).1⟩

example : (copyWith (fun k => if k = c!"x" then some .null else none) [(c!"y", .bool true), (c!"x", .bool false), (c!"y", .bool false)] c!"y").isSome = true := rfl
