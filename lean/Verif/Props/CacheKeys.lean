import Verif.Model.HttpCache
import Verif.Lemmas.DebugText
import Verif.Base.KernelRfl
import Mathlib.Data.List.Perm.Basic
import Mathlib.Data.List.Perm.Subperm
import Mathlib.Data.Countable.Basic
import Mathlib.Data.Rat.Denumerable
/-! C53: do cache keys distinguish requests? -/

open HttpCache

open Spec

/-! Keys. -/

theorem insertSorted_perm (s : Str) (l : List Str) : (insertSorted s l).Perm (s :: l) := by
  induction l with
  | nil => exact List.Perm.refl _
  | cons t ts ih =>
    unfold insertSorted
    split
    · exact List.Perm.refl _
    · exact (ih.cons t).trans (List.Perm.swap s t ts)

theorem sort_perm (l : List Str) : (sort l).Perm l := by
  induction l with
  | nil => exact List.Perm.refl _
  | cons s ss ih => exact (insertSorted_perm s (sort ss)).trans (ih.cons s)

/-- A variable as it is written into the key. -/
def Spec.keyPart (X : Ext) (p : Str × Value) : Str := p.1 ++ ':' :: X.dbg p.2

theorem part_code {X : Ext} (hX : NumbersApart X) {p q : Str × Value} (hp : ':' ∉ p.1) (hq : ':' ∉ q.1) {r s : Str}
    (h : keyPart X p ++ r = keyPart X q ++ s) : p = q ∧ r = s := by
  simp only [keyPart, List.append_assoc, List.cons_append] at h
  obtain ⟨h1, h2⟩ := split_at hp hq h
  obtain ⟨h3, h4⟩ := dbg_code hX _ _ h2
  exact ⟨Prod.ext h1 h3, h4⟩

theorem join_code {X : Ext} (hX : NumbersApart X) : ∀ (ps qs : List (Str × Value)), (∀ p ∈ ps, ':' ∉ p.1) → (∀ q ∈ qs, ':' ∉ q.1) →
    Str.join c!"," (ps.map (keyPart X)) = Str.join c!"," (qs.map (keyPart X)) → ps = qs
  | [], [], _, _, _ => rfl
  | [], [q], _, _, h => by
    have : keyPart X q = [] := by simpa [Str.join] using h.symm
    simp [keyPart] at this
  | [], q :: q2 :: qs, _, _, h => by
    simp only [List.map_nil, Str.join, List.map_cons] at h
    have := congrArg List.length h
    simp at this
  | [p], [], _, _, h => by
    have : keyPart X p = [] := by simpa [Str.join] using h
    simp [keyPart] at this
  | p :: p2 :: ps, [], _, _, h => by
    simp only [List.map_nil, Str.join, List.map_cons] at h
    have := congrArg List.length h
    simp at this
  | [p], [q], hp, hq, h => by
    simp only [List.map_cons, List.map_nil, Str.join] at h
    have := part_code hX (hp p (by simp)) (hq q (by simp)) (r := []) (s := []) (by simpa using h)
    rw [this.1]
  | [p], q :: q2 :: qs, hp, hq, h => by
    simp only [List.map_cons, List.map_nil, Str.join, List.append_assoc] at h
    have := part_code hX (hp p (by simp)) (hq q (by simp)) (r := []) (by simpa using h)
    simp at this
  | p :: p2 :: ps, [q], hp, hq, h => by
    simp only [List.map_cons, List.map_nil, Str.join, List.append_assoc] at h
    have := part_code hX (hp p (by simp)) (hq q (by simp)) (s := []) (by simpa using h)
    simp at this
  | p :: p2 :: ps, q :: q2 :: qs, hp, hq, h => by
    rw [List.map_cons, List.map_cons, List.map_cons, List.map_cons, Str.join, Str.join, List.append_assoc, List.append_assoc] at h
    have h1 := part_code hX (hp p (by simp)) (hq q (by simp)) h
    have h2 := join_code hX (p2 :: ps) (q2 :: qs) (fun x hx => hp x (by simp [hx])) (fun x hx => hq x (by simp [hx])) (by
      simpa using h1.2)
    rw [h1.1, h2]

theorem perm_of_map {α β : Type} (f : α → β) (P : α → Prop) (hinj : ∀ a b, P a → P b → f a = f b → a = b) : ∀ (l m : List α), (∀ a ∈ l, P a) → (∀ a ∈ m, P a) →
    (l.map f).Perm (m.map f) → l.Perm m
  | [], m, _, _, h => by
    have := h.length_eq
    simp at this
    rw [List.length_eq_zero_iff.1 this.symm]
  | a :: l, m, hl, hm, h => by
    have hmem : f a ∈ m.map f := h.subset (by simp)
    obtain ⟨b, hb, hfb⟩ := List.mem_map.1 hmem
    have hab : a = b := hinj a b (hl a (by simp)) (hm b hb) hfb.symm
    subst hab
    obtain ⟨m1, m2, rfl⟩ := List.append_of_mem hb
    have h' : (f a :: l.map f).Perm (f a :: (m1 ++ m2).map f) := by
      refine h.trans ?_
      simp only [List.map_append, List.map_cons]
      exact List.perm_middle
    have := perm_of_map f P hinj l (m1 ++ m2) (fun x hx => hl x (by simp [hx])) (fun x hx => hm x (by
      rcases List.mem_append.1 hx with h | h <;> simp [h])) ((List.perm_cons _).1 h')
    exact (this.cons a).trans List.perm_middle.symm

theorem perm_map_of {α β : Type} (f : α → β) : ∀ {l : List β} {m : List α}, l.Perm (m.map f) → ∃ m' : List α, m'.Perm m ∧ l = m'.map f
  | [], m, h => by
    have := h.length_eq
    simp at this
    exact ⟨[], by rw [List.length_eq_zero_iff.1 this.symm], rfl⟩
  | b :: l, m, h => by
    have hmem : b ∈ m.map f := h.subset (by simp)
    obtain ⟨a, ha, hfa⟩ := List.mem_map.1 hmem
    obtain ⟨m1, m2, rfl⟩ := List.append_of_mem ha
    have h' : (b :: l).Perm (b :: (m1 ++ m2).map f) := by
      refine h.trans ?_
      simp only [List.map_append, List.map_cons, hfa]
      exact List.perm_middle
    obtain ⟨m', hm', hl⟩ := perm_map_of f ((List.perm_cons _).1 h')
    exact ⟨a :: m', (hm'.cons a).trans List.perm_middle.symm, by rw [List.map_cons, hfa, hl]⟩

theorem envOf_perm {vs ws : Vars} (hn : (vs.map (·.1)).Nodup) (h : vs.Perm ws) : envOf vs = envOf ws := by
  have hw : (ws.map (·.1)).Nodup := (h.map _).nodup_iff.1 hn
  have key : ∀ {us : Vars} (_ : (us.map (·.1)).Nodup) (n : Str) (v : Value), envOf us n = some v ↔ (n, v) ∈ us := by
    intro us hu n v
    unfold envOf
    induction us with
    | nil => simp
    | cons p us ih =>
      simp only [List.map_cons, List.nodup_cons] at hu
      rw [List.find?_cons]
      by_cases hp : p.1 = n
      · simp only [hp, decide_true, Option.map_some, Option.some.injEq, List.mem_cons]
        constructor
        · intro hv; left; rw [← hp, ← hv]
        · rintro (hv | hv)
          · rw [← hv]
          · exact absurd (List.mem_map.2 ⟨_, hv, rfl⟩) (by rw [← hp]; exact hu.1)
      · simp only [hp, decide_false]
        rw [ih hu.2]
        simp only [List.mem_cons]
        constructor
        · exact .inr
        · rintro (hv | hv)
          · rw [← hv] at hp; exact absurd rfl hp
          · exact hv
  funext n
  apply Option.ext
  intro v
  rw [key hn, key hw, h.mem_iff]

/-- **C53.** Keys do not distinguish all requests: the expression `false||TRUE:Null` without variables has the key of the expression `false|` with the variable `TRUE` being null. -/
theorem C53_collision (X : Ext) :
    key X c!"false||TRUE:Null" [] = key X c!"false|" [(c!"TRUE", .null)] ∧ c!"false||TRUE:Null" ≠ c!"false|" := by
  refine ⟨?_, by decide⟩
  simp only [key, List.isEmpty_nil, if_true, List.isEmpty_cons, Bool.false_eq_true, if_false, List.map_cons, List.map_nil, sort, insertSorted, Str.join, Ext.dbg]
  rfl

/-- **C53 (partial).** They distinguish requests whose expressions contain no `|` and whose variable names contain no `:` (the server replaces it by `_`): same key, same expression, same variables. -/
theorem C53_injective_partial (X : Ext) (hX : NumbersApart X) (e1 e2 : Str) (vs ws : Vars)
    (h1 : '|' ∉ e1) (h2 : '|' ∉ e2) (hv : ∀ p ∈ vs, ':' ∉ p.1) (hw : ∀ p ∈ ws, ':' ∉ p.1) (hn : (vs.map (·.1)).Nodup)
    (h : key X e1 vs = key X e2 ws) : e1 = e2 ∧ envOf vs = envOf ws := by
  unfold key at h
  cases vs with
  | nil =>
    cases ws with
    | nil => exact ⟨by simpa using h, rfl⟩
    | cons w ws =>
      simp only [List.isEmpty_nil, if_true, List.isEmpty_cons, Bool.false_eq_true, if_false] at h
      rw [h] at h1
      simp at h1
  | cons v vs =>
    cases ws with
    | nil =>
      simp only [List.isEmpty_nil, if_true, List.isEmpty_cons, Bool.false_eq_true, if_false] at h
      rw [← h] at h2
      simp at h2
    | cons w ws =>
      simp only [List.isEmpty_cons, Bool.false_eq_true, if_false] at h
      obtain ⟨h3, h4⟩ := split_at h1 h2 h
      refine ⟨h3, envOf_perm hn ?_⟩
      have e : (fun p : Str × Value => p.1 ++ ':' :: X.dbg p.2) = keyPart X := rfl
      rw [e] at h4
      obtain ⟨vs', pv, ev⟩ := perm_map_of (keyPart X) (sort_perm ((v :: vs).map (keyPart X)))
      obtain ⟨ws', pw, ew⟩ := perm_map_of (keyPart X) (sort_perm ((w :: ws).map (keyPart X)))
      rw [ev, ew] at h4
      have := join_code hX vs' ws' (fun p hp => hv p (pv.subset hp)) (fun p hp => hw p (pw.subset hp)) h4
      rw [this] at pv
      exact pv.symm.trans pw

theorem Str.lt_irrefl' : ∀ a : Str, Str.lt a a = false
  | [] => rfl
  | a :: as => by simp [Str.lt, Str.lt_irrefl' as]

theorem Str.lt_asymm' : ∀ a b : Str, Str.lt a b = true → Str.lt b a = false
  | [], [], h => by simp [Str.lt] at h
  | [], _ :: _, _ => by simp [Str.lt]
  | _ :: _, [], h => by simp [Str.lt] at h
  | a :: as, b :: bs, h => by
    simp only [Str.lt] at h ⊢
    by_cases h1 : a.val < b.val
    · have h2 : ¬ b.val < a.val := UInt32.lt_asymm h1
      simp [h1, h2]
    · by_cases h2 : b.val < a.val
      · simp [h1, h2] at h
      · simp only [h1, h2, if_false] at h ⊢
        exact Str.lt_asymm' as bs h

theorem Str.lt_tri : ∀ a b : Str, Str.lt a b = false → Str.lt b a = false → a = b
  | [], [], _, _ => rfl
  | [], _ :: _, h, _ => by simp [Str.lt] at h
  | _ :: _, [], _, h => by simp [Str.lt] at h
  | a :: as, b :: bs, h, h' => by
    simp only [Str.lt] at h h'
    by_cases h1 : a.val < b.val
    · simp [h1] at h
    · by_cases h2 : b.val < a.val
      · simp [h2] at h'
      · simp only [h1, h2, if_false] at h h'
        have e : a = b := Char.ext (UInt32.le_antisymm (UInt32.not_lt.1 h2) (UInt32.not_lt.1 h1))
        rw [e, Str.lt_tri as bs h h']

theorem Str.lt_trans' : ∀ a b c : Str, Str.lt a b = true → Str.lt b c = true → Str.lt a c = true
  | _, [], _, h, _ => by simp [Str.lt] at h
  | _, _ :: _, [], _, h => by simp [Str.lt] at h
  | [], _ :: _, _ :: _, _, _ => by simp [Str.lt]
  | a :: as, b :: bs, c :: cs, h, h' => by
    simp only [Str.lt] at h h' ⊢
    by_cases h1 : a.val < b.val
    · by_cases h2 : b.val < c.val
      · simp [UInt32.lt_trans h1 h2]
      · by_cases h3 : c.val < b.val
        · simp [h2, h3] at h'
        · have e : b.val = c.val := UInt32.le_antisymm (UInt32.not_lt.1 h3) (UInt32.not_lt.1 h2)
          simp [← e, h1]
    · by_cases h2 : b.val < a.val
      · simp [h1, h2] at h
      · have e : a.val = b.val := UInt32.le_antisymm (UInt32.not_lt.1 h2) (UInt32.not_lt.1 h1)
        simp only [h1, h2, if_false] at h
        rw [e]
        by_cases h3 : b.val < c.val
        · simp [h3]
        · by_cases h4 : c.val < b.val
          · simp [h3, h4] at h'
          · simp only [h3, h4, if_false] at h' ⊢
            exact Str.lt_trans' as bs cs h h'

theorem Str.le_trans' (a b c : Str) (h : Str.le a b = true) (h' : Str.le b c = true) : Str.le a c = true := by
  simp only [Str.le, Bool.not_eq_true'] at *
  by_contra hn
  rw [Bool.not_eq_false] at hn
  cases hb : Str.lt a b with
  | true => rw [Str.lt_trans' c a b hn hb] at h'; simp at h'
  | false => rw [Str.lt_tri a b hb h] at hn; rw [hn] at h'; simp at h'

theorem Str.le_antisymm' (a b : Str) (h : Str.le a b = true) (h' : Str.le b a = true) : a = b := by
  simp only [Str.le, Bool.not_eq_true'] at *
  exact Str.lt_tri a b h' h

theorem Str.le_of_not (a b : Str) (h : ¬ Str.le a b = true) : Str.le b a = true := by
  simp only [Str.le, Bool.not_eq_true', Bool.not_eq_false] at *
  exact Str.lt_asymm' b a h

theorem insertSorted_sorted (s : Str) (l : List Str) (h : l.Pairwise (fun a b => Str.le a b = true)) :
    (insertSorted s l).Pairwise (fun a b => Str.le a b = true) := by
  induction l with
  | nil => simp [insertSorted]
  | cons t ts ih =>
    obtain ⟨h1, h2⟩ := List.pairwise_cons.1 h
    unfold insertSorted
    split
    · rename_i hs
      refine List.pairwise_cons.2 ⟨fun x hx => ?_, h⟩
      rcases List.mem_cons.1 hx with rfl | hx
      · exact hs
      · exact Str.le_trans' _ _ _ hs (h1 x hx)
    · rename_i hs
      refine List.pairwise_cons.2 ⟨fun x hx => ?_, ih h2⟩
      rcases List.mem_cons.1 ((insertSorted_perm s ts).subset hx) with rfl | hx
      · exact Str.le_of_not _ _ hs
      · exact h1 x hx

theorem sort_sorted (l : List Str) : (sort l).Pairwise (fun a b => Str.le a b = true) := by
  induction l with
  | nil => simp [sort]
  | cons s ss ih => exact insertSorted_sorted s _ ih

theorem sorted_unique : ∀ (l m : List Str), l.Perm m → l.Pairwise (fun a b => Str.le a b = true) → m.Pairwise (fun a b => Str.le a b = true) → l = m
  | [], m, h, _, _ => (List.nil_perm.1 h).symm ▸ rfl
  | a :: l, [], h, _, _ => by simpa using h.length_eq
  | a :: l, b :: m, h, hl, hm => by
    obtain ⟨l1, l2⟩ := List.pairwise_cons.1 hl
    obtain ⟨m1, m2⟩ := List.pairwise_cons.1 hm
    have e : a = b := by
      rcases List.mem_cons.1 (h.subset (List.mem_cons_self (a := a) (l := l))) with h1 | h1
      · exact h1
      · rcases List.mem_cons.1 (h.symm.subset (List.mem_cons_self (a := b) (l := m))) with h2 | h2
        · exact h2.symm
        · exact Str.le_antisymm' _ _ (l1 b h2) (m1 a h1)
    subst e
    rw [sorted_unique l m ((List.perm_cons _).1 h) l2 m2]

/-- **C53.** In the other direction: the order in which the variables are listed does not matter to the key. -/
theorem C53_order_irrelevant (X : Ext) (e : Str) (vs ws : Vars) (h : vs.Perm ws) : key X e vs = key X e ws := by
  have hs : sort (vs.map fun p => p.1 ++ ':' :: X.dbg p.2) = sort (ws.map fun p => p.1 ++ ':' :: X.dbg p.2) :=
    sorted_unique _ _ ((sort_perm _).trans ((h.map _).trans (sort_perm _).symm)) (sort_sorted _) (sort_sorted _)
  unfold key
  rw [hs]
  cases vs with
  | nil => rw [List.nil_perm.1 h]
  | cons v vs => cases ws with
    | nil => simpa using h.length_eq
    | cons w ws => rfl

example (X : Ext) : key X c!"1" [(c!"b", .null), (c!"a", .null)] = key X c!"1" [(c!"a", .null), (c!"b", .null)] :=
  C53_order_irrelevant X _ _ _ (List.Perm.swap _ _ _)

/-- There are external functions that print different numbers differently. -/
theorem exists_numbersApart (X : Ext) : ∃ f : F64 → Str, NumbersApart { X with dbgNum := f } ∧ ∀ a, '\n' ∉ f a := by
  let g : F64 → Option (Bool ⊕ Bool ⊕ ℚ) := fun x => match x with
    | .nan => none
    | .inf b => some (.inl b)
    | .zero b => some (.inr (.inl b))
    | .fin q => some (.inr (.inr q))
  have hg : Function.Injective g := by
    intro a b h
    cases a <;> cases b <;> simp_all [g]
  have : Countable F64 := hg.countable
  obtain ⟨f, hf⟩ := exists_injective_nat F64
  refine ⟨fun x => List.replicate (f x) '1', ⟨fun a b h => hf ?_, fun a => ?_⟩, fun a => ?_⟩
  · simpa using congrArg List.length h
  · simp [List.mem_replicate]
  · simp [List.mem_replicate]

example (X : Ext) : ∃ Y : Ext, NumbersApart Y := (exists_numbersApart X).elim fun _ h => ⟨_, h.1⟩
