import Verif.Spec.Call
import Verif.Lemmas.DebugText
import Mathlib.Data.List.Basic
import Mathlib.Data.List.Perm.Basic
/-! C26–C30: FLATTEN, REVERSE, SORT, UNIQUE, CONTAINS and IN. -/

open Lib Spec

/-! ### C26 -/

namespace Spec

/-- `LeavesOf vs ls`: `ls` are the values that are not arrays found in `vs`, at any depth, from left to right. -/
inductive LeavesOf : List Value → List Value → Prop
  | nil : LeavesOf [] []
  | leaf {v : Value} {vs ls : List Value} : (∀ items, v ≠ .arr items) → LeavesOf vs ls → LeavesOf (v :: vs) (v :: ls)
  | nested {items vs l₁ l₂ : List Value} : LeavesOf items l₁ → LeavesOf vs l₂ → LeavesOf (.arr items :: vs) (l₁ ++ l₂)

end Spec

theorem flattens_leaves : ∀ vs : List Value, LeavesOf vs (Arr.flattens vs)
  | [] => .nil
  | .arr items :: vs => .nested (flattens_leaves items) (flattens_leaves vs)
  | .num _ :: vs => .leaf (by simp) (flattens_leaves vs)
  | .bool _ :: vs => .leaf (by simp) (flattens_leaves vs)
  | .str _ :: vs => .leaf (by simp) (flattens_leaves vs)
  | .null :: vs => .leaf (by simp) (flattens_leaves vs)
  | .cur _ :: vs => .leaf (by simp) (flattens_leaves vs)
  | .dt _ :: vs => .leaf (by simp) (flattens_leaves vs)
  | .json _ :: vs => .leaf (by simp) (flattens_leaves vs)

theorem Spec.LeavesOf.unique {vs l₁ l₂ : List Value} (h₁ : LeavesOf vs l₁) (h₂ : LeavesOf vs l₂) : l₁ = l₂ := by
  induction h₁ generalizing l₂ with
  | nil => cases h₂; rfl
  | leaf h _ ih => cases h₂ with
    | leaf _ h' => rw [ih h']
    | nested _ _ => exact absurd rfl (h _)
  | nested _ _ ih1 ih2 => cases h₂ with
    | leaf h _ => exact absurd rfl (h _)
    | nested ha hb => rw [ih1 ha, ih2 hb]

theorem Spec.LeavesOf.noArrays {vs ls : List Value} (h : LeavesOf vs ls) : ∀ v ∈ ls, ∀ items, v ≠ .arr items := by
  induction h with
  | nil => simp
  | leaf hv _ ih => intro w hw; rcases List.mem_cons.1 hw with rfl | hw; exacts [hv, ih w hw]
  | nested _ _ ih1 ih2 => intro w hw; rcases List.mem_append.1 hw with hw | hw; exacts [ih1 w hw, ih2 w hw]

theorem Spec.LeavesOf.self {ls : List Value} (h : ∀ v ∈ ls, ∀ items, v ≠ .arr items) : LeavesOf ls ls := by
  induction ls with
  | nil => exact .nil
  | cons v ls ih => exact .leaf (h v (by simp)) (ih fun w hw => h w (by simp [hw]))

theorem Spec.LeavesOf.single {ls : List Value} (h : ∀ v ∈ ls, ∀ items, v ≠ .arr items) : LeavesOf [.arr ls] ls := by
  have := LeavesOf.nested (LeavesOf.self h) .nil
  simpa using this

theorem fn_flatten (X : Ext) (vs : List Value) : fn X c!"FLATTEN" vs = .ok (.arr (Arr.flattens vs)) := by
  rw [fn_eq X _ vs (by decide)]; rfl

/-- C26: `FLATTEN` returns exactly the leaves of its arguments in order. -/
theorem C26_flatten (X : Ext) (vs ls : List Value) : fn X c!"FLATTEN" vs = .ok (.arr ls) ↔ LeavesOf vs ls := by
  rw [fn_flatten]
  constructor
  · intro h; cases h; exact flattens_leaves vs
  · intro h; rw [h.unique (flattens_leaves vs)]

/-- C26: `FLATTEN` always returns an array, without arrays in it, and flattening that again changes nothing. -/
theorem C26_flatten_total_idempotent (X : Ext) (vs : List Value) :
    ∃ ls, fn X c!"FLATTEN" vs = .ok (.arr ls) ∧ (∀ v ∈ ls, ∀ items, v ≠ .arr items) ∧ fn X c!"FLATTEN" [.arr ls] = .ok (.arr ls) := by
  have h := flattens_leaves vs
  exact ⟨_, fn_flatten X vs, h.noArrays, (C26_flatten X _ _).2 (.single h.noArrays)⟩

/-- C26: the method form is the function form on the receiver. -/
theorem C26_method (X : Ext) (items : List Value) : meth0 X (.arr items) c!"flatten" = fn X c!"FLATTEN" [.arr items] := by
  rw [fn_flatten, meth0_eq]
  simp only [Arr.flattens, Arr.flatten, List.append_nil]
  rfl

example : LeavesOf [.arr [.null, .arr [.bool true, .arr []]], .str c!"a"] [.null, .bool true, .str c!"a"] := by
  have h1 : LeavesOf [.bool true, .arr []] [.bool true] := .leaf (by simp) (by simpa using LeavesOf.nested .nil .nil)
  have h2 : LeavesOf [.null, .arr [.bool true, .arr []]] [.null, .bool true] :=
    .leaf (by simp) (by simpa using LeavesOf.nested h1 .nil)
  exact .nested (l₁ := [.null, .bool true]) h2 (.leaf (by simp) .nil)

/-! ### C27 -/

/-- C27 fails for strings in function form: `REVERSE` is dispatched to the array functions only. -/
theorem C27_reverse_string (X : Ext) : evaluate X c!"REVERSE(\"ab\")" = fail "REVERSE expects array" := by kernel_rfl

/-- C27, partial: for arrays in both forms and for strings in method form, reversing is `List.reverse`, hence an
involution that keeps length and elements. Missing: the function form on strings, where it is an error. -/
theorem C27_reverse_partial (X : Ext) (items : List Value) (s : Str) :
    fn X c!"REVERSE" [.arr items] = .ok (.arr items.reverse) ∧ meth0 X (.arr items) c!"reverse" = .ok (.arr items.reverse) ∧
    meth0 X (.str s) c!"reverse" = .ok (.str s.reverse) := by
  refine ⟨?_, ?_, ?_⟩
  · rw [fn_eq X _ _ (by decide)]; rfl
  · rw [meth0_eq]; rfl
  · rw [meth0_eq]; rfl

/-- C27, partial: reversing twice. -/
theorem C27_reverse_reverse_partial (X : Ext) (items r : List Value) (h : fn X c!"REVERSE" [.arr items] = .ok (.arr r)) :
    fn X c!"REVERSE" [.arr r] = .ok (.arr items) ∧ r.length = items.length ∧ (∀ i < items.length, r[i]? = items[items.length - 1 - i]?) := by
  rw [(C27_reverse_partial X items []).1] at h; cases h
  rw [(C27_reverse_partial X items.reverse []).1]
  refine ⟨by simp, by simp, ?_⟩
  intro i hi; rw [List.getElem?_reverse hi]

/-- C27, partial: reversing twice, method forms. -/
theorem C27_method_reverse_reverse_partial (X : Ext) (items r : List Value) (s t : Str) :
    (meth0 X (.arr items) c!"reverse" = .ok (.arr r) → meth0 X (.arr r) c!"reverse" = .ok (.arr items)) ∧
    (meth0 X (.str s) c!"reverse" = .ok (.str t) → meth0 X (.str t) c!"reverse" = .ok (.str s) ∧
      t.length = s.length ∧ ∀ i < s.length, t[i]? = s[s.length - 1 - i]?) := by
  constructor
  · intro h
    rw [(C27_reverse_partial X items []).2.1] at h; cases h
    rw [(C27_reverse_partial X items.reverse []).2.1]; simp
  · intro h
    rw [(C27_reverse_partial X [] s).2.2] at h; cases h
    rw [(C27_reverse_partial X [] s.reverse).2.2]
    refine ⟨by simp, by simp, ?_⟩
    intro i hi; rw [List.getElem?_reverse hi]

/-! ### C28 -/

section Sorting

variable {le : F64 → F64 → Bool}

theorem insertBy_perm (x : F64) (l : List F64) : (Arr.insertBy le x l).Perm (x :: l) := by
  induction l with
  | nil => exact .refl _
  | cons y ys ih =>
    unfold Arr.insertBy; split
    · exact .refl _
    · exact (ih.cons y).trans (.swap ..)

theorem sortBy_perm (l : List F64) : (Arr.sortBy le l).Perm l := by
  induction l with
  | nil => exact .refl _
  | cons x xs ih => unfold Arr.sortBy; exact (insertBy_perm x _).trans (ih.cons x)

theorem insertBy_sorted {P : F64 → Prop} (htot : ∀ a b, P a → P b → le a b = true ∨ le b a = true)
    (htr : ∀ a b c, le a b = true → le b c = true → le a c = true) (x : F64) (l : List F64) (hx : P x) (hl : ∀ y ∈ l, P y)
    (hs : l.Pairwise fun a b => le a b = true) : (Arr.insertBy le x l).Pairwise fun a b => le a b = true := by
  induction l with
  | nil => simp [Arr.insertBy]
  | cons y ys ih =>
    rw [List.pairwise_cons] at hs
    unfold Arr.insertBy; split
    · rename_i hxy
      refine List.pairwise_cons.2 ⟨?_, List.pairwise_cons.2 hs⟩
      intro z hz
      rcases List.mem_cons.1 hz with rfl | hz
      · exact hxy
      · exact htr _ _ _ hxy (hs.1 z hz)
    · rename_i hxy
      refine List.pairwise_cons.2 ⟨?_, ih (fun z hz => hl z (by simp [hz])) hs.2⟩
      intro z hz
      rcases List.mem_cons.1 ((insertBy_perm x ys).mem_iff.1 hz) with rfl | hz
      · exact (htot _ _ hx (hl y (by simp))).resolve_left hxy
      · exact hs.1 z hz

theorem sortBy_sorted {P : F64 → Prop} (htot : ∀ a b, P a → P b → le a b = true ∨ le b a = true)
    (htr : ∀ a b c, le a b = true → le b c = true → le a c = true) (l : List F64) (hl : ∀ y ∈ l, P y) :
    (Arr.sortBy le l).Pairwise fun a b => le a b = true := by
  induction l with
  | nil => simp [Arr.sortBy]
  | cons x xs ih =>
    unfold Arr.sortBy
    exact insertBy_sorted htot htr x _ (hl x (by simp)) (fun y hy => hl y (by simp [(sortBy_perm xs).mem_iff.1 hy])) (ih fun y hy => hl y (by simp [hy]))

end Sorting

theorem sortNums_asc (l : List F64) (h : F64.nan ∉ l) : (Arr.sortBy F64.fle l).Pairwise fun a b => F64.fle a b = true :=
  sortBy_sorted (P := (· ≠ F64.nan)) (fun _ _ ha hb => F64.fle_total ha hb) (fun _ _ _ => F64.fle_trans) l
    (fun _ hy hn => h (hn ▸ hy))

theorem sortNums_desc (l : List F64) (h : F64.nan ∉ l) :
    (Arr.sortBy (fun a b => F64.fle b a) l).Pairwise fun a b => F64.fle b a = true :=
  sortBy_sorted (P := (· ≠ F64.nan)) (fun _ _ ha hb => (F64.fle_total ha hb).symm) (fun _ _ _ h1 h2 => F64.fle_trans h2 h1) l
    (fun _ hy hn => h (hn ▸ hy))

theorem any_isNan {l : List F64} (h : F64.nan ∉ l) : l.any F64.isNan = false := by
  rw [List.any_eq_false]
  intro x hx hn
  cases x <;> simp [F64.isNan] at hn
  exact h hx

theorem allNums_map (err : String) (l : List F64) : Arr.allNums err (l.map .num) = .ok l := by
  induction l with
  | nil => rfl
  | cons x xs ih => simp [Arr.allNums, ih, bind, Except.bind, pure, Except.pure]

theorem sortNums_ok (l : List F64) (h : F64.nan ∉ l) : Arr.sortNums l = .ok (Arr.sortBy F64.fle l) := by
  unfold Arr.sortNums; rw [any_isNan h]; simp

theorem fn_sort (X : Ext) (vs : List Value) : fn X c!"SORT" vs = Arr.sort vs := by rw [fn_eq X _ _ (by decide)]; rfl

theorem exec_sort (X : Ext) (env : Env) (items : List Value) (args : List Arg) :
    Method.exec X none env c!"sort" false (.arr items) args = Method.sort X env items args := rfl

/-- C28 fails: a NaN among two or more numbers panics, and arrays with anything but numbers are refused. -/
theorem C28_sort_wrong (X : Ext) :
    evaluate X c!"SORT([\"nan\"::Float, 1])" = panics "called `Option::unwrap()` on a `None` value" ∧
    evaluate X c!"SORT([\"b\", \"a\"])" = fail "SORT expects numeric array" := ⟨by kernel_rfl, by kernel_rfl⟩

/-- C28, partial: sorting numbers without NaN gives the same numbers in non-decreasing order; with "DESC", in any case,
in non-increasing order. Missing: arrays with other elements (an error) or with NaN (a panic). -/
theorem C28_sort_partial (X : Ext) (xs : List F64) (h : F64.nan ∉ xs) :
    (∃ ys : List F64, fn X c!"SORT" [.arr (xs.map .num)] = .ok (.arr (ys.map .num)) ∧ ys.Perm xs ∧ ys.Pairwise fun a b => F64.fle a b = true) ∧
    ∀ d, Str.eqIgnoreCase d c!"desc" →
      ∃ ys : List F64, fn X c!"SORT" [.arr (xs.map .num), .str d] = .ok (.arr (ys.map .num)) ∧ ys.Perm xs ∧ ys.Pairwise fun a b => F64.fle b a = true := by
  constructor
  · refine ⟨_, ?_, sortBy_perm xs, sortNums_asc xs h⟩
    rw [fn_sort]
    simp only [Arr.sort, argAt, List.getElem?_cons_zero, allNums_map, sortNums_ok xs h, bind, Except.bind]; rfl
  · intro d hd
    refine ⟨(Arr.sortBy F64.fle xs).reverse, ?_, (List.reverse_perm _).trans (sortBy_perm xs), ?_⟩
    · rw [fn_sort]
      have hd' : Str.eqIgnoreCase d c!"DESC" = true := hd
      simp only [Arr.sort, argAt, List.getElem?_cons_zero, List.getElem?_cons_succ, allNums_map, sortNums_ok xs h, bind, Except.bind, hd']; rfl
    · rw [List.pairwise_reverse]; exact sortNums_asc xs h

/-- C28, partial: the method form likewise. -/
theorem C28_sort_method_partial (X : Ext) (xs : List F64) (h : F64.nan ∉ xs) :
    (∃ ys : List F64, meth0 X (.arr (xs.map .num)) c!"sort" = .ok (.arr (ys.map .num)) ∧ ys.Perm xs ∧ ys.Pairwise fun a b => F64.fle a b = true) ∧
    ∃ ys : List F64, meth1 X (.arr (xs.map .num)) c!"sort" (.str c!"DESC") = .ok (.arr (ys.map .num)) ∧ ys.Perm xs ∧ ys.Pairwise fun a b => F64.fle b a = true := by
  have hm : ∀ d, Method.sortNums X d xs = .ok (if d then Arr.sortBy (fun a b => F64.fle b a) xs else Arr.sortBy F64.fle xs) := by
    intro d; unfold Method.sortNums; rw [any_isNan h]; simp
  constructor
  · refine ⟨_, ?_, sortBy_perm xs, sortNums_asc xs h⟩
    rw [meth0_eq, exec_sort]
    simp [Method.sort, allNums_map, hm, bind, Except.bind, pure, Except.pure]
  · refine ⟨_, ?_, sortBy_perm xs, sortNums_desc xs h⟩
    rw [meth1_eq, exec_sort]
    simp only [Method.sort, allNums_map, Method.ev, bind, Except.bind]
    rw [show (Legacy.argOf X (.var c!"a")).run none ((Env.empty.insert c!"r" (.arr (xs.map .num))).insert c!"a" (.str c!"DESC")) = .ok (.str c!"DESC") from rfl]
    simp only [pure, Except.pure]
    rw [show (X.upper c!"DESC" == c!"DESC") = true from rfl, hm]; rfl

example (X : Ext) : evaluate X c!"SORT([3, 1, 2], \"desc\")" = .ok (.arr [.num (F64.ofNat 3), .num (F64.ofNat 2), .num (F64.ofNat 1)]) := by kernel_rfl

/-! ### C29 -/

namespace Spec

/-- `ys` is `xs` with only the first occurrence of each element kept: the positions kept are exactly those whose
element is not found earlier, in increasing order. -/
def FirstOccurrences {α : Type} (xs ys : List α) : Prop :=
  ∃ pos : List ℕ, pos.Pairwise (· < ·) ∧ (∀ i, i ∈ pos ↔ i < xs.length ∧ ∀ j < i, xs[j]? ≠ xs[i]?) ∧ ys.map some = pos.map fun i => xs[i]?

/-- The numbers among the elements. -/
def numbersIn (items : List Value) : List F64 := items.filterMap fun v => match v with | .num n => some n | _ => none

end Spec

/-- First occurrences by a key. -/
def uniqBy {α κ : Type} [DecidableEq κ] (key : α → κ) (seen : List κ) : List α → List α
  | [] => []
  | x :: xs => if key x ∈ seen then uniqBy key seen xs else x :: uniqBy key (key x :: seen) xs

theorem uniqBy_pos {α κ : Type} [DecidableEq κ] (key : α → κ) (seen : List κ) (xs : List α) :
    ∃ pos : List ℕ, pos.Pairwise (· < ·) ∧
      (∀ i, i ∈ pos ↔ ∃ x, xs[i]? = some x ∧ key x ∉ seen ∧ ∀ j < i, ∀ y, xs[j]? = some y → key y ≠ key x) ∧
      (uniqBy key seen xs).map some = pos.map fun i => xs[i]? := by
  induction xs generalizing seen with
  | nil => exact ⟨[], by simp, by simp, rfl⟩
  | cons x xs ih =>
    unfold uniqBy; split
    · rename_i hx
      obtain ⟨pos, h1, h2, h3⟩ := ih seen
      refine ⟨pos.map (· + 1), ?_, ?_, ?_⟩
      · rw [List.pairwise_map]; exact h1.imp (by omega)
      · intro i
        cases i with
        | zero => simp [hx]
        | succ i =>
          simp only [List.mem_map, Nat.add_right_cancel_iff, exists_eq_right, List.getElem?_cons_succ, h2]
          refine exists_congr fun z => and_congr_right fun hz => and_congr_right fun hzs => ?_
          constructor
          · intro h j hj y hy
            cases j with
            | zero => simp at hy; subst hy; exact fun he => hzs (he ▸ hx)
            | succ j => exact h j (by omega) y (by simpa using hy)
          · intro h j hj y hy; exact h (j + 1) (by omega) y (by simpa using hy)
      · rw [h3]; simp
    · rename_i hx
      obtain ⟨pos, h1, h2, h3⟩ := ih (key x :: seen)
      refine ⟨0 :: pos.map (· + 1), ?_, ?_, ?_⟩
      · refine List.pairwise_cons.2 ⟨by simp, ?_⟩
        rw [List.pairwise_map]; exact h1.imp (by omega)
      · intro i
        cases i with
        | zero => simp [hx]
        | succ i =>
          simp only [List.mem_cons, List.mem_map, Nat.add_right_cancel_iff, exists_eq_right, List.getElem?_cons_succ, h2,
            Nat.add_one_ne_zero, false_or, not_or]
          refine exists_congr fun z => and_congr_right fun hz => ?_
          constructor
          · rintro ⟨⟨ha, hb⟩, h⟩
            refine ⟨hb, fun j hj y hy => ?_⟩
            cases j with
            | zero => simp at hy; subst hy; exact Ne.symm ha
            | succ j => exact h j (by omega) y (by simpa using hy)
          · rintro ⟨ha, h⟩
            refine ⟨⟨Ne.symm (h 0 (by omega) x (by simp)), ha⟩, fun j hj y hy => h (j + 1) (by omega) y (by simpa using hy)⟩
      · simp [h3]

theorem uniqBy_first {α κ : Type} [DecidableEq κ] (key : α → κ) (xs : List α) (hk : ∀ x ∈ xs, ∀ y ∈ xs, key x = key y → x = y) :
    FirstOccurrences xs (uniqBy key [] xs) := by
  obtain ⟨pos, h1, h2, h3⟩ := uniqBy_pos key [] xs
  refine ⟨pos, h1, ?_, h3⟩
  intro i
  rw [h2]
  constructor
  · rintro ⟨x, hx, -, h⟩
    obtain ⟨hi, -⟩ := List.getElem?_eq_some_iff.1 hx
    refine ⟨hi, fun j hj he => ?_⟩
    rw [hx] at he
    exact h j hj x he rfl
  · rintro ⟨hi, h⟩
    refine ⟨xs[i], by simp [hi], by simp, ?_⟩
    intro j hj y hy he
    have := hk y (List.mem_of_getElem? hy) xs[i] (List.getElem_mem hi) he
    exact h j hj (by rw [hy, this]; simp [hi])

/-- C29: what keeping first occurrences means for the result: no duplicates, and the same elements. -/
theorem C29_first_occurrences {α : Type} {xs ys : List α} (h : FirstOccurrences xs ys) : ys.Nodup ∧ ∀ v, v ∈ ys ↔ v ∈ xs := by
  obtain ⟨pos, h1, h2, h3⟩ := h
  constructor
  · have : (ys.map some).Nodup := by
      rw [h3]
      refine List.pairwise_map.2 ?_
      refine List.Pairwise.imp_of_mem ?_ h1
      intro i j hi hj hij
      exact ((h2 j).1 hj).2 i hij
    exact List.Nodup.of_map _ this
  · intro v
    have e : v ∈ ys ↔ some v ∈ ys.map some := by simp
    rw [e, h3, List.mem_map]
    constructor
    · rintro ⟨i, -, hi⟩; exact List.mem_of_getElem? hi
    · intro hv
      classical
      have hex : ∃ i : ℕ, xs[i]? = some v := by
        obtain ⟨i, hi, he⟩ := List.getElem_of_mem hv
        exact ⟨i, by rw [List.getElem?_eq_getElem hi, he]⟩
      refine ⟨Nat.find hex, (h2 _).2 ⟨?_, ?_⟩, Nat.find_spec hex⟩
      · exact (List.getElem?_eq_some_iff.1 (Nat.find_spec hex)).1
      · intro j hj he
        rw [Nat.find_spec hex] at he
        exact Nat.find_min hex hj he

theorem firstOccurrences_unique {α : Type} {xs ys zs : List α} (hy : FirstOccurrences xs ys) (hz : FirstOccurrences xs zs) : ys = zs := by
  obtain ⟨p, p1, p2, p3⟩ := hy
  obtain ⟨q, q1, q2, q3⟩ := hz
  have : p = q := by
    have hperm : p.Perm q := by
      rw [List.perm_ext_iff_of_nodup (p1.imp (by omega)) (q1.imp (by omega))]
      intro i; rw [p2, q2]
    exact hperm.eq_of_pairwise (le := (· < ·)) (by intro a b _ _ h1 h2; omega) p1 q1
  rw [this, ← q3] at p3
  exact (List.map_injective_iff.2 (Option.some_injective α)) p3

theorem firstOccurrences_self {α : Type} {ys : List α} (h : ys.Nodup) : FirstOccurrences ys ys := by
  refine ⟨List.range ys.length, List.pairwise_lt_range, ?_, ?_⟩
  · intro i
    simp only [List.mem_range, iff_self_and]
    intro hi j hj he
    have hjl : j < ys.length := by omega
    rw [List.getElem?_eq_getElem hi, List.getElem?_eq_getElem hjl] at he
    have := (List.Nodup.getElem_inj_iff h).1 (Option.some.inj he)
    omega
  · apply List.ext_getElem?
    intro i
    by_cases hi : i < ys.length
    · simp [hi]
    · rw [List.getElem?_eq_none (by simp; omega), List.getElem?_eq_none (by simp; omega)]

theorem uniqueLoop_eq (seen : List F64) (items : List Value) :
    Arr.uniqueLoop seen items = (uniqBy id seen (numbersIn items)).map .num := by
  induction items generalizing seen with
  | nil => rfl
  | cons v items ih =>
    cases v with
    | num n =>
      simp only [Arr.uniqueLoop, numbersIn, List.filterMap_cons, uniqBy, id]
      split
      · rw [ih]; rfl
      · rw [ih]; rfl
    | _ => simp only [Arr.uniqueLoop, numbersIn, List.filterMap_cons]; exact ih seen

theorem fn_unique (X : Ext) (items : List Value) :
    fn X c!"UNIQUE" [.arr items] = .ok (.arr ((uniqBy id [] (numbersIn items)).map .num)) := by
  rw [fn_eq X _ _ (by decide), ← uniqueLoop_eq]; rfl

theorem numbersIn_map (xs : List F64) : numbersIn (xs.map .num) = xs := by
  induction xs with
  | nil => rfl
  | cons x xs ih => simp only [numbersIn, List.map_cons, List.filterMap_cons]; rw [← numbersIn, ih]

/-- C29 fails: everything but numbers is dropped, and the two zeros, which are equal, are both kept. -/
theorem C29_unique_wrong (X : Ext) :
    evaluate X c!"UNIQUE([\"a\", 1, TRUE])" = .ok (.arr [.num (F64.ofNat 1)]) ∧
    evaluate X c!"UNIQUE([0, 0 * -1])" = .ok (.arr [.num (.zero false), .num (.zero true)]) ∧
    evaluate X c!"0 == 0 * -1" = .ok (.bool true) := ⟨by kernel_rfl, by kernel_rfl, by kernel_rfl⟩

/-- C29, partial: `UNIQUE` keeps the first occurrence of each number (numbers being the same when their bits are), and
is idempotent. Missing: elements that are not numbers, which it drops. -/
theorem C29_unique_partial (X : Ext) (items : List Value) :
    ∃ ys : List F64, fn X c!"UNIQUE" [.arr items] = .ok (.arr (ys.map .num)) ∧ FirstOccurrences (numbersIn items) ys ∧
      fn X c!"UNIQUE" [.arr (ys.map .num)] = .ok (.arr (ys.map .num)) := by
  refine ⟨_, fn_unique X items, uniqBy_first id _ (fun _ _ _ _ h => h), ?_⟩
  rw [fn_unique, numbersIn_map]
  have h1 := uniqBy_first (id : F64 → F64) (numbersIn items) (fun _ _ _ _ h => h)
  have h2 := uniqBy_first (id : F64 → F64) (uniqBy id [] (numbersIn items)) (fun _ _ _ _ h => h)
  rw [firstOccurrences_unique h2 (firstOccurrences_self (C29_first_occurrences h1).1)]

theorem method_uniqueLoop_eq (X : Ext) (seen : List Str) (items : List Value) :
    Method.uniqueLoop X seen items = uniqBy X.dbg seen items := by
  induction items generalizing seen with
  | nil => rfl
  | cons v items ih => simp only [Method.uniqueLoop, uniqBy]; split <;> rw [ih]

/-- C29: `.unique()` keeps the first occurrence of each element of any type, and is idempotent (the code compares debug texts, which determine the
values if they determine numbers). -/
theorem C29_unique_method (X : Ext) (hX : NumbersApart X) (items : List Value) :
    ∃ ys, meth0 X (.arr items) c!"unique" = .ok (.arr ys) ∧ FirstOccurrences items ys ∧ meth0 X (.arr ys) c!"unique" = .ok (.arr ys) := by
  have e : ∀ l, meth0 X (.arr l) c!"unique" = .ok (.arr (uniqBy X.dbg [] l)) := by
    intro l; rw [meth0_eq, ← method_uniqueLoop_eq]; rfl
  have hinj : ∀ l : List Value, ∀ v ∈ l, ∀ w ∈ l, X.dbg v = X.dbg w → v = w := fun _ _ _ _ _ h => dbg_inj hX h
  refine ⟨_, e items, uniqBy_first _ _ (hinj _), ?_⟩
  rw [e]
  have h1 := uniqBy_first X.dbg items (hinj _)
  have h2 := uniqBy_first X.dbg (uniqBy X.dbg [] items) (hinj _)
  rw [firstOccurrences_unique h2 (firstOccurrences_self (C29_first_occurrences h1).1)]

/-- A case, with elements of different types. -/
example (X : Ext) : meth0 X (.arr [.str c!"a\n", .null, .arr [.bool true], .str c!"a\n", .arr [.bool true], .json c!"a"]) c!"unique" =
    .ok (.arr [.str c!"a\n", .null, .arr [.bool true], .json c!"a"]) := by kernel_rfl

example : FirstOccurrences [1, 2, 1, 3, 2] [1, 2, 3] :=
  uniqBy_first (id : ℕ → ℕ) [1, 2, 1, 3, 2] (fun _ _ _ _ h => h)

/-! ### C30 -/

namespace Spec

/-- Numbers are equal as numbers: not NaN, and the same apart from the sign of zero. -/
def SameNumber (x y : F64) : Prop := x ≠ .nan ∧ (x = y ∨ ∃ s t, x = .zero s ∧ y = .zero t)

mutual
/-- Equality of values: same type and same contents, numbers being compared as numbers. -/
inductive Equal : Value → Value → Prop
  | num {x y : F64} : SameNumber x y → Equal (.num x) (.num y)
  | cur {x y : F64} : SameNumber x y → Equal (.cur x) (.cur y)
  | bool (b : Bool) : Equal (.bool b) (.bool b)
  | str (s : Str) : Equal (.str s) (.str s)
  | dt (t : Int) : Equal (.dt t) (.dt t)
  | json (s : Str) : Equal (.json s) (.json s)
  | null : Equal .null .null
  | arr {xs ys : List Value} : EqualAll xs ys → Equal (.arr xs) (.arr ys)
/-- Elementwise equality of lists of the same length. -/
inductive EqualAll : List Value → List Value → Prop
  | nil : EqualAll [] []
  | cons {x y : Value} {xs ys : List Value} : Equal x y → EqualAll xs ys → EqualAll (x :: xs) (y :: ys)
end

end Spec

theorem feq_same (x y : F64) (hx : ∀ q, x = .fin q → q ≠ 0) (hy : ∀ q, y = .fin q → q ≠ 0) : F64.feq x y = true ↔ SameNumber x y := by
  rw [F64.feq_iff]
  unfold SameNumber F64.key
  rw [toLex_inj, Prod.mk.injEq]
  cases x with
  | nan => simp
  | inf s => cases y <;> cases s <;> simp [F64.rank, F64.toRat] <;> (rename_i t; cases t <;> simp)
  | zero s => cases y with
    | fin q => have := hy q rfl; simp [F64.rank, F64.toRat]; exact fun h => this h.symm
    | inf t => cases t <;> simp [F64.rank]
    | _ => simp [F64.rank, F64.toRat]
  | fin p => cases y with
    | fin q => simp [F64.rank, F64.toRat]
    | zero s => have := hx p rfl; simp [F64.rank, F64.toRat]; exact this
    | inf t => cases t <;> simp [F64.rank]
    | nan => simp

namespace Spec
mutual
/-- Finite numbers of the model are written `fin q` with `q ≠ 0`; zeros have their own constructor. -/
def Proper : Value → Prop
  | .num x => ∀ q, x = .fin q → q ≠ 0
  | .cur x => ∀ q, x = .fin q → q ≠ 0
  | .arr items => ProperAll items
  | _ => True
/-- All elements are. -/
def ProperAll : List Value → Prop
  | [] => True
  | v :: vs => Proper v ∧ ProperAll vs
end
end Spec

mutual
theorem equal_iff : ∀ v w : Value, Proper v → Proper w → (v.equal w = true ↔ Equal v w)
  | .num x, w, hv, hw => by
    cases w with
    | num y =>
      simp only [Value.equal, feq_same x y hv hw]
      exact ⟨.num, fun h => by cases h; assumption⟩
    | _ => simp only [Value.equal]; exact ⟨by simp, fun h => by cases h⟩
  | .cur x, w, hv, hw => by
    cases w with
    | cur y =>
      simp only [Value.equal, feq_same x y hv hw]
      exact ⟨.cur, fun h => by cases h; assumption⟩
    | _ => simp only [Value.equal]; exact ⟨by simp, fun h => by cases h⟩
  | .bool x, w, _, _ => by
    cases w with
    | bool y => simp only [Value.equal, beq_iff_eq]; exact ⟨fun h => h ▸ .bool x, fun h => by cases h; rfl⟩
    | _ => simp only [Value.equal]; exact ⟨by simp, fun h => by cases h⟩
  | .str x, w, _, _ => by
    cases w with
    | str y => simp only [Value.equal, beq_iff_eq]; exact ⟨fun h => h ▸ .str x, fun h => by cases h; rfl⟩
    | _ => simp only [Value.equal]; exact ⟨by simp, fun h => by cases h⟩
  | .dt x, w, _, _ => by
    cases w with
    | dt y => simp only [Value.equal, beq_iff_eq]; exact ⟨fun h => h ▸ .dt x, fun h => by cases h; rfl⟩
    | _ => simp only [Value.equal]; exact ⟨by simp, fun h => by cases h⟩
  | .json x, w, _, _ => by
    cases w with
    | json y => simp only [Value.equal, beq_iff_eq]; exact ⟨fun h => h ▸ .json x, fun h => by cases h; rfl⟩
    | _ => simp only [Value.equal]; exact ⟨by simp, fun h => by cases h⟩
  | .null, w, _, _ => by
    cases w with
    | null => simp only [Value.equal]; exact ⟨fun _ => .null, fun _ => trivial⟩
    | _ => simp only [Value.equal]; exact ⟨by simp, fun h => by cases h⟩
  | .arr xs, w, hv, hw => by
    cases w with
    | arr ys =>
      simp only [Value.equal, equalList_iff xs ys hv hw]
      exact ⟨.arr, fun h => by cases h; assumption⟩
    | _ => simp only [Value.equal]; exact ⟨by simp, fun h => by cases h⟩
theorem equalList_iff : ∀ vs ws : List Value, ProperAll vs → ProperAll ws → (Value.equalList vs ws = true ↔ EqualAll vs ws)
  | [], ws, _, _ => by
    cases ws with
    | nil => simp only [Value.equalList]; exact ⟨fun _ => .nil, fun _ => trivial⟩
    | cons w ws => simp only [Value.equalList]; exact ⟨by simp, fun h => by cases h⟩
  | v :: vs, ws, hv, hw => by
    cases ws with
    | nil => simp only [Value.equalList]; exact ⟨by simp, fun h => by cases h⟩
    | cons w ws =>
      simp only [Value.equalList, Bool.and_eq_true, equal_iff v w hv.1 hw.1, equalList_iff vs ws hv.2 hw.2]
      exact ⟨fun h => .cons h.1 h.2, fun h => by cases h; exact ⟨‹_›, ‹_›⟩⟩
end

/-- C30: `CONTAINS`, `IN` and `.contains` all say whether some element of the array equals the value. -/
theorem C30_membership (X : Ext) (items : List Value) (v : Value) (hitems : ProperAll items) (hv : Proper v) :
    ∃ b, fn X c!"CONTAINS" [.arr items, v] = .ok (.bool b) ∧ fn X c!"IN" [.arr items, v] = .ok (.bool b) ∧
      meth1 X (.arr items) c!"contains" v = .ok (.bool b) ∧ meth1 X (.arr items) c!"includes" v = .ok (.bool b) ∧
      (b = true ↔ ∃ w ∈ items, Equal w v) := by
  refine ⟨items.any fun w => w.equal v, ?_, ?_, ?_, ?_, ?_⟩
  · rw [fn_eq X _ _ (by decide)]; rfl
  · rw [fn_eq X _ _ (by decide)]; rfl
  · rw [meth1_eq]; rfl
  · rw [meth1_eq]; rfl
  · rw [List.any_eq_true]
    have : ∀ w ∈ items, Proper w := by
      induction items with
      | nil => simp
      | cons a items ih => intro w hw; rcases List.mem_cons.1 hw with rfl | hw; exacts [hitems.1, ih hitems.2 w hw]
    constructor
    · rintro ⟨w, hw, h⟩; exact ⟨w, hw, (equal_iff w v (this w hw) hv).1 h⟩
    · rintro ⟨w, hw, h⟩; exact ⟨w, hw, (equal_iff w v (this w hw) hv).2 h⟩

example (X : Ext) : evaluate X c!"CONTAINS([1, [2, \"a\"]], [2, \"a\"])" = .ok (.bool true) := by kernel_rfl
example : ProperAll [.num (.fin 2), .arr [.num (.zero true), .str c!"a"]] := by simp [ProperAll, Proper]
