import Verif.Props.OrderStats
import Verif.Props.Powers
import Verif.Props.Identities
import Verif.Props.ArrayLaws
/-! C154: changing the sign of all numbers changes the sign of their statistics. -/

namespace SignLaws

open _root_.Spec Identities

namespace Spec

/-- Both are numbers, and one is the other with the other sign, up to the sign of zero. -/
def Opposite (r s : Res Value) : Prop := ∃ x y, r = .ok (.num x) ∧ s = .ok (.num y) ∧ Alike (F64.neg x) y

end Spec

open Spec

theorem alike_neg {x y : F64} (h : Alike x y) : Alike (F64.neg x) (F64.neg y) := by
  rcases h with rfl | ⟨s, t, rfl, rfl⟩
  · exact .refl _
  · exact .inr ⟨_, _, rfl, rfl⟩

theorem neg_add_alike (x y : F64) : Alike (F64.neg (F64.add x y)) (F64.add (F64.neg x) (F64.neg y)) := by
  by_cases h : ∀ s, F64.add x y ≠ .zero s
  · exact .inl (add_neg_neg h).symm
  · push Not at h
    obtain ⟨s, h⟩ := h
    rw [h]
    by_cases h' : ∀ s, F64.add (F64.neg x) (F64.neg y) ≠ .zero s
    · have := add_neg_neg h'
      rw [neg_neg', neg_neg', h] at this
      have e := congrArg F64.neg this
      rw [neg_neg'] at e
      exact .inl e
    · push Not at h'
      obtain ⟨t, h'⟩ := h'
      rw [h']
      exact .inr ⟨_, _, rfl, rfl⟩

theorem fold_neg (xs : List F64) (a b : F64) (h : Alike (F64.neg a) b) : Alike (F64.neg (xs.foldl F64.add a)) ((xs.map F64.neg).foldl F64.add b) := by
  induction xs generalizing a b with
  | nil => exact h
  | cons x xs ih => exact ih _ _ ((neg_add_alike a x).trans (alike_add h (.refl _)))

theorem total_neg (xs : List F64) : Alike (F64.neg (total xs)) (total (xs.map F64.neg)) := fold_neg xs _ _ (.inr ⟨_, _, rfl, rfl⟩)

theorem add_isDouble {x y : F64} (hx : IsDouble x) (hy : IsDouble y) : IsDouble (F64.add x y) := by
  cases x with
  | nan => trivial
  | inf s => cases y with
    | inf t => cases s <;> cases t <;> trivial
    | _ => trivial
  | zero s => cases y <;> trivial
  | fin p => cases y with
    | fin q => exact F64.round_isDouble _ _
    | _ => trivial

theorem fold_double (xs : List F64) (hx : ∀ x ∈ xs, IsDouble x) (a : F64) (ha : IsDouble a) : IsDouble (xs.foldl F64.add a) := by
  induction xs generalizing a with
  | nil => exact ha
  | cons x xs ih => exact ih (fun y hy => hx y (by simp [hy])) _ (add_isDouble ha (hx x (by simp)))

theorem alike_div {a a' : F64} (ha : Alike a a') (b : F64) : Alike (F64.div a b) (F64.div a' b) := by
  rcases ha with rfl | ⟨s, t, rfl, rfl⟩
  · exact .refl _
  · cases b <;> first | exact .inl rfl | exact .inr ⟨_, _, rfl, rfl⟩

theorem mean_neg (xs : List F64) (hx : ∀ x ∈ xs, IsDouble x) (n : ℕ) : Alike (F64.neg (F64.div (total xs) (F64.ofNat n))) (F64.div (total (xs.map F64.neg)) (F64.ofNat n)) := by
  rw [← neg_div' (show IsDouble (total xs) from fold_double xs hx (.zero false) trivial) (show IsDouble (F64.ofNat n) from F64.round_isDouble _ _)]
  exact alike_div (total_neg xs) _

theorem flt_neg (x y : F64) : F64.flt (F64.neg x) (F64.neg y) = F64.flt y x := by
  cases x <;> cases y <;> simp [F64.flt, F64.neg, F64.toRat, Bool.and_comm] <;> congr

theorem fle_neg (x y : F64) : F64.fle (F64.neg x) (F64.neg y) = F64.fle y x := by
  cases x <;> cases y <;> simp [F64.fle, F64.neg, F64.toRat, Bool.or_comm] <;> congr

theorem fmin_neg (x y : F64) : F64.fmin (F64.neg x) (F64.neg y) = F64.neg (F64.fmax x y) := by
  have h := flt_neg y x
  cases x <;> cases y <;> simp only [F64.neg, F64.fmin, F64.fmax] at h ⊢ <;> rw [h] <;> split <;> rfl

theorem fmax_neg (x y : F64) : F64.fmax (F64.neg x) (F64.neg y) = F64.neg (F64.fmin x y) := by
  have h := flt_neg x y
  cases x <;> cases y <;> simp only [F64.neg, F64.fmin, F64.fmax] at h ⊢ <;> rw [h] <;> split <;> rfl

theorem combine_neg {f g : F64 → F64 → F64} (h : ∀ x y, g (F64.neg x) (F64.neg y) = F64.neg (f x y)) (xs : List F64) : Alike (F64.neg (combine f xs)) (combine g (xs.map F64.neg)) := by
  cases xs with
  | nil => exact .inr ⟨_, _, rfl, rfl⟩
  | cons x xs =>
    refine .inl ?_
    simp only [combine, List.map_cons]
    induction xs generalizing x with
    | nil => rfl
    | cons y xs ih => rw [List.foldl_cons, List.map_cons, List.foldl_cons, h, ih]

/-- **C154.** Sum, average, smallest and largest. -/
theorem C154_totals (X : Ext) (vs ws ls ms : List Value) (hv : LeavesOf vs ls) (hw : LeavesOf ws ms) (hd : ∀ x ∈ amounts ls, IsDouble x)
    (h : amounts ms = (amounts ls).map F64.neg) :
    Opposite (fn X c!"SUM" vs) (fn X c!"SUM" ws) ∧ Opposite (fn X c!"AVG" vs) (fn X c!"AVG" ws) ∧
    Opposite (fn X c!"MIN" vs) (fn X c!"MAX" ws) ∧ Opposite (fn X c!"MAX" vs) (fn X c!"MIN" ws) := by
  obtain ⟨a1, a2, -, a4, a5⟩ := C38_aggregates X vs ls hv
  obtain ⟨b1, b2, -, b4, b5⟩ := C38_aggregates X ws ms hw
  rw [h] at b1 b2 b4 b5
  refine ⟨⟨_, _, a1, b1, total_neg _⟩, ⟨_, _, a2, b2, ?_⟩, ⟨_, _, a4, b5, combine_neg fmax_neg _⟩, ⟨_, _, a5, b4, combine_neg fmin_neg _⟩⟩
  simp only [List.map_eq_nil_iff, List.length_map]
  split
  · exact .inr ⟨_, _, rfl, rfl⟩
  · exact mean_neg _ hd _

theorem square_neg {d e : F64} (hd : IsDouble d) (h : Alike (F64.neg d) e) : F64.mul e e = F64.mul d d := by
  rcases h with rfl | ⟨s, t, h, rfl⟩
  · rw [mul_neg' (neg_double hd) hd, neg_mul' hd hd, neg_neg']
  · cases d with
    | zero s => cases s <;> cases t <;> rfl
    | _ => simp [F64.neg] at h

/-- **C154.** Variance and deviation do not notice. -/
theorem C154_spread (X : Ext) (vs ws ls ms : List Value) (hv : LeavesOf vs ls) (hw : LeavesOf ws ms) (hd : ∀ x ∈ amounts ls, IsDouble x)
    (h : amounts ms = (amounts ls).map F64.neg) : fn X c!"VARP" ws = fn X c!"VARP" vs ∧ fn X c!"STDEVP" ws = fn X c!"STDEVP" vs := by
  obtain ⟨a1, a2, -, -⟩ := C85_variance X vs ls hv
  obtain ⟨b1, b2, -, -⟩ := C85_variance X ws ms hw
  have key : varianceOf ((amounts ls).map F64.neg) = varianceOf (amounts ls) := by
    unfold varianceOf
    rw [List.length_map, List.map_map]
    congr 2
    refine List.map_congr_left fun x hx => ?_
    have hm : IsDouble (mean64 (amounts ls)) := by
      unfold mean64
      exact F64.div_isDouble _ _
    refine square_neg (add_isDouble (hd x hx) (neg_double hm)) ?_
    refine (neg_add_alike _ _).trans (alike_add (.refl _) ?_)
    refine alike_neg ?_
    have := mean_neg (amounts ls) hd (amounts ls).length
    rw [mean64, mean64, List.length_map]
    exact this
  rw [a1, a2, b1, b2, h, key]
  simp only [List.map_eq_nil_iff]
  exact ⟨trivial, trivial⟩

/-- **C154.** The product changes its sign if the numbers are odd in number. -/
theorem C154_product (X : Ext) (vs ws ls ms : List Value) (hv : LeavesOf vs ls) (hw : LeavesOf ws ms) (hd : ∀ x ∈ amounts ls, IsDouble x)
    (h : amounts ms = (amounts ls).map F64.neg) : ∃ x, fn X c!"PRODUCT" vs = .ok (.num x) ∧
      fn X c!"PRODUCT" ws = .ok (.num (if (amounts ls).length % 2 = 0 then x else F64.neg x)) := by
  refine ⟨_, (C84_product X vs ls hv).1, ?_⟩
  rw [(C84_product X ws ms hw).1, h]
  have key : ∀ (xs : List F64), (∀ x ∈ xs, IsDouble x) → ∀ a, IsDouble a →
      (xs.map F64.neg).foldl F64.mul a = (if xs.length % 2 = 0 then xs.foldl F64.mul a else F64.neg (xs.foldl F64.mul a)) ∧
      (xs.map F64.neg).foldl F64.mul (F64.neg a) = (if xs.length % 2 = 0 then F64.neg (xs.foldl F64.mul a) else xs.foldl F64.mul a) := by
    intro xs
    induction xs with
    | nil => intro _ a _; exact ⟨rfl, rfl⟩
    | cons x xs ih =>
      intro hx a ha
      have hx' := hx x (by simp)
      obtain ⟨i1, i2⟩ := ih (fun y hy => hx y (by simp [hy])) (F64.mul a x) (F64.mul_isDouble _ _)
      simp only [List.map_cons, List.foldl_cons, List.length_cons]
      rw [mul_neg' ha hx', mul_neg' (neg_double ha) hx', neg_mul' ha hx', neg_neg', i1, i2]
      rcases Nat.mod_two_eq_zero_or_one xs.length with e | e
      · simp [e, show (xs.length + 1) % 2 = 1 by omega]
      · simp [e, show (xs.length + 1) % 2 = 0 by omega]
  rw [(key _ hd (.fin 1) (by exact ⟨by norm_num, 1, 0, by norm_num, by norm_num, by norm_num, by norm_num⟩)).1]

theorem sorted_neg (xs : List F64) (hx : ∀ x ∈ xs, IsDouble x ∧ x ≠ .nan) :
    AlikeLists (Arr.sortBy F64.fle (xs.map F64.neg)) ((Arr.sortBy F64.fle xs).map F64.neg).reverse := by
  have hp : (xs.map F64.neg).Perm ((Arr.sortBy F64.fle xs).map F64.neg).reverse :=
    (((sortBy_perm xs).symm.map _).trans (List.reverse_perm _).symm)
  have hs : ((Arr.sortBy F64.fle xs).map F64.neg).reverse.Pairwise fun a b => F64.fle a b = true := by
    rw [List.pairwise_reverse, List.pairwise_map]
    refine (sortNums_asc xs fun hm => (hx _ hm).2 rfl).imp ?_
    intro a b hab
    rw [fle_neg]; exact hab
  have := sorted_alike hp ?_
  · rwa [ArrayLaws.sortBy_sorted_self _ hs] at this
  · intro y hy
    obtain ⟨x, hx', rfl⟩ := List.mem_map.1 hy
    refine ⟨neg_double (hx x hx').1, ?_⟩
    intro e
    cases x <;> simp [F64.neg] at e
    exact (hx _ hx').2 rfl

theorem add_comm' (x y : F64) : F64.add x y = F64.add y x := by
  cases x <;> cases y <;> simp only [F64.add]
  · rename_i s t; cases s <;> cases t <;> rfl
  · rename_i s t; cases s <;> cases t <;> rfl
  · rename_i p q; rw [add_comm]

/-- **C154.** The median. -/
theorem C154_middle (X : Ext) (vs ws ls ms : List Value) (hv : LeavesOf vs ls) (hw : LeavesOf ws ms) (hd : ∀ x ∈ amounts ls, IsDouble x ∧ x ≠ .nan)
    (h : amounts ms = (amounts ls).map F64.neg) : Opposite (fn X c!"MEDIAN" vs) (fn X c!"MEDIAN" ws) := by
  rw [fn_median, fn_median]
  have c1 := collects_leaves hv
  have c2 := collects_leaves hw
  rw [h] at c2
  by_cases hne : amounts ls = []
  · rw [hne] at c1 c2
    refine ⟨.zero false, .zero false, ?_, ?_, .inr ⟨_, _, rfl, rfl⟩⟩
    · simp only [Stat.median, c1]; rfl
    · simp only [Stat.median, c2]; rfl
  have hn : F64.nan ∉ amounts ls := fun hm => (hd _ hm).2 rfl
  have hn' : F64.nan ∉ (amounts ls).map F64.neg := by
    intro hm
    obtain ⟨x, hx, e⟩ := List.mem_map.1 hm
    cases x <;> simp [F64.neg] at e
    exact hn hx
  obtain ⟨h1, h2, e⟩ := median_ok vs (by rw [c1]; exact hne) (by rw [c1]; exact hn)
  obtain ⟨h1', h2', e'⟩ := median_ok ws (by rw [c2]; simpa using hne) (by rw [c2]; exact hn')
  refine ⟨_, _, e, e', ?_⟩
  have hs := sorted_neg (amounts ls) hd
  rw [← c2, ← c1] at hs
  have hl : (Arr.sortBy F64.fle (Stat.collects ws)).length = (Arr.sortBy F64.fle (Stat.collects vs)).length := by
    rw [sortBy_length, sortBy_length, c1, c2, List.length_map]
  have pt : ∀ i j (h1 : i < (Arr.sortBy F64.fle (Stat.collects vs)).length) (h2 : j < (Arr.sortBy F64.fle (Stat.collects ws)).length),
      i + j + 1 = (Arr.sortBy F64.fle (Stat.collects vs)).length → Alike (F64.neg (Arr.sortBy F64.fle (Stat.collects vs))[i]) (Arr.sortBy F64.fle (Stat.collects ws))[j] := by
    intro i j h1 h2 hij
    obtain ⟨a, b, e1, e2, hab⟩ := at_alike hs j h2
    rw [at_ok _ _ h2] at e1
    rw [at_ok _ _ (by simp; omega)] at e2
    cases e1
    rw [Except.ok.injEq, List.getElem_reverse, List.getElem_map] at e2
    have : (Arr.sortBy F64.fle (Stat.collects vs))[i] = (Arr.sortBy F64.fle (Stat.collects vs))[((Arr.sortBy F64.fle (Stat.collects vs)).map F64.neg).length - 1 - j]'(by simp; omega) := by
      congr 1; simp; omega
    rw [this, e2]
    exact hab.symm
  simp only [hl]
  split
  · rw [← Identities.neg_div' (add_isDouble ?_ ?_) (by exact ⟨by norm_num, 2, 0, by norm_num, by norm_num, by norm_num, by norm_num⟩)]
    · refine alike_div ((neg_add_alike _ _).trans ?_) _
      rw [add_comm']
      exact alike_add (pt _ _ _ (by omega) (by omega)) (pt _ _ _ (by omega) (by omega))
    all_goals
      refine (hd _ ?_).1
      rw [← c1, ← (sortBy_perm _).mem_iff]
      exact List.getElem_mem _
  · exact pt _ _ _ (by omega) (by omega)

theorem occ_neg (xs : List F64) (x : F64) : Stat.occurrences (xs.map F64.neg) (F64.neg x) = Stat.occurrences xs x := by
  unfold Stat.occurrences
  rw [List.filter_map, List.length_map]
  congr 2
  funext y
  have : F64.neg y = F64.neg x ↔ y = x := ⟨fun e => by rw [← neg_neg' y, e, neg_neg'], fun e => by rw [e]⟩
  simp [this]

/-- **C154.** The most frequent number, with ties broken in the same way. -/
theorem C154_mode (X : Ext) (vs ws ls ms : List Value) (hv : LeavesOf vs ls) (hw : LeavesOf ws ms) (h : amounts ms = (amounts ls).map F64.neg) :
    Opposite (fn X c!"MODE_SNGL" vs) (fn X c!"MODE_SNGL" ws) := by
  have e : ∀ us, fn X c!"MODE_SNGL" us = Stat.mode us := by intro us; rw [fn_eq X _ _ (by decide)]; rfl
  have c1 := collects_leaves hv
  have c2 := collects_leaves hw
  rw [h] at c2
  by_cases hne : amounts ls = []
  · rw [e, e]
    rw [hne] at c1 c2
    refine ⟨.zero false, .zero false, ?_, ?_, .inr ⟨_, _, rfl, rfl⟩⟩
    · simp only [Stat.mode, c1]; rfl
    · simp only [Stat.mode, c2]; rfl
  have hm : Stat.maxCount ((amounts ls).map F64.neg) = Stat.maxCount (amounts ls) := by
    unfold Stat.maxCount
    rw [List.foldl_map]
    simp only [occ_neg]
  obtain ⟨m, -, -, hx, -⟩ := C41_mode_partial X vs ls hv hne
  refine ⟨m, F64.neg m, hx, ?_, .refl _⟩
  rw [e] at hx ⊢
  have i1 : (amounts ls).isEmpty = false := by simpa using hne
  have i2 : ((amounts ls).map F64.neg).isEmpty = false := by simpa using hne
  simp only [Stat.mode, c1, i1] at hx
  simp only [Stat.mode, c2, i2, hm, List.find?_map, Function.comp_def, occ_neg]
  cases hf : (amounts ls).find? fun x => Stat.occurrences (amounts ls) x == Stat.maxCount (amounts ls) with
  | none => rw [hf] at hx; simp [panics] at hx
  | some x =>
    rw [hf] at hx
    simp at hx
    subst hx
    rfl

/-- The hypotheses are met by a nesting of numbers and an amount, and the theorems speak of numbers other than zero. -/
example (X : Ext) : LeavesOf [.arr [.num (.fin 1), .str c!"x"], .cur (.fin 2), .num (.zero false)] [.num (.fin 1), .str c!"x", .cur (.fin 2), .num (.zero false)] ∧
    LeavesOf [.num (.fin (-1)), .num (.fin (-2)), .num (.zero true)] [.num (.fin (-1)), .num (.fin (-2)), .num (.zero true)] ∧
    amounts [.num (.fin (-1)), .num (.fin (-2)), .num (.zero true)] = (amounts [.num (.fin 1), .str c!"x", .cur (.fin 2), .num (.zero false)]).map F64.neg ∧
    fn X c!"SUM" [.arr [.num (.fin 1), .str c!"x"], .cur (.fin 2), .num (.zero false)] = .ok (.num (.fin 3)) := by
  refine ⟨.nested (.leaf (by simp) (.leaf (by simp) .nil)) (.leaf (by simp) (.leaf (by simp) .nil)), .leaf (by simp) (.leaf (by simp) (.leaf (by simp) .nil)), rfl, by kernel_rfl⟩

/-- **C154.** A zero does not always change its sign: sums start from the positive zero. -/
theorem C154_not_laws (X : Ext) : fn X c!"SUM" [] = .ok (.num (.zero false)) ∧ fn X c!"SUM" [.num (.zero false)] = .ok (.num (.zero false)) ∧
    fn X c!"SUM" [.num (.zero true)] = .ok (.num (.zero false)) ∧ fn X c!"MODE_SNGL" [.num (.zero true)] = .ok (.num (.zero true)) := by
  refine ⟨?_, ?_, ?_, ?_⟩ <;> kernel_rfl

end SignLaws
