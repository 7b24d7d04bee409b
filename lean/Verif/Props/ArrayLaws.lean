import Verif.Props.Arrays
import Verif.Props.Aggregates
import Verif.Props.Predicates
/-! C149: sorting, turning round, removing repetitions and looking at the ends of an array fit together. -/

namespace ArrayLaws

open _root_.Spec

namespace Spec

/-- The functions are applied one after the other: `pipe X [c!"F", c!"G"] v` is `G(F(v))`. -/
def pipe (X : Ext) (fs : List Str) (v : Value) : Res Value := fs.foldlM (fun v f => fn X f [v]) v

/-- The methods are called one after the other: `chain X [c!"f", c!"g"] v` is `v.f().g()`. -/
def chain (X : Ext) (ms : List Str) (v : Value) : Res Value := ms.foldlM (fun v m => meth0 X v m) v

/-- An array of numbers. -/
def ofNumbers (xs : List F64) : Value := .arr (xs.map .num)

/-- Doubles without NaN, and not with both zeros, so that equal numbers are the same. -/
structure Plain (xs : List F64) : Prop where
  double : ∀ x ∈ xs, IsDouble x
  noNan : F64.nan ∉ xs
  oneZero : ¬ (.zero true ∈ xs ∧ .zero false ∈ xs)

end Spec

open Spec

theorem plain_eq {xs : List F64} (h : Plain xs) {a b : F64} (ha : a ∈ xs) (hb : b ∈ xs) (h1 : F64.fle a b = true) (h2 : F64.fle b a = true) : a = b := by
  have da := h.double a ha
  have db := h.double b hb
  have hz := h.oneZero
  cases a with
  | nan => simp [F64.fle] at h1
  | inf s => cases b with
    | inf t => cases s <;> cases t <;> simp_all [F64.fle]
    | nan => simp [F64.fle] at h1
    | zero t => cases s <;> simp_all [F64.fle]
    | fin q => cases s <;> simp_all [F64.fle]
  | zero s => cases b with
    | inf t => cases t <;> simp_all [F64.fle]
    | nan => simp [F64.fle] at h1
    | zero t => cases s <;> cases t <;> first | rfl | exact (hz ⟨ha, hb⟩).elim | exact (hz ⟨hb, ha⟩).elim
    | fin q =>
      have e : q = 0 := Rat.le_antisymm (of_decide_eq_true h2) (of_decide_eq_true h1)
      exact absurd e db.1
  | fin p => cases b with
    | inf t => cases t <;> simp_all [F64.fle]
    | nan => simp [F64.fle] at h1
    | zero t =>
      have e : p = 0 := Rat.le_antisymm (of_decide_eq_true h1) (of_decide_eq_true h2)
      exact absurd e da.1
    | fin q =>
      have e : p = q := Rat.le_antisymm (of_decide_eq_true h1) (of_decide_eq_true h2)
      rw [e]

theorem sorted_unique {xs ys zs : List F64} (h : Plain xs) (hy : ys.Perm xs) (hz : zs.Perm xs) (sy : ys.Pairwise fun a b => F64.fle a b = true)
    (sz : zs.Pairwise fun a b => F64.fle a b = true) : ys = zs :=
  List.Perm.eq_of_pairwise (fun a b ha hb => plain_eq h (hy.mem_iff.1 ha) (hz.mem_iff.1 hb)) sy sz (hy.trans hz.symm)

theorem sorted_unique_desc {xs ys zs : List F64} (h : Plain xs) (hy : ys.Perm xs) (hz : zs.Perm xs) (sy : ys.Pairwise fun a b => F64.fle b a = true)
    (sz : zs.Pairwise fun a b => F64.fle b a = true) : ys = zs :=
  List.Perm.eq_of_pairwise (fun a b ha hb h1 h2 => plain_eq h (hy.mem_iff.1 ha) (hz.mem_iff.1 hb) h2 h1) sy sz (hy.trans hz.symm)

theorem plain_perm {xs ys : List F64} (h : Plain xs) (hy : ys.Perm xs) : Plain ys :=
  ⟨fun x hx => h.double x (hy.mem_iff.1 hx), fun hn => h.noNan (hy.mem_iff.1 hn), fun hz => h.oneZero ⟨hy.mem_iff.1 hz.1, hy.mem_iff.1 hz.2⟩⟩

theorem fn_reverse (X : Ext) (items : List Value) : fn X c!"REVERSE" [.arr items] = .ok (.arr items.reverse) := (C27_reverse_partial X items []).1

theorem one {X : Ext} {f : Str} {v : Value} : pipe X [f] v = fn X f [v] := by
  simp only [pipe, List.foldlM_cons, List.foldlM_nil]
  cases fn X f [v] <;> rfl

theorem two {X : Ext} {f g : Str} {v w : Value} (h : fn X f [v] = .ok w) : pipe X [f, g] v = fn X g [w] := by
  simp only [pipe, List.foldlM_cons, List.foldlM_nil, h, bind, Except.bind]
  cases fn X g [w] <;> rfl

theorem mone {X : Ext} {f : Str} {v : Value} : chain X [f] v = meth0 X v f := by
  simp only [chain, List.foldlM_cons, List.foldlM_nil]
  cases meth0 X v f <;> rfl

theorem mtwo {X : Ext} {f g : Str} {v w : Value} (h : meth0 X v f = .ok w) : chain X [f, g] v = meth0 X w g := by
  simp only [chain, List.foldlM_cons, List.foldlM_nil, h, bind, Except.bind]
  cases meth0 X w g <;> rfl

theorem last_reverse {α : Type} (l : List α) : l.reverse.getLast? = l.head? := by simp

theorem first_ok (X : Ext) (items : List Value) (v : Value) : fn X c!"FIRST" [.arr items] = .ok v ↔ items.head? = some v := by
  obtain ⟨h1, -, h3⟩ := C77_first_last X items
  cases hh : items.head? with
  | none => rw [(h3 (List.head?_eq_none_iff.1 hh)).1]; simp [fail]
  | some w => rw [(h1 w hh).1]; simp

theorem last_ok (X : Ext) (items : List Value) (v : Value) : fn X c!"LAST" [.arr items] = .ok v ↔ items.getLast? = some v := by
  obtain ⟨-, h2, h3⟩ := C77_first_last X items
  cases hh : items.getLast? with
  | none => rw [(h3 (List.getLast?_eq_none_iff.1 hh)).2.1]; simp [fail]
  | some w => rw [(h2 w hh).1]; simp

theorem meth_first (X : Ext) (items : List Value) : meth0 X (.arr items) c!"first" = .ok (items.head?.getD .null) := by kernel_rfl
theorem meth_last (X : Ext) (items : List Value) : meth0 X (.arr items) c!"last" = .ok (items.getLast?.getD .null) := by kernel_rfl
theorem meth_reverse (X : Ext) (items : List Value) : meth0 X (.arr items) c!"reverse" = .ok (.arr items.reverse) := by kernel_rfl
theorem meth_length (X : Ext) (items : List Value) : meth0 X (.arr items) c!"length" = .ok (.num (F64.ofNat items.length)) := by kernel_rfl
theorem fn_count (X : Ext) (items : List Value) : fn X c!"COUNT" [.arr items] = .ok (.num (F64.ofNat items.length)) := by rw [fn_eq X _ _ (by decide)]; rfl
theorem fn_length_arr (X : Ext) (items : List Value) : fn X c!"LENGTH" [.arr items] = .ok (.num (F64.ofNat items.length)) := by rw [fn_eq X _ _ (by decide)]; rfl
theorem fn_contains (X : Ext) (items : List Value) (v : Value) : fn X c!"CONTAINS" [.arr items, v] = .ok (.bool (items.any fun x => x.equal v)) := by rw [fn_eq X _ _ (by decide)]; rfl

/-- **C149.** The first element of an array turned round is the last, and the other way round; its length and what it contains stay the same. -/
theorem C149_reverse (X : Ext) (items : List Value) (v : Value) :
    (pipe X [c!"REVERSE", c!"FIRST"] (.arr items) = .ok v ↔ fn X c!"LAST" [.arr items] = .ok v) ∧
    (pipe X [c!"REVERSE", c!"LAST"] (.arr items) = .ok v ↔ fn X c!"FIRST" [.arr items] = .ok v) ∧
    pipe X [c!"REVERSE", c!"COUNT"] (.arr items) = fn X c!"COUNT" [.arr items] ∧
    pipe X [c!"REVERSE", c!"LENGTH"] (.arr items) = fn X c!"LENGTH" [.arr items] ∧
    fn X c!"CONTAINS" [.arr items.reverse, v] = fn X c!"CONTAINS" [.arr items, v] ∧
    chain X [c!"reverse", c!"first"] (.arr items) = meth0 X (.arr items) c!"last" ∧
    chain X [c!"reverse", c!"last"] (.arr items) = meth0 X (.arr items) c!"first" ∧
    chain X [c!"reverse", c!"length"] (.arr items) = meth0 X (.arr items) c!"length" := by
  have h := fn_reverse X items
  have hm := meth_reverse X items
  refine ⟨?_, ?_, ?_, ?_, ?_, ?_, ?_, ?_⟩
  · rw [two h, first_ok, last_ok, List.head?_reverse]
  · rw [two h, first_ok, last_ok, last_reverse]
  · rw [two h, fn_count, fn_count, List.length_reverse]
  · rw [two h, fn_length_arr, fn_length_arr, List.length_reverse]
  · rw [fn_contains, fn_contains, List.any_reverse]
  · rw [mtwo hm, meth_first, meth_last, List.head?_reverse]
  · rw [mtwo hm, meth_first, meth_last, last_reverse]
  · rw [mtwo hm, meth_length, meth_length, List.length_reverse]

theorem sortBy_sorted_self (l : List F64) (h : l.Pairwise fun a b => F64.fle a b = true) : Arr.sortBy F64.fle l = l := by
  induction l with
  | nil => rfl
  | cons x xs ih =>
    rw [List.pairwise_cons] at h
    rw [Arr.sortBy, ih h.2]
    cases xs with
    | nil => rfl
    | cons y ys => rw [Arr.insertBy, if_pos (h.1 y (by simp))]

theorem fn_sort_numbers (X : Ext) (xs : List F64) (h : F64.nan ∉ xs) : fn X c!"SORT" [ofNumbers xs] = .ok (ofNumbers (Arr.sortBy F64.fle xs)) := by
  rw [fn_sort]
  unfold ofNumbers
  simp only [Arr.sort, argAt, List.getElem?_cons_zero, allNums_map, sortNums_ok xs h, bind, Except.bind]; rfl

/-- **C149.** Sorting twice is sorting once, and sorting downwards is sorting and turning round. -/
theorem C149_sort_again (X : Ext) (xs : List F64) (h : F64.nan ∉ xs) (d : Str) (hd : Str.eqIgnoreCase d c!"desc" = true) :
    pipe X [c!"SORT", c!"SORT"] (ofNumbers xs) = fn X c!"SORT" [ofNumbers xs] ∧
    fn X c!"SORT" [ofNumbers xs, .str d] = pipe X [c!"SORT", c!"REVERSE"] (ofNumbers xs) := by
  have h1 := fn_sort_numbers X xs h
  have h2 : F64.nan ∉ Arr.sortBy F64.fle xs := fun hn => h ((sortBy_perm xs).mem_iff.1 hn)
  constructor
  · rw [two h1, fn_sort_numbers X _ h2, sortBy_sorted_self _ (sortNums_asc xs h), h1]
  · rw [two h1]
    unfold ofNumbers
    rw [fn_reverse, fn_sort]
    have hd' : Str.eqIgnoreCase d c!"DESC" = true := hd
    simp only [Arr.sort, argAt, List.getElem?_cons_zero, List.getElem?_cons_succ, allNums_map, sortNums_ok xs h, bind, Except.bind, hd', if_true, ← List.map_reverse]
    rfl

/-- **C149.** What sorting gives does not depend on the order before: in particular an array may be turned round before. The method sorts as the function does, upwards and downwards. -/
theorem C149_sort_order (X : Ext) (xs ys : List F64) (h : Plain xs) (hp : ys.Perm xs) :
    fn X c!"SORT" [ofNumbers ys] = fn X c!"SORT" [ofNumbers xs] ∧
    pipe X [c!"REVERSE", c!"SORT"] (ofNumbers xs) = fn X c!"SORT" [ofNumbers xs] ∧
    meth0 X (ofNumbers xs) c!"sort" = fn X c!"SORT" [ofNumbers xs] ∧
    meth1 X (ofNumbers xs) c!"sort" (.str c!"DESC") = fn X c!"SORT" [ofNumbers xs, .str c!"DESC"] := by
  have key : ∀ zs : List F64, zs.Perm xs → fn X c!"SORT" [ofNumbers zs] = fn X c!"SORT" [ofNumbers xs] := by
    intro zs hz
    have hn := (plain_perm h hz).noNan
    rw [fn_sort_numbers X _ hn, fn_sort_numbers X _ h.noNan]
    rw [sorted_unique h ((sortBy_perm zs).trans hz) (sortBy_perm xs) (sortNums_asc zs hn) (sortNums_asc xs h.noNan)]
  refine ⟨key ys hp, ?_, ?_, ?_⟩
  · have hr : fn X c!"REVERSE" [ofNumbers xs] = .ok (ofNumbers xs.reverse) := by
      unfold ofNumbers
      rw [fn_reverse, List.map_reverse]
    rw [two hr]
    exact key _ (List.reverse_perm xs)
  · obtain ⟨⟨zs, e, hz, sz⟩, -⟩ := C28_sort_method_partial X xs h.noNan
    obtain ⟨⟨ws, e', hw, sw⟩, -⟩ := C28_sort_partial X xs h.noNan
    unfold ofNumbers
    rw [e, e', sorted_unique h hz hw sz sw]
  · obtain ⟨-, zs, e, hz, sz⟩ := C28_sort_method_partial X xs h.noNan
    obtain ⟨-, h2⟩ := C28_sort_partial X xs h.noNan
    obtain ⟨ws, e', hw, sw⟩ := h2 c!"DESC" (by decide)
    unfold ofNumbers
    rw [e, e', sorted_unique_desc h hz hw sz sw]

theorem leaves_numbers (xs : List F64) : LeavesOf [ofNumbers xs] (xs.map .num) := .single (by intro v hv items e; subst e; simp at hv)

theorem amounts_numbers (xs : List F64) : amounts (xs.map .num) = xs := by
  induction xs with
  | nil => rfl
  | cons x xs ih => simp only [List.map_cons, amounts, ih]

theorem min_max_numbers (X : Ext) (xs : List F64) (h : F64.nan ∉ xs) (h0 : xs ≠ []) : ∃ lo hi, fn X c!"MIN" [ofNumbers xs] = .ok (.num lo) ∧ fn X c!"MAX" [ofNumbers xs] = .ok (.num hi) ∧
    lo ∈ xs ∧ hi ∈ xs ∧ ∀ x ∈ xs, F64.fle lo x = true ∧ F64.fle x hi = true := by
  obtain ⟨lo, hi, h1, h2, h3, h4⟩ := C39_min_max X _ _ (leaves_numbers xs)
  rw [amounts_numbers] at h3 h4
  exact ⟨lo, hi, h1, h2, (h4 h0).1, (h4 h0).2, fun x hx => h3 x hx (fun e => h (e ▸ hx))⟩

/-- **C149.** The ends of a sorted array are the least and the greatest number, and neither they nor the length nor what is contained change by sorting. -/
theorem C149_sort_ends (X : Ext) (xs : List F64) (h : Plain xs) (h0 : xs ≠ []) :
    pipe X [c!"SORT", c!"FIRST"] (ofNumbers xs) = fn X c!"MIN" [ofNumbers xs] ∧
    pipe X [c!"SORT", c!"LAST"] (ofNumbers xs) = fn X c!"MAX" [ofNumbers xs] ∧
    pipe X [c!"SORT", c!"MIN"] (ofNumbers xs) = fn X c!"MIN" [ofNumbers xs] ∧
    pipe X [c!"SORT", c!"MAX"] (ofNumbers xs) = fn X c!"MAX" [ofNumbers xs] ∧
    pipe X [c!"SORT", c!"COUNT"] (ofNumbers xs) = fn X c!"COUNT" [ofNumbers xs] ∧
    ∀ sorted v, fn X c!"SORT" [ofNumbers xs] = .ok sorted → fn X c!"CONTAINS" [sorted, v] = fn X c!"CONTAINS" [ofNumbers xs, v] := by
  have hs := fn_sort_numbers X xs h.noNan
  have hp := sortBy_perm (le := F64.fle) xs
  have sp := sortNums_asc xs h.noNan
  generalize Arr.sortBy F64.fle xs = ys at hs hp sp
  have hy := plain_perm h hp
  have hy0 : ys ≠ [] := fun e => h0 (by subst e; exact hp.symm.eq_nil)
  obtain ⟨lo, hi, e1, e2, m1, m2, hb⟩ := min_max_numbers X xs h.noNan h0
  obtain ⟨lo', hi', e1', e2', m1', m2', hb'⟩ := min_max_numbers X ys hy.noNan hy0
  have hlo : lo' = lo := plain_eq h (hp.mem_iff.1 m1') m1 (hb' lo (hp.mem_iff.2 m1)).1 (hb lo' (hp.mem_iff.1 m1')).1
  have hhi : hi' = hi := plain_eq h (hp.mem_iff.1 m2') m2 (hb hi' (hp.mem_iff.1 m2')).2 (hb' hi (hp.mem_iff.2 m2)).2
  subst hlo hhi
  refine ⟨?_, ?_, ?_, ?_, ?_, ?_⟩
  · rw [two hs, e1, ofNumbers, first_ok]
    cases ys with
    | nil => exact absurd rfl hy0
    | cons y ys =>
      rw [List.pairwise_cons] at sp
      have hle : F64.fle y lo' = true := by
        rcases List.mem_cons.1 m1' with rfl | hm
        · exact F64.fle_refl fun e => h.noNan (e ▸ m1)
        · exact sp.1 _ hm
      rw [plain_eq hy m1' (by simp) (hb' y (by simp)).1 hle]
      rfl
  · rw [two hs, e2, ofNumbers, last_ok]
    obtain ⟨zs, y, rfl⟩ := List.eq_nil_or_concat ys |>.resolve_left hy0
    rw [List.concat_eq_append] at *
    rw [List.pairwise_append] at sp
    have hle : F64.fle hi' y = true := by
      rcases List.mem_append.1 m2' with hm | hm
      · exact sp.2.2 _ hm y (by simp)
      · rw [List.mem_singleton.1 hm]
        exact F64.fle_refl fun e => hy.noNan (e ▸ by simp)
    rw [plain_eq hy m2' (by simp) hle (hb' y (by simp)).2]
    simp
  · rw [two hs, e1', e1]
  · rw [two hs, e2', e2]
  · rw [two hs]
    unfold ofNumbers
    rw [fn_count, fn_count, List.length_map, List.length_map, hp.length_eq]
  · intro s v e
    rw [hs] at e
    cases e
    unfold ofNumbers
    rw [fn_contains, fn_contains, (hp.map Value.num).any_eq]

theorem uniqBy_sublist (seen xs : List F64) : (uniqBy id seen xs).Sublist xs := by
  induction xs generalizing seen with
  | nil => exact .slnil
  | cons x xs ih =>
    unfold uniqBy
    split
    · exact (ih _).cons _
    · exact (ih _).cons_cons _

theorem unique_numbers (X : Ext) (xs : List F64) : ∃ ys, fn X c!"UNIQUE" [ofNumbers xs] = .ok (ofNumbers ys) ∧ ys.Sublist xs ∧ ys.Nodup ∧ ∀ v, v ∈ ys ↔ v ∈ xs := by
  obtain ⟨ys, h, hf, -⟩ := C29_unique_partial X (xs.map .num)
  rw [numbersIn_map] at hf
  have hu := C29_first_occurrences hf
  refine ⟨ys, h, ?_, hu.1, hu.2⟩
  have h' := fn_unique X (xs.map .num)
  rw [h, numbersIn_map] at h'
  have e : ys = uniqBy id [] xs := by
    have := Value.arr.inj (Except.ok.inj h')
    exact List.map_injective_iff.2 (fun a b e => Value.num.inj e) this
  rw [e]
  exact uniqBy_sublist _ _

/-- **C149.** Removing repetitions and sorting may be done in either order. -/
theorem C149_sort_unique (X : Ext) (xs : List F64) (h : Plain xs) : pipe X [c!"UNIQUE", c!"SORT"] (ofNumbers xs) = pipe X [c!"SORT", c!"UNIQUE"] (ofNumbers xs) := by
  have hs := fn_sort_numbers X xs h.noNan
  have hp := sortBy_perm (le := F64.fle) xs
  have sp := sortNums_asc xs h.noNan
  generalize Arr.sortBy F64.fle xs = ws at hs hp sp
  obtain ⟨ys, hy, sy, ny, my⟩ := unique_numbers X xs
  obtain ⟨us, hu, su, nu, mu⟩ := unique_numbers X ws
  have py : Plain ys := ⟨fun x hx => h.double x ((my x).1 hx), fun hn => h.noNan ((my _).1 hn), fun hz => h.oneZero ⟨(my _).1 hz.1, (my _).1 hz.2⟩⟩
  have pu : us.Perm ys := (List.perm_ext_iff_of_nodup nu ny).2 fun a => by rw [mu, my, hp.mem_iff]
  rw [two hy, two hs, hu, fn_sort_numbers X ys py.noNan, sorted_unique py (sortBy_perm ys) pu (sortNums_asc ys py.noNan) (sp.sublist su)]

/-- **C149.** With both zeros in the array the order before shows after sorting. -/
theorem C149_both_zeros (X : Ext) :
    fn X c!"SORT" [ofNumbers [.zero false, .zero true]] ≠ pipe X [c!"REVERSE", c!"SORT"] (ofNumbers [.zero false, .zero true]) := by
  have hr : fn X c!"REVERSE" [ofNumbers [.zero false, .zero true]] = .ok (ofNumbers [.zero true, .zero false]) := fn_reverse X _
  rw [two hr, fn_sort_numbers X _ (by simp), fn_sort_numbers X _ (by simp)]
  intro e
  have := Value.arr.inj (Except.ok.inj e)
  have h2 := List.map_injective_iff.2 (fun a b (e : Value.num a = .num b) => Value.num.inj e) this
  exact absurd h2 (by decide +kernel)

/-! Cases: three numbers, two of them equal. -/

theorem plain_case : Plain [.fin 3, .fin (1 : ℚ), .fin 3, .zero true] := by
  refine ⟨?_, by simp, by simp⟩
  intro x hx
  have h3 : IsDouble (.fin 3) := ⟨by norm_num, 3, 0, by norm_num, by norm_num, by norm_num, by norm_num⟩
  have h1 : IsDouble (.fin 1) := ⟨by norm_num, 1, 0, by norm_num, by norm_num, by norm_num, by norm_num⟩
  simp only [List.mem_cons, List.not_mem_nil, or_false] at hx
  rcases hx with rfl | rfl | rfl | rfl
  · exact h3
  · exact h1
  · exact h3
  · trivial

example (X : Ext) : pipe X [c!"SORT", c!"FIRST"] (ofNumbers [.fin 3, .fin (1 : ℚ), .fin 3, .zero true]) = fn X c!"MIN" [ofNumbers [.fin 3, .fin (1 : ℚ), .fin 3, .zero true]] :=
  (C149_sort_ends X _ plain_case (by simp)).1

example (X : Ext) : pipe X [c!"UNIQUE", c!"SORT"] (ofNumbers [.fin 3, .fin (1 : ℚ), .fin 3, .zero true]) = pipe X [c!"SORT", c!"UNIQUE"] (ofNumbers [.fin 3, .fin (1 : ℚ), .fin 3, .zero true]) :=
  C149_sort_unique X _ plain_case

example (X : Ext) : fn X c!"SORT" [ofNumbers [.zero true, .fin 3, .fin 3, .fin (1 : ℚ)]] = fn X c!"SORT" [ofNumbers [.fin 3, .fin (1 : ℚ), .fin 3, .zero true]] :=
  (C149_sort_order X _ _ plain_case (by decide)).1

example (X : Ext) : fn X c!"SORT" [ofNumbers [.fin 3, .fin (1 : ℚ)], .str c!"Desc"] = pipe X [c!"SORT", c!"REVERSE"] (ofNumbers [.fin 3, .fin (1 : ℚ)]) :=
  (C149_sort_again X _ (by simp) _ (by decide)).2

example (X : Ext) : pipe X [c!"REVERSE", c!"FIRST"] (.arr [.null, .str c!"z"]) = .ok (.str c!"z") :=
  (C149_reverse X _ _).1.2 ((last_ok X _ _).2 rfl)

end ArrayLaws
