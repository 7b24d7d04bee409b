import Verif.Props.Indexing
import Verif.Props.ArrayLaws
import Verif.Props.Calendar
/-! C156: slices of slices, of arrays turned round and of mapped arrays. -/

namespace SliceLaws

open _root_.Spec

namespace Spec

/-- `a[from:to]`, where the array is given by what it is worth and the bounds are integers or left out. -/
def cut (X : Ext) (a : Res Value) (from_ to_ : Option ℤ) : Res Value := do
  let v ← a
  slice X v (from_.map int) (to_.map int)

/-- `a[i]`. -/
def at_ (X : Ext) (a : Res Value) (i : ℤ) : Res Value := do
  let v ← a
  index X v (int i)

/-- `F(a)`. -/
def app (X : Ext) (f : Str) (a : Res Value) : Res Value := do
  let v ← a
  fn X f [v]

end Spec

open Spec

/-- The array `items` as the value of an expression. -/
local notation "⟪" items "⟫" => (Except.ok (Value.arr items) : Res Value)

theorem slice_list (X : Ext) (items : List Value) (hlen : items.length < 2 ^ 63) (s e : Option Value) (s' e' : ℕ)
    (hs : Bound items.length 0 s s') (he : Bound items.length items.length e e') : slice X (.arr items) s e = ⟪(items.take e').drop s'⟫ := by
  obtain ⟨r, h, hl, hr⟩ := C25_slice X items hlen s e s' e' hs he
  rw [h]
  congr 2
  refine List.ext_getElem? fun i => ?_
  rw [hr i, List.getElem?_drop, List.getElem?_take]

/-- Where a bound is. -/
def place (len dflt : ℕ) : Option ℤ → ℕ
  | none => dflt
  | some t => clampBound len t

theorem bound_int (len dflt : ℕ) (t : Option ℤ) : Bound len dflt (t.map int) (place len dflt t) := by
  cases t with
  | none => exact .absent
  | some t =>
    obtain ⟨x, h, hx⟩ := truncatesTo_int t
    rw [Option.map_some, h]
    exact .finite hx

theorem cut_eq (X : Ext) (items : List Value) (hlen : items.length < 2 ^ 63) (s e : Option ℤ) :
    cut X ⟪items⟫ s e = ⟪(items.take (place items.length items.length e)).drop (place items.length 0 s)⟫ :=
  slice_list X items hlen _ _ _ _ (bound_int ..) (bound_int ..)

theorem cut_from (X : Ext) (items : List Value) (hlen : items.length < 2 ^ 63) (n : ℕ) : cut X ⟪items⟫ (some n) none = ⟪items.drop n⟫ := by
  rw [cut_eq X items hlen, place, place, List.take_length]
  congr 2
  by_cases h : n ≤ items.length
  · rw [show clampBound items.length n = n by unfold clampBound; omega]
  · rw [show clampBound items.length n = items.length by unfold clampBound; omega, List.drop_length, List.drop_eq_nil_of_le (by omega)]

theorem cut_to (X : Ext) (items : List Value) (hlen : items.length < 2 ^ 63) (n : ℕ) : cut X ⟪items⟫ none (some n) = ⟪items.take n⟫ := by
  rw [cut_eq X items hlen, place, place, List.drop_zero]
  congr 2
  by_cases h : n ≤ items.length
  · rw [show clampBound items.length n = n by unfold clampBound; omega]
  · rw [show clampBound items.length n = items.length by unfold clampBound; omega, List.take_length, List.take_of_length_le (by omega)]

theorem cut_from_to (X : Ext) (items : List Value) (hlen : items.length < 2 ^ 63) (n m : ℕ) : cut X ⟪items⟫ (some n) (some m) = ⟪(items.take m).drop n⟫ := by
  rw [cut_eq X items hlen, place, place]
  congr 2
  have h1 : items.take (clampBound items.length m) = items.take m := by
    by_cases h : m ≤ items.length
    · rw [show clampBound items.length m = m by unfold clampBound; omega]
    · rw [show clampBound items.length m = items.length by unfold clampBound; omega, List.take_length, List.take_of_length_le (by omega)]
  rw [h1]
  by_cases h : n ≤ items.length
  · rw [show clampBound items.length n = n by unfold clampBound; omega]
  · rw [show clampBound items.length n = items.length by unfold clampBound; omega, List.drop_eq_nil_of_le (by simp), List.drop_eq_nil_of_le (by simp; omega)]

theorem cut_last (X : Ext) (items : List Value) (hlen : items.length < 2 ^ 63) (n : ℕ) (hn : 0 < n) : cut X ⟪items⟫ (some (-(n : ℤ))) none = ⟪items.drop (items.length - n)⟫ := by
  rw [cut_eq X items hlen, place, place, List.take_length, show clampBound items.length (-(n : ℤ)) = items.length - n by unfold clampBound; rw [if_pos (by omega)]; omega]

theorem cut_but_last (X : Ext) (items : List Value) (hlen : items.length < 2 ^ 63) (n : ℕ) (hn : 0 < n) : cut X ⟪items⟫ none (some (-(n : ℤ))) = ⟪items.take (items.length - n)⟫ := by
  rw [cut_eq X items hlen, place, place, List.drop_zero, show clampBound items.length (-(n : ℤ)) = items.length - n by unfold clampBound; rw [if_pos (by omega)]; omega]

theorem short_drop {items : List Value} (h : items.length < 2 ^ 63) (n : ℕ) : (items.drop n).length < 2 ^ 63 := lt_of_le_of_lt (by simp) h
theorem short_take {items : List Value} (h : items.length < 2 ^ 63) (n : ℕ) : (items.take n).length < 2 ^ 63 := lt_of_le_of_lt (by simp) h

/-- **C156.** Slices of slices, with bounds counted from the beginning. -/
theorem C156_nested (X : Ext) (items : List Value) (hlen : items.length < 2 ^ 63) (n m : ℕ) :
    cut X ⟪items⟫ none none = ⟪items⟫ ∧
    cut X (cut X ⟪items⟫ (some n) none) (some m) none = cut X ⟪items⟫ (some (n + m : ℕ)) none ∧
    cut X (cut X ⟪items⟫ none (some n)) none (some m) = cut X ⟪items⟫ none (some (min n m : ℕ)) ∧
    cut X (cut X ⟪items⟫ none (some m)) (some n) none = cut X ⟪items⟫ (some n) (some m) ∧
    cut X (cut X ⟪items⟫ (some n) none) none (some m) = cut X ⟪items⟫ (some n) (some (n + m : ℕ)) := by
  refine ⟨?_, ?_, ?_, ?_, ?_⟩
  · rw [cut_eq X items hlen]; simp [place]
  · rw [cut_from X items hlen, cut_from X _ (short_drop hlen _), cut_from X items hlen, List.drop_drop]
  · rw [cut_to X items hlen, cut_to X _ (short_take hlen _), cut_to X items hlen, List.take_take, Nat.min_comm]
  · rw [cut_to X items hlen, cut_from X _ (short_take hlen _), cut_from_to X items hlen]
  · rw [cut_from X items hlen, cut_to X _ (short_drop hlen _), cut_from_to X items hlen, List.take_drop]

/-- **C156.** Bounds counted from the end are bounds counted from the beginning of the array turned round. -/
theorem C156_reversed (X : Ext) (items : List Value) (hlen : items.length < 2 ^ 63) (n : ℕ) (hn : 0 < n) :
    cut X (app X c!"REVERSE" ⟪items⟫) none (some n) = app X c!"REVERSE" (cut X ⟪items⟫ (some (-(n : ℤ))) none) ∧
    cut X (app X c!"REVERSE" ⟪items⟫) (some n) none = app X c!"REVERSE" (cut X ⟪items⟫ none (some (-(n : ℤ)))) ∧
    cut X (app X c!"REVERSE" ⟪items⟫) (some (-(n : ℤ))) none = app X c!"REVERSE" (cut X ⟪items⟫ none (some n)) ∧
    cut X (app X c!"REVERSE" ⟪items⟫) none (some (-(n : ℤ))) = app X c!"REVERSE" (cut X ⟪items⟫ (some n) none) := by
  have hr : app X c!"REVERSE" ⟪items⟫ = ⟪items.reverse⟫ := ArrayLaws.fn_reverse X items
  have hr' : ∀ l : List Value, app X c!"REVERSE" ⟪l⟫ = ⟪l.reverse⟫ := ArrayLaws.fn_reverse X
  have hl : items.reverse.length < 2 ^ 63 := by simpa using hlen
  rw [hr, cut_to X _ hl, cut_from X _ hl, cut_last X _ hl n hn, cut_but_last X _ hl n hn, cut_last X items hlen n hn, cut_but_last X items hlen n hn, cut_to X items hlen,
    cut_from X items hlen, hr', hr', hr', hr', List.length_reverse]
  refine ⟨?_, ?_, ?_, ?_⟩
  · rw [List.take_reverse]
  · rw [List.drop_reverse]
  · rw [List.drop_reverse]
    by_cases h : n ≤ items.length
    · rw [show items.length - (items.length - n) = n by omega]
    · rw [show items.length - (items.length - n) = items.length by omega, List.take_length, List.take_of_length_le (by omega)]
  · rw [List.take_reverse]
    by_cases h : n ≤ items.length
    · rw [show items.length - (items.length - n) = n by omega]
    · rw [show items.length - (items.length - n) = items.length by omega, List.drop_length, List.drop_eq_nil_of_le (by omega)]

theorem index_nat (X : Ext) (items : List Value) (hlen : items.length < 2 ^ 63) (n : ℕ) (v : Value) : at_ X ⟪items⟫ n = .ok v ↔ items[n]? = some v := by
  obtain ⟨x, h, hx⟩ := truncatesTo_int n
  have : at_ X ⟪items⟫ n = index X (.arr items) (.num x) := by rw [← h]; rfl
  rw [this, C24_index_partial X items hlen x n hx (by omega), elementAt, if_pos (by omega), Int.toNat_natCast]
  cases items[n]? <;> simp [fail]

/-- **C156.** An element of a slice is an element of the array, and its length is what is left. -/
theorem C156_elements (X : Ext) (items : List Value) (hlen : items.length < 2 ^ 63) (n m : ℕ) (v : Value) :
    (at_ X (cut X ⟪items⟫ (some n) none) m = .ok v ↔ at_ X ⟪items⟫ (n + m : ℕ) = .ok v) ∧
    (m < n → (at_ X (cut X ⟪items⟫ none (some n)) m = .ok v ↔ at_ X ⟪items⟫ m = .ok v)) ∧
    (at_ X (cut X ⟪items⟫ none (some n)) n ≠ .ok v) ∧
    (app X c!"FIRST" (cut X ⟪items⟫ (some n) none) = .ok v ↔ at_ X ⟪items⟫ n = .ok v) ∧
    app X c!"LENGTH" (cut X ⟪items⟫ (some n) none) = .ok (.num (F64.ofNat (items.length - n))) ∧
    app X c!"LENGTH" (cut X ⟪items⟫ none (some n)) = .ok (.num (F64.ofNat (min n items.length))) := by
  rw [cut_from X items hlen, cut_to X items hlen]
  refine ⟨?_, fun h => ?_, ?_, ?_, ?_, ?_⟩
  · rw [index_nat X _ (short_drop hlen _), index_nat X _ hlen, List.getElem?_drop]
  · rw [index_nat X _ (short_take hlen _), index_nat X _ hlen, List.getElem?_take, if_pos h]
  · rw [Ne, index_nat X _ (short_take hlen _), List.getElem?_take, if_neg (by omega)]; simp
  · rw [index_nat X _ hlen]
    show fn X c!"FIRST" [.arr _] = _ ↔ _
    rw [ArrayLaws.first_ok, List.head?_drop]
  · show fn X c!"LENGTH" [.arr _] = _
    rw [ArrayLaws.fn_length_arr, List.length_drop]
  · show fn X c!"LENGTH" [.arr _] = _
    rw [ArrayLaws.fn_length_arr, List.length_take]

theorem eval_cut (X : Ext) (r : Option Registry) (env : Env) (a i : Expr) (items : List Value) (n : ℕ) (hlen : items.length < 2 ^ 63)
    (ha : Eval.eval X a r env = ⟪items⟫) (hi : Eval.eval X i r env = .ok (int n)) :
    Eval.eval X (.slice a none (some i)) r env = ⟪items.take n⟫ ∧ Eval.eval X (.slice a (some i) none) r env = ⟪items.drop n⟫ := by
  have h1 := cut_to X items hlen n
  have h2 := cut_from X items hlen n
  have e : ∀ s e, cut X ⟪items⟫ s e = sliceArray items (s.map int) (e.map int) := fun s e => slice_eq X items _ _
  rw [e] at h1 h2
  constructor
  · rw [← h1]; simp only [Eval.eval, ha, Eval.optOf]; simp only [bind, Except.bind, Legacy.optional, hi]; rfl
  · rw [← h2]; simp only [Eval.eval, ha, Eval.optOf]; simp only [bind, Except.bind, Legacy.optional, hi]; rfl

/-- **C156.** An array may be cut anywhere when its elements are spread into the arguments of a call: `F(...a[:i], ...a[i:])` is `F(...a)`, for every built in function that takes
its arguments by value. -/
theorem C156_spread (X : Ext) (r : Option Registry) (env : Env) (f : Str) (hf : f ∉ ownNames) (hr : NotCustom X r f) (a i : Expr) (items : List Value) (n : ℕ)
    (hlen : items.length < 2 ^ 63) (ha : Eval.eval X a r env = ⟪items⟫) (hi : Eval.eval X i r env = .ok (int n)) :
    Eval.eval X (.call f [.spread (.slice a none (some i)), .spread (.slice a (some i) none)]) r env = Eval.eval X (.call f [.spread a]) r env := by
  obtain ⟨h1, h2⟩ := eval_cut X r env a i items n hlen ha hi
  rw [call_eq_fn X f r env _ _ hf hr (.spread h1 (.spread h2 .nil)), call_eq_fn X f r env _ _ hf hr (.spread ha .nil), ← List.append_assoc, List.take_append_drop]

/-- **C156.** An array contains what its two parts contain, and is as long as both. -/
theorem C156_parts (X : Ext) (items : List Value) (hlen : items.length < 2 ^ 63) (n : ℕ) (v : Value) :
    (fn X c!"CONTAINS" [.arr items, v] = .ok (.bool true) ↔
      ∃ p q, cut X ⟪items⟫ none (some n) = .ok p ∧ cut X ⟪items⟫ (some n) none = .ok q ∧
        (fn X c!"CONTAINS" [p, v] = .ok (.bool true) ∨ fn X c!"CONTAINS" [q, v] = .ok (.bool true))) ∧
    ∃ j k : ℕ, app X c!"COUNT" (cut X ⟪items⟫ none (some n)) = .ok (.num (F64.ofNat j)) ∧ app X c!"COUNT" (cut X ⟪items⟫ (some n) none) = .ok (.num (F64.ofNat k)) ∧
      app X c!"COUNT" ⟪items⟫ = .ok (.num (F64.ofNat (j + k))) := by
  rw [cut_to X items hlen, cut_from X items hlen]
  constructor
  · constructor
    · intro h
      refine ⟨_, _, rfl, rfl, ?_⟩
      rw [ArrayLaws.fn_contains, ArrayLaws.fn_contains]
      rw [ArrayLaws.fn_contains] at h
      have h' : (items.any fun x => x.equal v) = true := by injection h with h; injection h
      rw [← List.take_append_drop n items, List.any_append, Bool.or_eq_true] at h'
      exact h'.imp (fun h => by rw [h]) (fun h => by rw [h])
    · rintro ⟨p, q, hp, hq, h⟩
      injection hp with hp
      injection hq with hq
      subst hp hq
      rw [ArrayLaws.fn_contains, ArrayLaws.fn_contains] at h
      have h' : (items.any fun x => x.equal v) = true := by
        rw [← List.take_append_drop n items, List.any_append, Bool.or_eq_true]
        exact h.imp (fun h => by injection h with h; injection h) (fun h => by injection h with h; injection h)
      rw [ArrayLaws.fn_contains, h']
  · refine ⟨min n items.length, items.length - n, ?_, ?_, ?_⟩
    · show fn X c!"COUNT" [.arr _] = _
      rw [ArrayLaws.fn_count, List.length_take]
    · show fn X c!"COUNT" [.arr _] = _
      rw [ArrayLaws.fn_count, List.length_drop]
    · show fn X c!"COUNT" [.arr _] = _
      rw [ArrayLaws.fn_count, show min n items.length + (items.length - n) = items.length by omega]

/-- **C156.** What does not hold: `a[-0:]` is not the last none but all, so the laws of bounds from the end need a positive number; and an element counted from the end is another
one in a slice. -/
theorem C156_not_laws (X : Ext) : cut X ⟪[.bool true, .bool false]⟫ (some (-0)) none = ⟪[.bool true, .bool false]⟫ ∧
    at_ X (cut X ⟪[.bool true, .bool false]⟫ none (some 1)) (-1) = .ok (.bool true) ∧ at_ X ⟪[.bool true, .bool false]⟫ (-1) = .ok (.bool false) := by
  refine ⟨?_, ?_, ?_⟩ <;> kernel_rfl

/-- The hypotheses are met: two slices of four elements. -/
example (X : Ext) : let items := [Value.bool true, .null, .str c!"a", .bool false]
    items.length < 2 ^ 63 ∧ cut X (.ok (.arr items)) (some 1) (some 3) = .ok (.arr [.null, .str c!"a"]) ∧ 0 < 2 := by
  intro items
  exact ⟨by simp [items], by show _ = _; kernel_rfl, by decide⟩

/-- The hypotheses of `C156_spread` are met: `MAX(...:a[:1], ...:a[1:])`. -/
example (X : Ext) : c!"MAX" ∉ ownNames ∧ NotCustom X none c!"MAX" ∧
    Eval.eval X (.var c!"a") none (Env.empty.insert c!"a" (.arr [int 3, int 5])) = .ok (.arr [int 3, int 5]) ∧ Eval.eval X (.number (.fin 1)) none Env.empty = .ok (int (1 : ℕ)) :=
  ⟨by decide, (by intro _ h; cases h), rfl, (by simp [Eval.eval, int])⟩

end SliceLaws
