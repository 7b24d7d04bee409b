import Verif.Props.Aggregates
import Verif.Lemmas.Double
/-! C84, C85: products, powers, roots; variance and deviation. -/

open Lib Spec

/-! ### C84 -/

theorem mulValues_leaves {vs ls : List Value} (h : LeavesOf vs ls) (acc : F64) :
    Arith.mulValues acc vs = (amounts ls).foldl F64.mul acc := by
  induction h generalizing acc with
  | nil => rfl
  | leaf hv _ ih =>
    rename_i v vs ls _
    cases v <;> simp_all [Arith.mulValues, Arith.mulValue, amounts]
  | nested _ _ ih1 ih2 => simp [Arith.mulValues, Arith.mulValue, amounts_append, ih1, ih2]

/-- `PRODUCT` of any nesting of arguments is the product, from left to right, of the amounts among its leaves; one when
there are none. `MULTIPLY` is the same function. -/
theorem C84_product (X : Ext) (vs ls : List Value) (h : LeavesOf vs ls) :
    fn X c!"PRODUCT" vs = .ok (.num ((amounts ls).foldl F64.mul (.fin 1))) ∧ fn X c!"MULTIPLY" vs = fn X c!"PRODUCT" vs := by
  constructor
  · rw [fn_eq X _ _ (by decide)]
    change Arith.product vs = _
    simp only [Arith.product, mulValues_leaves h]
  · rw [fn_eq X _ _ (by decide), fn_eq X _ _ (by decide)]; rfl

/-- The product of one double is that double, and of two doubles what `*` gives. -/
theorem C84_product_operator (X : Ext) (a b : F64) (ha : IsDouble a) :
    fn X c!"PRODUCT" [.num a] = .ok (.num a) ∧
    fn X c!"PRODUCT" [.num a, .num b] = evaluateWith X c!":a * :b" ((Env.empty.insert c!"a" (.num a)).insert c!"b" (.num b)) := by
  have h1 : F64.mul (.fin 1) a = a := by
    cases a with
    | fin q => show F64.round (1 * q) = _; rw [one_mul]; exact F64.round_exact ha.2 ha.1 false
    | _ => simp [F64.mul, F64.signBit, show ¬ ((1 : ℚ) < 0) by norm_num]
  have nf : ∀ (n : F64) (items : List Value), Value.num n ≠ .arr items := fun _ _ h => by cases h
  constructor
  · rw [(C84_product X _ [.num a] (.leaf (nf a) .nil)).1]
    simp only [amounts, List.foldl_cons, List.foldl_nil, h1]
  · rw [(C84_product X _ [.num a, .num b] (.leaf (nf a) (.leaf (nf b) .nil))).1]
    simp only [amounts, List.foldl_cons, List.foldl_nil, h1]
    kernel_rfl

/-- `POW`, `POWER` and the operator `^` are one function; `SQRT` and the method `sqrt` are one function except that the
method refuses negative numbers. -/
theorem C84_powers (X : Ext) (a b : F64) :
    fn X c!"POW" [.num a, .num b] = evaluateWith X c!":a ^ :b" ((Env.empty.insert c!"a" (.num a)).insert c!"b" (.num b)) ∧
    fn X c!"POWER" [.num a, .num b] = fn X c!"POW" [.num a, .num b] ∧
    (F64.flt a (.zero false) = false → meth0 X (.num a) c!"sqrt" = fn X c!"SQRT" [.num a]) ∧
    (F64.flt a (.zero false) = true → meth0 X (.num a) c!"sqrt" = fail "Cannot take square root of negative number") := by
  have hs : meth0 X (.num a) c!"sqrt" = if F64.flt a (.zero false) = true then fail "Cannot take square root of negative number" else .ok (.num (X.sqrt a)) := by
    rw [meth0_eq]; kernel_rfl
  refine ⟨by kernel_rfl, by kernel_rfl, fun h => ?_, fun h => ?_⟩
  · rw [hs, if_neg (by simp [h])]; kernel_rfl
  · rw [hs, if_pos h]

/-- `POW` and `SQRT` take anything that is not a number for zero, amounts included, where the operator uses the amount
and refuses the rest. -/
theorem C84_not_numbers_are_zero (X : Ext) (b : F64) (v : Value) (h : ∀ n, v ≠ .num n) :
    fn X c!"POW" [v, .num b] = fn X c!"POW" [.num (.zero false), .num b] ∧ fn X c!"SQRT" [v] = fn X c!"SQRT" [.num (.zero false)] := by
  rw [fn_eq X _ _ (by decide), fn_eq X _ _ (by decide), fn_eq X _ _ (by decide), fn_eq X _ _ (by decide)]
  cases v with
  | num n => exact absurd rfl (h n)
  | _ => exact ⟨rfl, rfl⟩

example : LeavesOf [.arr [.num (.fin 2), .arr [.cur (.fin 3)]], .str c!"x"] [.num (.fin 2), .cur (.fin 3), .str c!"x"] :=
  .nested (l₁ := [.num (.fin 2), .cur (.fin 3)]) (.leaf (by simp) (.nested (l₁ := [.cur (.fin 3)]) (l₂ := []) (.leaf (by simp) .nil) .nil))
    (.leaf (by simp) .nil)
example (X : Ext) : evaluate X c!"PRODUCT([2, [3]], 4, NULL)" = .ok (.num (F64.ofNat 24)) ∧ evaluate X c!"PRODUCT()" = .ok (.num (F64.ofNat 1)) :=
  ⟨by kernel_rfl, by kernel_rfl⟩

/-! ### C85 -/

namespace Spec

/-- Not a number, or at least zero. -/
def NonNeg (x : F64) : Prop := x = .nan ∨ F64.fle (.zero false) x = true

/-- The mean, in double arithmetic. -/
def mean64 (xs : List F64) : F64 := F64.div (total xs) (F64.ofNat xs.length)

/-- The mean of the squared distances from the mean, in double arithmetic. -/
def varianceOf (xs : List F64) : F64 :=
  F64.div (total (xs.map fun x => F64.mul (F64.sub x (mean64 xs)) (F64.sub x (mean64 xs)))) (F64.ofNat xs.length)

end Spec

theorem nonNeg_round {q : ℚ} (h : 0 ≤ q) (z : Bool) : NonNeg (F64.round q z) := by
  right
  rw [F64.fle_iff]
  exact ⟨by simp, F64.round_ne_nan q z, F64.le_key_round F64.isBin64_zero h z⟩

theorem nonNeg_fin {q : ℚ} : NonNeg (.fin q) ↔ 0 ≤ q :=
  ⟨fun h => by rcases h with h | h; cases h; exact of_decide_eq_true h, fun h => .inr (decide_eq_true h)⟩

theorem nonNeg_inf {s : Bool} : NonNeg (.inf s) ↔ s = false := by simp [NonNeg, F64.fle]

theorem nonNeg_zero (s : Bool) : NonNeg (.zero s) := by simp [NonNeg, F64.fle, F64.toRat]

theorem nonNeg_square (x : F64) : NonNeg (F64.mul x x) := by
  cases x with
  | fin q => exact nonNeg_round (mul_self_nonneg q) _
  | nan => exact .inl rfl
  | inf s => simp [F64.mul, F64.signBit, nonNeg_inf]
  | zero s => exact nonNeg_zero _

theorem nonNeg_add {x y : F64} (hx : NonNeg x) (hy : NonNeg y) : NonNeg (F64.add x y) := by
  cases x <;> cases y <;> simp only [F64.add] <;>
    first
    | exact .inl rfl
    | exact nonNeg_zero _
    | exact hx
    | exact hy
    | (rw [nonNeg_fin] at hx hy; exact nonNeg_round (add_nonneg hx hy) _)
    | (split <;> first | exact hx | exact .inl rfl)

theorem nonNeg_total {xs : List F64} (h : ∀ x ∈ xs, NonNeg x) : NonNeg (total xs) := by
  have : ∀ (xs : List F64) (acc : F64), NonNeg acc → (∀ x ∈ xs, NonNeg x) → NonNeg (xs.foldl F64.add acc) := by
    intro xs
    induction xs with
    | nil => intro acc h _; exact h
    | cons x xs ih =>
      intro acc h hx
      exact ih _ (nonNeg_add h (hx x (by simp))) fun y hy => hx y (List.mem_cons_of_mem _ hy)
  exact this xs _ (.inr rfl) h

/-- Dividing by what is not negative, and not a negative zero. -/
theorem nonNeg_div {x y : F64} (h : NonNeg x) (hn : NonNeg y) (hz : y ≠ .zero true) : NonNeg (F64.div x y) := by
  cases x with
  | nan => exact .inl rfl
  | zero s => cases y <;> simp only [F64.div] <;> first | exact nonNeg_zero _ | exact .inl rfl
  | inf s =>
    rw [nonNeg_inf] at h
    subst h
    cases y with
    | nan => exact .inl rfl
    | inf t => exact .inl rfl
    | zero t => cases t with
      | true => exact absurd rfl hz
      | false => exact nonNeg_inf.2 rfl
    | fin q => rw [nonNeg_fin] at hn; exact nonNeg_inf.2 (by simp [F64.signBit, not_lt.2 hn])
  | fin p =>
    rw [nonNeg_fin] at h
    cases y with
    | nan => exact .inl rfl
    | inf t => exact nonNeg_zero _
    | zero t => cases t with
      | true => exact absurd rfl hz
      | false => exact nonNeg_inf.2 (by simp [F64.signBit, not_lt.2 h])
    | fin q => rw [nonNeg_fin] at hn; exact nonNeg_round (div_nonneg h hn) _

theorem ofNat_nonNeg (n : ℕ) : NonNeg (F64.ofNat n) ∧ F64.ofNat n ≠ .zero true := by
  have hq : (0 : ℚ) ≤ ((n : ℤ) : ℚ) := by exact_mod_cast Nat.zero_le n
  refine ⟨nonNeg_round hq false, ?_⟩
  change F64.round _ _ ≠ _
  by_cases h0 : ((n : ℤ) : ℚ) = 0
  · rw [h0]; decide
  · unfold F64.round
    rw [if_neg h0, if_neg (not_lt.2 hq)]
    unfold F64.roundPos
    simp only
    split
    · simp
    · split <;> simp

theorem variance_eq (xs : List F64) : Stat.variance xs = varianceOf xs := rfl

/-- The variance of any nesting of arguments is the mean squared distance of the amounts among its leaves from their mean;
zero when there are none. The deviation is its square root. -/
theorem C85_variance (X : Ext) (vs ls : List Value) (h : LeavesOf vs ls) :
    fn X c!"VARP" vs = .ok (.num (if amounts ls = [] then .zero false else varianceOf (amounts ls))) ∧
    fn X c!"STDEVP" vs = .ok (.num (if amounts ls = [] then .zero false else X.sqrt (varianceOf (amounts ls)))) ∧
    (∀ name ∈ [c!"VAR_P", c!"VAR.P"], fn X name vs = fn X c!"VARP" vs) ∧ ∀ name ∈ [c!"STDEV_P", c!"STDEV.P"], fn X name vs = fn X c!"STDEVP" vs := by
  refine ⟨?_, ?_, ?_, ?_⟩
  · rw [fn_eq X _ _ (by decide)]
    change Stat.varP vs = _
    simp only [Stat.varP, collects_leaves h, variance_eq]
    cases amounts ls <;> simp
  · rw [fn_eq X _ _ (by decide)]
    change Stat.stdevP X vs = _
    simp only [Stat.stdevP, collects_leaves h, variance_eq]
    cases amounts ls <;> simp
  · intro name hn
    simp only [List.mem_cons, List.not_mem_nil, or_false] at hn
    rcases hn with rfl | rfl <;> (rw [fn_eq X _ _ (by decide), fn_eq X _ _ (by decide)]; rfl)
  · intro name hn
    simp only [List.mem_cons, List.not_mem_nil, or_false] at hn
    rcases hn with rfl | rfl <;> (rw [fn_eq X _ _ (by decide), fn_eq X _ _ (by decide)]; rfl)

/-- It is never negative. -/
theorem C85_nonnegative (X : Ext) (vs : List Value) : ∃ x, fn X c!"VARP" vs = .ok (.num x) ∧ NonNeg x := by
  refine ⟨_, (C85_variance X vs _ (flattens_leaves vs)).1, ?_⟩
  split
  · exact .inr rfl
  · refine nonNeg_div (nonNeg_total ?_) (ofNat_nonNeg _).1 (ofNat_nonNeg _).2
    intro x hx
    obtain ⟨y, _, rfl⟩ := List.mem_map.1 hx
    exact nonNeg_square _

/-- One finite number has no variance. -/
theorem C85_one_number (X : Ext) (x : F64) (hd : IsDouble x) (hf : x.isFinite = true) : fn X c!"VARP" [.num x] = .ok (.num (.zero false)) := by
  have nf : ∀ (n : F64) (items : List Value), Value.num n ≠ .arr items := fun _ _ h => by cases h
  rw [(C85_variance X _ [.num x] (.leaf (nf x) .nil)).1]
  have e : F64.ofNat 1 = .fin 1 := by decide +kernel
  have key : varianceOf [x] = .zero false := by
    unfold varianceOf mean64 total
    simp only [List.length_cons, List.length_nil, Nat.zero_add, List.foldl_cons, List.foldl_nil, List.map_cons, List.map_nil, e]
    cases x with
    | nan => simp [F64.isFinite] at hf
    | inf => simp [F64.isFinite] at hf
    | zero s => cases s <;> decide +kernel
    | fin q =>
      simp only [F64.add, F64.div, div_one, F64.round_exact hd.2 hd.1, F64.sub, F64.neg, add_neg_cancel]
      decide +kernel
  rw [if_neg (by simp [amounts])]
  exact congrArg (fun y => Except.ok (Value.num y)) key

/-- But equal numbers can have one: the mean of `0.1`, `0.1` and `0.1` is not `0.1`. -/
theorem C85_equal_numbers_differ (X : Ext) :
    ∃ q : ℚ, 0 < q ∧ evaluate X c!"VARP(0.1, 0.1, 0.1)" = .ok (.num (.fin q)) := by
  refine ⟨F64.toRat (varianceOf [F64.round (1/10), F64.round (1/10), F64.round (1/10)]), by decide +kernel, ?_⟩
  have h : evaluate X c!"VARP(0.1, 0.1, 0.1)" = .ok (.num (varianceOf [F64.round (1/10), F64.round (1/10), F64.round (1/10)])) := by kernel_rfl
  rw [h]
  have : varianceOf [F64.round (1/10), F64.round (1/10), F64.round (1/10)] = .fin (F64.toRat (varianceOf [F64.round (1/10), F64.round (1/10), F64.round (1/10)])) := by
    decide +kernel
  rw [← this]

example (X : Ext) : evaluate X c!"VARP(2, 4, 4, 4, 5, 5, 7, 9)" = .ok (.num (F64.ofNat 4)) := by kernel_rfl
