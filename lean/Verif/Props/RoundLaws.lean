import Verif.Props.Numbers
import Verif.Props.ArrayLaws
/-! C151: rounding to integers, absolute values and signs fit together. -/

namespace RoundLaws

open _root_.Spec ArrayLaws.Spec

namespace Spec

/-- The value of `-(v)`. -/
def minus (X : Ext) (v : Value) : Res Value := evalVars X (.unary .minus (.var c!"v")) (Env.empty.insert c!"v" v)

/-- The functions that give whole numbers. -/
def whole : List Str := [c!"FLOOR", c!"INT", c!"CEIL", c!"CEILING", c!"ROUND"]

/-- `F(-x)`. -/
def ofMinus (X : Ext) (f : Str) (x : F64) : Res Value := do
  let v ← minus X (.num x)
  fn X f [v]

/-- `-F(x)`. -/
def minusOf (X : Ext) (f : Str) (x : F64) : Res Value := do
  let v ← fn X f [.num x]
  minus X v

end Spec

open Spec

/-- Not finite, a zero, or a whole number. -/
def Whole (x : F64) : Prop := ∀ q, x = .fin q → ∃ i : ℤ, i ≠ 0 ∧ q = i

theorem whole_ofRounded (s : Bool) (i : ℤ) : Whole (F64.ofRounded s i) := by
  intro q h
  unfold F64.ofRounded at h
  split at h
  · cases h
  · rename_i h0; cases h; exact ⟨i, h0, rfl⟩

theorem whole_floor (x : F64) : Whole x.floor := by
  cases x with
  | fin q => exact whole_ofRounded _ _
  | _ => intro q h; cases h

theorem whole_ceil (x : F64) : Whole x.ceil := by
  cases x with
  | fin q => exact whole_ofRounded _ _
  | _ => intro q h; cases h

theorem whole_round (x : F64) : Whole x.roundHalfAway := by
  cases x with
  | fin q => exact whole_ofRounded _ _
  | _ => intro q h; cases h

theorem ofRounded_ne {s : Bool} {i : ℤ} (h : i ≠ 0) : F64.ofRounded s i = .fin i := if_neg h

theorem floor_int (i : ℤ) : (i : ℚ).floor = i := by
  have : (i : ℚ).floor = ⌊(i : ℚ)⌋ := rfl
  rw [this, Int.floor_intCast]
theorem ceil_int (i : ℤ) : (i : ℚ).ceil = i := by rw [F64.rat_ceil, Int.ceil_intCast]

theorem nearest_int (i : ℤ) : F64.nearest i = i := by
  have h := F64.nearest_spec (i : ℚ)
  have h1 := h.1
  rw [← Int.cast_sub] at h1
  have : |((i - F64.nearest i : ℤ) : ℚ)| < 1 := lt_of_le_of_lt h1 (by norm_num)
  have h2 : |i - F64.nearest i| < 1 := by exact_mod_cast this
  have h3 := Int.abs_lt_one_iff.1 h2
  omega

theorem floor_whole {x : F64} (h : Whole x) : x.floor = x := by
  cases x with
  | fin q => obtain ⟨i, h0, rfl⟩ := h q rfl; rw [F64.floor, floor_int, ofRounded_ne h0]
  | _ => rfl

theorem ceil_whole {x : F64} (h : Whole x) : x.ceil = x := by
  cases x with
  | fin q => obtain ⟨i, h0, rfl⟩ := h q rfl; rw [F64.ceil, ceil_int, ofRounded_ne h0]
  | _ => rfl

theorem round_whole {x : F64} (h : Whole x) : x.roundHalfAway = x := by
  cases x with
  | fin q =>
    obtain ⟨i, h0, rfl⟩ := h q rfl
    have : F64.roundHalfAway (.fin (i : ℚ)) = F64.ofRounded (decide ((i : ℚ) < 0)) (F64.nearest i) := rfl
    rw [this, nearest_int, ofRounded_ne h0]
  | _ => rfl

theorem fn_floor (X : Ext) (x : F64) : fn X c!"FLOOR" [.num x] = .ok (.num x.floor) := by rw [fn_eq X _ _ (by decide)]; rfl
theorem fn_int (X : Ext) (x : F64) : fn X c!"INT" [.num x] = .ok (.num x.floor) := by rw [fn_eq X _ _ (by decide)]; rfl
theorem fn_ceil (X : Ext) (x : F64) : fn X c!"CEIL" [.num x] = .ok (.num x.ceil) := by rw [fn_eq X _ _ (by decide)]; rfl
theorem fn_ceiling (X : Ext) (x : F64) : fn X c!"CEILING" [.num x] = .ok (.num x.ceil) := by rw [fn_eq X _ _ (by decide)]; rfl
theorem fn_abs (X : Ext) (x : F64) : fn X c!"ABS" [.num x] = .ok (.num x.abs) := by rw [fn_eq X _ _ (by decide)]; rfl
theorem fn_round (X : Ext) (h10 : X.pow10 0 = .fin 1) (x : F64) (hd : IsDouble x) : fn X c!"ROUND" [.num x] = .ok (.num x.roundHalfAway) := by
  have hr : F64.div (F64.mul x (X.pow10 0)).roundHalfAway (X.pow10 0) = x.roundHalfAway := by
    rw [h10, F64.mul_one_double hd, F64.div_one_double (F64.nearest_isDouble hd)]
  rw [← hr, fn_eq X _ _ (by decide)]; rfl
theorem minus_num (X : Ext) (x : F64) : minus X (.num x) = .ok (.num x.neg) := rfl

/-- **C151.** What has been made whole stays as it is. -/
theorem C151_again (X : Ext) (h10 : X.pow10 0 = .fin 1) (x : F64) (hd : IsDouble x) (f g : Str) (hf : f ∈ whole) (hg : g ∈ whole) :
    pipe X [f, g] (.num x) = fn X f [.num x] := by
  have key : ∃ y, Whole y ∧ IsDouble y ∧ fn X f [.num x] = .ok (.num y) := by
    simp only [whole, List.mem_cons, List.not_mem_nil, or_false] at hf
    rcases hf with rfl | rfl | rfl | rfl | rfl
    · exact ⟨_, whole_floor x, F64.floor_isDouble hd, fn_floor X x⟩
    · exact ⟨_, whole_floor x, F64.floor_isDouble hd, fn_int X x⟩
    · exact ⟨_, whole_ceil x, F64.ceil_isDouble hd, fn_ceil X x⟩
    · exact ⟨_, whole_ceil x, F64.ceil_isDouble hd, fn_ceiling X x⟩
    · exact ⟨_, whole_round x, F64.nearest_isDouble hd, fn_round X h10 x hd⟩
  obtain ⟨y, hw, hy, e⟩ := key
  rw [ArrayLaws.two e, e]
  simp only [whole, List.mem_cons, List.not_mem_nil, or_false] at hg
  rcases hg with rfl | rfl | rfl | rfl | rfl
  · rw [fn_floor, floor_whole hw]
  · rw [fn_int, floor_whole hw]
  · rw [fn_ceil, ceil_whole hw]
  · rw [fn_ceiling, ceil_whole hw]
  · rw [fn_round X h10 y hy, round_whole hw]

theorem ofRounded_neg {q : ℚ} (h : q ≠ 0) (i : ℤ) : F64.ofRounded (decide (-q < 0)) (-i) = (F64.ofRounded (decide (q < 0)) i).neg := by
  unfold F64.ofRounded
  by_cases hi : i = 0
  · subst hi
    have e : decide (-q < 0) = !decide (q < 0) := by
      rcases lt_or_gt_of_ne h with hq | hq
      · simp [hq, hq.le]
      · simp [hq, hq.le]
    rw [if_pos (by simp), if_pos rfl, e]; rfl
  · rw [if_neg (by omega), if_neg hi]
    simp [F64.neg]

theorem floor_neg {x : F64} (hd : IsDouble x) : x.neg.floor = x.ceil.neg := by
  cases x with
  | fin q =>
    rw [F64.neg, F64.floor, F64.ceil, ← ofRounded_neg hd.1, F64.rat_ceil]
    have : (-q).floor = ⌊-q⌋ := rfl
    rw [this, Int.floor_neg]
  | _ => rfl

theorem ceil_neg {x : F64} (hd : IsDouble x) : x.neg.ceil = x.floor.neg := by
  cases x with
  | fin q =>
    rw [F64.neg, F64.floor, F64.ceil, ← ofRounded_neg hd.1, F64.rat_ceil]
    have : q.floor = ⌊q⌋ := rfl
    rw [this, Int.ceil_neg]
  | _ => rfl

theorem nearest_neg {q : ℚ} (h : q ≠ 0) : F64.nearest (-q) = -F64.nearest q := by
  unfold F64.nearest
  rcases lt_or_gt_of_ne h with hq | hq
  · rw [if_neg (by linarith), if_pos hq]; simp
  · rw [if_pos (by linarith), if_neg (by linarith)]; simp

theorem round_neg {x : F64} (hd : IsDouble x) : x.neg.roundHalfAway = x.roundHalfAway.neg := by
  cases x with
  | fin q =>
    have e : ∀ p, F64.roundHalfAway (.fin p) = F64.ofRounded (decide (p < 0)) (F64.nearest p) := fun _ => rfl
    rw [F64.neg, e, e, ← ofRounded_neg hd.1, nearest_neg hd.1]
  | _ => rfl

theorem trunc_neg {x : F64} (hd : IsDouble x) : x.neg.trunc = x.trunc.neg := by
  cases x with
  | fin q =>
    rw [F64.neg, F64.trunc, F64.trunc, ← ofRounded_neg hd.1]
    congr 1
    unfold F64.truncRat
    rcases lt_or_gt_of_ne hd.1 with hq | hq
    · rw [if_pos (by linarith), if_neg (by linarith)]; simp
    · rw [if_neg (by linarith), if_pos hq.le]; simp
  | _ => rfl

theorem abs_neg {x : F64} (hd : IsDouble x) : x.neg.abs = x.abs := by
  cases x with
  | fin q =>
    simp only [F64.neg, F64.abs]
    rcases lt_or_gt_of_ne hd.1 with hq | hq
    · rw [if_neg (by linarith), if_pos hq]
    · rw [if_pos (by linarith), if_neg (by linarith)]; simp
  | _ => rfl

theorem abs_abs (x : F64) : x.abs.abs = x.abs := by
  cases x with
  | fin q =>
    simp only [F64.abs]
    split
    · rw [if_neg (by linarith)]
    · rfl
  | _ => rfl

theorem isDouble_neg {x : F64} (hd : IsDouble x) : IsDouble x.neg := F64.neg_isDouble hd

theorem meth_int (X : Ext) (x : F64) : meth0 X (.num x) c!"int" = .ok (.num x.trunc) := by kernel_rfl

/-- **C151.** A sign can be taken out, by which FLOOR and CEIL change places. ABS does not see it. -/
theorem C151_sign (X : Ext) (h10 : X.pow10 0 = .fin 1) (x : F64) (hd : IsDouble x) :
    ofMinus X c!"FLOOR" x = minusOf X c!"CEIL" x ∧
    ofMinus X c!"CEIL" x = minusOf X c!"FLOOR" x ∧
    ofMinus X c!"ROUND" x = minusOf X c!"ROUND" x ∧
    ofMinus X c!"ABS" x = fn X c!"ABS" [.num x] ∧
    pipe X [c!"ABS", c!"ABS"] (.num x) = fn X c!"ABS" [.num x] ∧
    (do let v ← minus X (.num x); meth0 X v c!"int") = (do let v ← meth0 X (.num x) c!"int"; minus X v) := by
  refine ⟨?_, ?_, ?_, ?_, ?_, ?_⟩
  · rw [ofMinus, minusOf, minus_num, fn_ceil]
    exact (fn_floor X _).trans (by rw [floor_neg hd]; rfl)
  · rw [ofMinus, minusOf, minus_num, fn_floor]
    exact (fn_ceil X _).trans (by rw [ceil_neg hd]; rfl)
  · rw [ofMinus, minusOf, minus_num, fn_round X h10 x hd]
    exact (fn_round X h10 _ (isDouble_neg hd)).trans (by rw [round_neg hd]; rfl)
  · rw [ofMinus, minus_num, fn_abs]
    exact (fn_abs X _).trans (by rw [abs_neg hd])
  · rw [ArrayLaws.two (fn_abs X x), fn_abs, fn_abs, abs_abs]
  · rw [minus_num, meth_int]
    exact (meth_int X _).trans (by rw [trunc_neg hd]; rfl)

/-- **C151.** Dropping the fraction is FLOOR of what is not negative and CEIL of the others, and its absolute value is FLOOR of the absolute value. -/
theorem C151_int (X : Ext) (x : F64) (hd : IsDouble x) :
    (F64.fle (.zero false) x = true → meth0 X (.num x) c!"int" = fn X c!"FLOOR" [.num x]) ∧
    (F64.fle x (.zero false) = true → meth0 X (.num x) c!"int" = fn X c!"CEIL" [.num x]) ∧
    (do let v ← meth0 X (.num x) c!"int"; fn X c!"ABS" [v]) = pipe X [c!"ABS", c!"FLOOR"] (.num x) := by
  have hp : ∀ q : ℚ, 0 ≤ q → F64.trunc (.fin q) = F64.floor (.fin q) := by
    intro q h
    rw [F64.trunc, F64.floor, F64.truncRat, if_pos h]
  have hn : ∀ q : ℚ, q < 0 → F64.trunc (.fin q) = F64.ceil (.fin q) := by
    intro q h
    rw [F64.trunc, F64.ceil, F64.truncRat, if_neg (by linarith), Rat.ceil_eq_neg_floor_neg]
  rw [meth_int, fn_floor, fn_ceil, ArrayLaws.two (fn_abs X x), fn_floor]
  refine ⟨?_, ?_, ?_⟩
  · intro h
    cases x with
    | fin q => rw [hp q (of_decide_eq_true h)]
    | _ => rfl
  · intro h
    cases x with
    | fin q => rw [hn q (lt_of_le_of_ne (of_decide_eq_true h) hd.1)]
    | _ => rfl
  · refine (fn_abs X _).trans ?_
    congr 2
    cases x with
    | fin q =>
      rcases lt_or_gt_of_ne hd.1 with hq | hq
      · have e : F64.trunc (.fin q) = (F64.trunc (F64.neg (.fin q))).neg := by
          rw [trunc_neg hd]
          cases F64.trunc (.fin q) <;> simp [F64.neg]
        have e2 : F64.abs (.fin q) = .fin (-q) := by rw [F64.abs, if_pos hq]
        rw [e2, e, F64.neg, hp (-q) (by linarith), F64.floor]
        unfold F64.ofRounded
        have h0 : 0 ≤ ⌊-q⌋ := Int.floor_nonneg.2 (by linarith)
        change 0 ≤ (-q).floor at h0
        split
        · simp [F64.neg, F64.abs, hq.le]
        · rename_i h1
          have : (0 : ℚ) < ((-q).floor : ℤ) := by exact_mod_cast lt_of_le_of_ne h0 (Ne.symm h1)
          simp only [F64.neg, F64.abs]
          rw [if_pos (by linarith)]; simp
      · have e2 : F64.abs (.fin q) = .fin q := by rw [F64.abs, if_neg (by linarith)]
        rw [e2, hp q hq.le, F64.floor]
        unfold F64.ofRounded
        have h0 : 0 ≤ ⌊q⌋ := Int.floor_nonneg.2 hq.le
        change 0 ≤ q.floor at h0
        split
        · simp [F64.abs, hq.le]
        · have : (0 : ℚ) ≤ (q.floor : ℤ) := by exact_mod_cast h0
          simp only [F64.abs]
          rw [if_neg (by linarith)]
    | _ => rfl

theorem fle_values {a b : F64} {p q : ℚ} (ha : HasValue a p) (hb : HasValue b q) : F64.fle a b = true ↔ p ≤ q := by
  cases a with
  | fin x => cases b with
    | fin y => cases ha; cases hb; exact decide_eq_true_iff
    | zero t => cases ha; have hb : q = 0 := hb; subst hb; exact decide_eq_true_iff
    | _ => exact hb.elim
  | zero s => cases b with
    | fin y => have ha : p = 0 := ha; subst ha; cases hb; exact decide_eq_true_iff
    | zero t => have ha : p = 0 := ha; have hb : q = 0 := hb; subst ha; subst hb; exact ⟨fun _ => le_refl _, fun _ => by rfl⟩
    | _ => exact hb.elim
  | _ => exact ha.elim

/-- **C151.** FLOOR is not above, CEIL not below the number, ROUND is one of them; they are equal exactly for whole numbers, otherwise they differ by one. -/
theorem C151_between (X : Ext) (h10 : X.pow10 0 = .fin 1) (x : F64) (hd : IsDouble x) (q : ℚ) (h : HasValue x q) :
    ∃ lo hi r : F64, ∃ i j k : ℤ, fn X c!"FLOOR" [.num x] = .ok (.num lo) ∧ fn X c!"CEIL" [.num x] = .ok (.num hi) ∧ fn X c!"ROUND" [.num x] = .ok (.num r) ∧
      HasValue lo i ∧ HasValue hi j ∧ HasValue r k ∧
      F64.fle lo x = true ∧ F64.fle x hi = true ∧ F64.fle lo r = true ∧ F64.fle r hi = true ∧
      (k = i ∨ k = j) ∧ (i = j ↔ ∃ n : ℤ, q = n) ∧ (i = j ∨ j = i + 1) := by
  have h1 := F64.floor_value h
  have h2 := F64.ceil_value h
  have h3 := F64.nearest_value h
  have hc := Int.floor_le q
  have hc' := Int.lt_floor_add_one q
  have hd' := Int.le_ceil q
  have hj : ⌈q⌉ = ⌊q⌋ ∨ ⌈q⌉ = ⌊q⌋ + 1 := by
    have a1 := Int.ceil_le_floor_add_one q
    have a2 := Int.floor_le_ceil q
    omega
  have hk : ⌊q⌋ ≤ F64.nearest q ∧ F64.nearest q ≤ ⌈q⌉ := by
    have hs := (F64.nearest_spec q).1
    rw [abs_le] at hs
    constructor
    · have : ((⌊q⌋ : ℤ) : ℚ) < ((F64.nearest q + 1 : ℤ) : ℚ) := by push_cast; linarith
      have : ⌊q⌋ < F64.nearest q + 1 := by exact_mod_cast this
      omega
    · have : ((F64.nearest q : ℤ) : ℚ) < ((⌈q⌉ + 1 : ℤ) : ℚ) := by push_cast; linarith
      have : F64.nearest q < ⌈q⌉ + 1 := by exact_mod_cast this
      omega
  refine ⟨_, _, _, ⌊q⌋, ⌈q⌉, F64.nearest q, fn_floor X x, fn_ceil X x, fn_round X h10 x hd, h1, h2, h3, (fle_values h1 h).2 hc, (fle_values h h2).2 hd',
    (fle_values h1 h3).2 (by exact_mod_cast hk.1), (fle_values h3 h2).2 (by exact_mod_cast hk.2), by omega, ?_, by omega⟩
  constructor
  · intro e
    exact ⟨⌊q⌋, le_antisymm (by rw [e]; exact hd') hc⟩
  · rintro ⟨n, rfl⟩
    rw [Int.floor_intCast, Int.ceil_intCast]

/-- **C151.** Whole numbers cannot be taken out of FLOOR: the sum is rounded before. -/
theorem C151_not_laws (X : Ext) :
    evalVars X (.call c!"FLOOR" [.binary (.number (.fin (1 - 1 / 2 ^ 53))) .add (.number (.fin 1))]) Env.empty = .ok (.num (.fin 2)) ∧
    evalVars X (.binary (.call c!"FLOOR" [.number (.fin (1 - 1 / 2 ^ 53))]) .add (.number (.fin 1))) Env.empty = .ok (.num (.fin 1)) :=
  ⟨by kernel_rfl, by kernel_rfl⟩

/-! Cases: minus five quarters. -/

theorem case_double : IsDouble (.fin (-5 / 4)) := ⟨by norm_num, -5, -2, by norm_num, by norm_num, by norm_num, by norm_num⟩

example (X : Ext) (h10 : X.pow10 0 = .fin 1) : pipe X [c!"ROUND", c!"CEIL"] (.num (.fin (-5 / 4))) = fn X c!"ROUND" [.num (.fin (-5 / 4))] :=
  C151_again X h10 _ case_double _ _ (by decide) (by decide)

example (X : Ext) (h10 : X.pow10 0 = .fin 1) := C151_sign X h10 _ case_double

example (X : Ext) : meth0 X (.num (.fin (-5 / 4))) c!"int" = fn X c!"CEIL" [.num (.fin (-5 / 4))] :=
  (C151_int X _ case_double).2.1 (by decide +kernel)

example (X : Ext) (h10 : X.pow10 0 = .fin 1) := C151_between X h10 _ case_double (-5 / 4) rfl

end RoundLaws
