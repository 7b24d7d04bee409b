import Verif.Props.Loans
import Verif.Props.Powers
import Mathlib.Algebra.BigOperators.Group.Finset.Basic
import Mathlib.Algebra.BigOperators.Intervals
/-! C86: depreciation. -/

open Lib Spec

namespace Spec

/-- The depreciation in year `p` of an asset with a life of `n` years, in exact arithmetic: the formula of `DB`, cut off at zero after the
first year. -/
noncomputable def yearly (cost salvage : ℝ) (n : ℕ) (month : ℝ) (p : ℕ) : ℝ :=
  let d := Fin'.writeOff realArith 12 cost (Fin'.writeOffRate realArith cost salvage n) month (decide (p = 1)) (p - 2)
    (decide (p = n) && decide (month < 12))
  if p = 1 then d else max d 0

/-- What is left of the cost after `p` years. -/
noncomputable def bookValue (cost salvage : ℝ) (n : ℕ) (month : ℝ) (p : ℕ) : ℝ :=
  cost - (Finset.range p).sum fun k => yearly cost salvage n month (k + 1)

end Spec

theorem depreciate_real (r : ℝ) (k : ℕ) (b : ℝ) : Fin'.depreciate realArith r k b = b * (1 - r) ^ k := by
  induction k generalizing b with
  | zero => simp [Fin'.depreciate]
  | succ k ih =>
    rw [Fin'.depreciate, ih]
    simp only [realArith]
    rw [pow_succ]; ring

/-- What remains of one unit after a year. -/
theorem remains {cost salvage : ℝ} {n : ℕ} (hc : 0 < cost) (hs : 0 ≤ salvage) (hsc : salvage ≤ cost) (hn : 0 < n) :
    ∃ g : ℝ, Fin'.writeOffRate realArith cost salvage n = 1 - g ∧ g ^ n = salvage / cost ∧ 0 ≤ g ∧ g ≤ 1 := by
  have h0 : 0 ≤ salvage / cost := div_nonneg hs hc.le
  have h1 : salvage / cost ≤ 1 := (div_le_one hc).2 hsc
  refine ⟨(salvage / cost) ^ (1 / (n : ℝ)), rfl, ?_, Real.rpow_nonneg h0 _, Real.rpow_le_one h0 h1 (by positivity)⟩
  rw [← Real.rpow_natCast, ← Real.rpow_mul h0, one_div, inv_mul_cancel₀ (by exact_mod_cast hn.ne'), Real.rpow_one]

/-- **C86.** With a full first year, the value left after `p` years is the cost times the `n`-th part of the ratio of salvage to cost, `p` times
over: each year takes the same share of what is left. -/
theorem C86_declining_balance (cost salvage : ℝ) (n p : ℕ) (hc : 0 < cost) (hs : 0 ≤ salvage) (hsc : salvage ≤ cost) (hn : 0 < n) :
    bookValue cost salvage n 12 p = cost * ((salvage / cost) ^ (1 / (n : ℝ))) ^ p := by
  obtain ⟨g, hg, -, h0, h1⟩ := remains hc hs hsc hn
  have hg' : (salvage / cost) ^ (1 / (n : ℝ)) = g := by
    have : Fin'.writeOffRate realArith cost salvage n = 1 - (salvage / cost) ^ (1 / (n : ℝ)) := rfl
    linarith
  rw [hg']
  have hy : ∀ k, yearly cost salvage n 12 (k + 1) = cost * g ^ k * (1 - g) := by
    intro k
    unfold yearly Fin'.writeOff
    rw [hg]
    have h12 : ¬ ((12 : ℝ) < 12) := by norm_num
    simp only [depreciate_real, h12, decide_false, Bool.and_false, Bool.false_eq_true, if_false]
    cases k with
    | zero => simp [realArith]
    | succ k =>
      have : ¬ (k + 1 + 1 = 1) := by omega
      simp only [this, decide_false, Bool.false_eq_true, if_false, realArith]
      rw [show k + 1 + 1 - 2 = k by omega]
      have e : (cost - cost * (1 - g) * 12 / 12) * (1 - (1 - g)) ^ k * (1 - g) = cost * g ^ (k + 1) * (1 - g) := by
        rw [show (1 : ℝ) - (1 - g) = g by ring, pow_succ]; ring
      rw [e, max_eq_left]
      have := pow_nonneg h0 (k + 1)
      have : 0 ≤ 1 - g := by linarith
      positivity
  unfold bookValue
  simp only [hy]
  induction p with
  | zero => simp
  | succ p ih => rw [Finset.sum_range_succ, ← sub_sub, ih, pow_succ]; ring

/-- **C86.** Over the whole life it goes from the cost to the salvage value exactly. -/
theorem C86_whole_life (cost salvage : ℝ) (n : ℕ) (hc : 0 < cost) (hs : 0 ≤ salvage) (hsc : salvage ≤ cost) (hn : 0 < n) :
    bookValue cost salvage n 12 n = salvage := by
  obtain ⟨g, hg, hp, h0, h1⟩ := remains hc hs hsc hn
  have hg' : (salvage / cost) ^ (1 / (n : ℝ)) = g := by
    have : Fin'.writeOffRate realArith cost salvage n = 1 - (salvage / cost) ^ (1 / (n : ℝ)) := rfl
    linarith
  rw [C86_declining_balance cost salvage n n hc hs hsc hn, hg', hp]
  field_simp

/-- **C86** is false when the first year is not a full one: the last year of the life is cut short as well, instead of adding one
more year, and more than the salvage value is left. -/
theorem C86_partial_first_year_falls_short (cost salvage month : ℝ) (n : ℕ) (hs : 0 < salvage) (hsc : salvage < cost) (hn : 0 < n)
    (hm : 0 ≤ month) (hm' : month < 12) : salvage < bookValue cost salvage n month n := by
  have hc : 0 < cost := hs.trans hsc
  obtain ⟨g, hg, hp, h0, h1⟩ := remains hc hs.le hsc.le hn
  have hgp : 0 < g := by
    rcases h0.lt_or_eq with h | h
    · exact h
    · rw [← h, zero_pow hn.ne'] at hp
      have := div_pos hs hc
      linarith
  have hg1 : g < 1 := by
    rcases h1.lt_or_eq with h | h
    · exact h
    · rw [h, one_pow] at hp
      have := (div_lt_one hc).2 hsc
      linarith
  have hsal : salvage = cost * g ^ n := by rw [hp]; field_simp
  obtain ⟨a, rfl⟩ : ∃ a, month = 12 * a := ⟨month / 12, by ring⟩
  have ha : 0 ≤ a := by linarith
  have ha' : a < 1 := by linarith
  have first : yearly cost salvage n (12 * a) 1 = cost * (1 - g) * a := by
    unfold yearly Fin'.writeOff
    rw [hg]
    simp only [decide_true, if_true, realArith]
    ring
  -- the years in between
  have book : ∀ k, k + 1 < n → bookValue cost salvage n (12 * a) (k + 1) = cost * (1 - (1 - g) * a) * g ^ k := by
    intro k hk
    induction k with
    | zero => unfold bookValue; rw [Finset.sum_range_one, first]; ring
    | succ k ih =>
      have ih := ih (by omega)
      unfold bookValue at ih ⊢
      rw [Finset.sum_range_succ, ← sub_sub, ih]
      have : yearly cost salvage n (12 * a) (k + 1 + 1) = cost * (1 - (1 - g) * a) * g ^ k * (1 - g) := by
        unfold yearly Fin'.writeOff
        rw [hg]
        have h1 : ¬ (k + 1 + 1 = 1) := by omega
        have h2 : ¬ (k + 1 + 1 = n) := by omega
        simp only [h1, h2, decide_false, Bool.false_and, Bool.false_eq_true, if_false, depreciate_real]
        simp only [realArith]
        rw [show k + 1 + 1 - 2 = k by omega, show (1 : ℝ) - (1 - g) = g by ring,
          show (cost - cost * (1 - g) * (12 * a) / 12) * g ^ k * (1 - g) = cost * (1 - (1 - g) * a) * g ^ k * (1 - g) by ring, max_eq_left]
        have e1 : 0 ≤ 1 - (1 - g) * a := by nlinarith
        have e2 : 0 ≤ 1 - g := by linarith
        positivity
      rw [this, pow_succ]; ring
  rcases Nat.lt_or_ge 1 n with h2 | h2
  · obtain ⟨k, rfl⟩ : ∃ k, n = k + 2 := ⟨n - 2, by omega⟩
    have hb := book k (by omega)
    unfold bookValue at hb ⊢
    rw [Finset.sum_range_succ, ← sub_sub, hb]
    have e1 : 0 < 1 - (1 - g) * a := by nlinarith
    have e2 : 0 < 1 - g := by linarith
    have last : yearly cost salvage (k + 2) (12 * a) (k + 1 + 1) = cost * (1 - (1 - g) * a) * g ^ k * (1 - g) * (1 - a) := by
      unfold yearly Fin'.writeOff
      rw [hg]
      have h1 : ¬ (k + 1 + 1 = 1) := by omega
      simp only [h1, hm', decide_false, decide_true, Bool.true_and, Bool.false_eq_true, if_false, if_true, depreciate_real]
      simp only [realArith]
      rw [show k + 1 + 1 - 2 = k by omega, show (1 : ℝ) - (1 - g) = g by ring,
        show (cost - cost * (1 - g) * (12 * a) / 12) * g ^ k * (1 - g) * (12 - 12 * a) / 12 = cost * (1 - (1 - g) * a) * g ^ k * (1 - g) * (1 - a) by ring,
        max_eq_left]
      have e3 : 0 ≤ 1 - a := by linarith
      positivity
    rw [last, hsal]
    have hgk : 0 < g ^ k := pow_pos hgp k
    have key : g ^ 2 < (1 - (1 - g) * a) * (1 - (1 - g) * (1 - a)) := by
      have : (1 - (1 - g) * a) * (1 - (1 - g) * (1 - a)) = g + (1 - g) ^ 2 * (a * (1 - a)) := by ring
      rw [this]
      have h3 : 0 ≤ (1 - g) ^ 2 * (a * (1 - a)) := mul_nonneg (sq_nonneg _) (mul_nonneg ha (by linarith))
      nlinarith
    have : cost * g ^ (k + 2) < cost * g ^ k * ((1 - (1 - g) * a) * (1 - (1 - g) * (1 - a))) := by
      rw [pow_add]
      have : 0 < cost * g ^ k := mul_pos hc hgk
      nlinarith
    calc cost * g ^ (k + 2) < _ := this
      _ = _ := by ring
  · have : n = 1 := by omega
    subst this
    unfold bookValue
    rw [Finset.sum_range_one, first, hsal, pow_one]
    have : 0 < cost * ((1 - g) * (1 - a)) := mul_pos hc (mul_pos (by linarith) (by linarith))
    nlinarith

example : (0 : ℝ) < 1000 ∧ (0 : ℝ) ≤ 100 ∧ (100 : ℝ) ≤ 1000 ∧ (6 : ℝ) < 12 := by norm_num

/-! The function in floating point. -/

/-- **C86.** `DB` computes the formula `writeOff`, which the theorems above are about in exact arithmetic; it is zero after the life of the
asset, and negative costs, salvage values or periods, and lives that are not positive, are refused. -/
theorem C86_formula (X : Ext) (cost salvage life period month : F64) :
    fn X c!"DB" [.num cost, .num salvage, .num life, .num period, .num month] =
      (if F64.flt cost (.zero false) = true ∨ F64.flt salvage (.zero false) = true ∨ F64.fle life (.zero false) = true ∨ F64.flt period (.zero false) = true then
        fail "DB arguments must be non-negative (life must be positive)"
      else if F64.flt life period = true then .ok (.num (.zero false))
      else
        let d := Fin'.writeOff (Fin'.f64Arith X) (.fin 12) cost (Fin'.writeOffRate (Fin'.f64Arith X) cost salvage life) month (F64.feq period (.fin 1))
          (period.toI32 - 2).toNat (period.toI32 == life.toI32 && F64.flt month (.fin 12))
        .ok (.num (if F64.feq period (.fin 1) = true then d else F64.fmax d (.zero false)))) ∧
    fn X c!"DB" [.num cost, .num salvage, .num life, .num period] = fn X c!"DB" [.num cost, .num salvage, .num life, .num period, .num (.fin 12)] := by
  rw [fn_eq X _ _ (by decide), fn_eq X _ _ (by decide)]
  rw [show ∀ vs, execFast X c!"DB" vs = Fin'.db X vs from fun _ => rfl]
  constructor
  · simp only [Fin'.db, Fin'.need, Fin'.opt, argAt, Value.asNumber, bind, Except.bind, pure, Except.pure]
    simp only [List.length_cons, List.length_nil, List.getElem?_cons_zero, List.getElem?_cons_succ, Option.getD_some,
      Bool.or_eq_true, or_assoc, Fin'.zero, Fin'.one, F64.fgt]
    rfl
  · rfl

/-- **C86.** After the first year the depreciation is a number and not negative. -/
theorem C86_not_negative (X : Ext) (cost salvage life period month x : F64) (hp : F64.feq period (.fin 1) = false)
    (h : fn X c!"DB" [.num cost, .num salvage, .num life, .num period, .num month] = .ok (.num x)) : F64.fle (.zero false) x = true := by
  rw [(C86_formula X cost salvage life period month).1] at h
  split at h
  · cases h
  · split at h
    · cases h; rfl
    · simp only [hp, Bool.false_eq_true, if_false, Except.ok.injEq, Value.num.injEq] at h
      generalize Fin'.writeOff _ _ _ _ _ _ _ _ = d at h
      subst h
      cases d with
      | nan => rfl
      | inf s => cases s <;> rfl
      | zero s => cases s <;> rfl
      | fin q =>
        by_cases hq : q < 0
        · have : F64.fmax (.fin q) (.zero false) = .zero false := by simp [F64.fmax, F64.flt, F64.toRat, hq]
          rw [this]; rfl
        · have : F64.fmax (.fin q) (.zero false) = .fin q := by simp [F64.fmax, F64.flt, F64.toRat, hq]
          rw [this]
          exact (nonNeg_fin.2 (not_lt.1 hq)).resolve_left (by simp)

/-- In the first year it can be: a salvage value above the cost. -/
theorem C86_first_year_negative (X : Ext) (h : X.powf (.fin 2) (.fin 1) = .fin 2) :
    fn X c!"DB" [.num (.fin 100), .num (.fin 200), .num (.fin 1), .num (.fin 1)] = .ok (.num (.fin (-100))) := by
  rw [(C86_formula X _ _ _ _ (.fin 12)).2, (C86_formula X _ _ _ _ _).1]
  have e1 : F64.div (.fin 200) (.fin 100) = .fin 2 := by decide +kernel
  have e2 : F64.div Fin'.one (.fin 1) = .fin 1 := by decide +kernel
  have hr : Fin'.writeOffRate (Fin'.f64Arith X) (.fin 100) (.fin 200) (.fin 1) = .fin (-1) := by
    change F64.sub Fin'.one (X.powf (F64.div (.fin 200) (.fin 100)) (F64.div Fin'.one (.fin 1))) = _
    rw [e1, e2, h]; decide +kernel
  rw [hr]
  refine (?_ : _ = _)
  kernel_rfl

/-- Year zero, and every fraction of the first two years other than exactly 1, is taken for the second year. -/
theorem C86_year_zero_is_year_two (X : Ext) (cost salvage life month : F64) (hl : F64.fle (.fin 2) life = true) (hl2 : life.toI32 ≠ 2) :
    fn X c!"DB" [.num cost, .num salvage, .num life, .num (.zero false), .num month] = fn X c!"DB" [.num cost, .num salvage, .num life, .num (.fin 2), .num month] := by
  rw [(C86_formula X _ _ _ _ _).1, (C86_formula X _ _ _ _ _).1]
  have hn : life ≠ .nan := by rintro rfl; simp [F64.fle] at hl
  have h2 : F64.flt life (.fin 2) = false := (F64.not_flt hn (by simp)).2 hl
  have h0 : F64.flt life (.zero false) = false := by
    refine (F64.not_flt hn (by simp)).2 (F64.fle_trans (b := .fin 2) (by decide +kernel) hl)
  have t2 : (F64.fin 2).toI32 = 2 := by decide +kernel
  have t0 : (F64.zero false).toI32 = 0 := by decide +kernel
  have tl : life.toI32 ≠ 0 := by
    cases life with
    | nan => exact absurd rfl hn
    | inf s => cases s
               · decide +kernel
               · simp [F64.fle] at hl
    | zero s => exact absurd hl (by cases s <;> decide +kernel)
    | fin q =>
      have hq : (2 : ℚ) ≤ q := of_decide_eq_true hl
      have hf : 2 ≤ F64.truncRat q := by
        unfold F64.truncRat
        rw [if_pos (by linarith)]
        exact Rat.le_floor_iff.2 (by exact_mod_cast hq)
      unfold F64.toI32 F64.toIntSat
      simp only [F64.i32Min, F64.i32Max]
      omega
  have b2 : ((2 : ℤ) == life.toI32) = false := by simpa using Ne.symm hl2
  have b0 : ((0 : ℤ) == life.toI32) = false := by simpa using Ne.symm tl
  have f0 : F64.feq (.zero false) (.fin 1) = false := by decide +kernel
  have f2 : F64.feq (.fin 2) (.fin 1) = false := by decide +kernel
  have z0 : F64.flt (.zero false) (.zero false) = false := rfl
  have z2 : F64.flt (.fin 2) (.zero false) = false := by decide +kernel
  simp only [h2, h0, t2, t0, b2, b0, f0, f2, z0, z2, Bool.false_and]
  rfl

example : F64.fle (.fin 2) (.fin 5) = true ∧ (F64.fin 5).toI32 ≠ 2 := by decide +kernel
example : F64.feq (.fin 3) (.fin 1) = false := by decide +kernel
/-- An asset of cost 1000 without salvage value: all of it in the first year, nothing in the second. -/
example (X : Ext) (h : X.powf (.zero false) (F64.div (.fin 1) (.fin 5)) = .zero false) :
    fn X c!"DB" [.num (.fin 1000), .num (.zero false), .num (.fin 5), .num (.fin 1)] = .ok (.num (.fin 1000)) := by
  rw [(C86_formula X _ _ _ _ (.fin 12)).2, (C86_formula X _ _ _ _ _).1]
  have e1 : F64.div (.zero false) (.fin 1000) = .zero false := by decide +kernel
  have hr : Fin'.writeOffRate (Fin'.f64Arith X) (.fin 1000) (.zero false) (.fin 5) = .fin 1 := by
    change F64.sub Fin'.one (X.powf (F64.div (.zero false) (.fin 1000)) (F64.div (.fin 1) (.fin 5))) = _
    rw [e1, h]; decide +kernel
  rw [hr]
  refine (?_ : _ = _)
  kernel_rfl
