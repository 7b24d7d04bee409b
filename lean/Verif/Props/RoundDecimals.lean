import Verif.Props.Monotone
/-! C74, `ROUND` to a positive number of decimals. -/

open Lib Spec

namespace Spec

/-- The number of decimals that `d` stands for is `t`, which is at most 22, and the power of ten is what it should be: up to 22 it is a double. -/
def Decimals (X : Ext) (d : F64) (t : ℕ) : Prop := TruncatesTo d t ∧ t ≤ 22 ∧ HasValue (X.pow10 t) (10 ^ t)

end Spec

theorem round_fn_eq (X : Ext) (x d : F64) (t : ℕ) (h : Decimals X d t) :
    fn X c!"ROUND" [.num x, .num d] = .ok (.num (F64.div (F64.mul x (X.pow10 t)).roundHalfAway (X.pow10 t))) := by
  obtain ⟨hdt, ht, -⟩ := h
  have hp : d.toI32 = t := by
    cases d with
    | nan => exact hdt.elim
    | inf s => exact hdt.elim
    | zero s => have : (t : ℤ) = 0 := hdt; rw [this]; rfl
    | fin p =>
      have := isTrunc_unique hdt
      simp only [F64.toI32, F64.toIntSat, this, F64.i32Min, F64.i32Max]
      split <;> [omega; split <;> omega]
  rw [fn_eq X _ _ (by decide)]
  show Except.ok (Value.num (F64.div (F64.mul x (X.pow10 (max d.toI32 0))).roundHalfAway (X.pow10 (max d.toI32 0)))) = _
  rw [hp, max_eq_left (by omega)]

/-- A product that is rounded to a finite double is near its value, or next to zero. -/
theorem F64.product_near {p v : ℚ} {z : F64} (h : RoundsTo p z) (hv : HasValue z v) : |v - p| ≤ |p| * (1 / 2 ^ 53) ∨ |p| < 1 / 8 ∧ |v| < 1 / 4 := by
  by_cases hs : (2 : ℚ) ^ (-1022 : ℤ) ≤ |p|
  · left
    have h0 : p ≠ 0 := by
      intro h0; rw [h0, abs_zero] at hs; exact absurd hs (not_le.2 (F64.pow2_pos _))
    have h' := h
    unfold RoundsTo at h
    rw [if_neg h0] at h
    cases z with
    | fin w => have hv : w = v := hv; subst hv; exact F64.rounded_close h hs
    | zero s =>
      exfalso
      have hv : v = 0 := hv
      subst hv
      obtain ⟨hz, -⟩ := h
      have hw : IsBin64 (2 ^ (-1022 : ℤ)) := ⟨1, -1022, by norm_num, by norm_num, by norm_num, by norm_num⟩
      have hpos := F64.pow2_pos (-1022)
      rcases abs_cases p with ⟨hc, -⟩ | ⟨hc, -⟩
      · have := hz _ hw
        rw [hc] at this hs
        rw [abs_of_nonneg (by linarith)] at this
        linarith
      · have := hz _ (F64.isBin64_neg hw)
        rw [hc] at this hs
        rw [abs_of_nonpos (by linarith)] at this
        linarith
    | nan => exact hv.elim
    | inf _ => exact hv.elim
  · right
    have hsm : (2 : ℚ) ^ (-1022 : ℤ) ≤ 1 / 8 := by
      rw [show (1 / 8 : ℚ) = 2 ^ (-3 : ℤ) by norm_num]
      exact zpow_le_zpow_right₀ (by norm_num) (by norm_num)
    have hp : |p| < 1 / 8 := lt_of_lt_of_le (not_le.1 hs) hsm
    refine ⟨hp, ?_⟩
    have h1 := (F64.roundsTo_near h hv).2 0 ⟨0, 0, by norm_num⟩
    rw [sub_zero] at h1
    have h2 : |v| ≤ |p - v| + |p| := by
      have := abs_add_le (v - p) p
      rw [sub_add_cancel, abs_sub_comm] at this
      exact this
    linarith

theorem F64.roundsTo_below {p : ℚ} {z : F64} (h : RoundsTo p z) (hb : |p| < 2 ^ 1024 - 2 ^ 970) : ∃ v, HasValue z v := by
  apply F64.value_of_finite
  cases z with
  | nan => exact absurd rfl (F64.roundsTo_not_nan h)
  | inf s => exact absurd (F64.roundsTo_inf h).1 (not_le.2 hb)
  | zero s => rfl
  | fin q => rfl

theorem F64.nearest_close (q : ℚ) : |q - F64.nearest q| ≤ 1 / 2 := (F64.nearest_spec q).1

theorem F64.nearest_small {q : ℚ} (h : |q| < 1 / 2) : F64.nearest q = 0 := by
  have h1 := F64.nearest_close q
  have h2 : |(F64.nearest q : ℚ)| < 1 := by
    have := abs_add_le ((F64.nearest q : ℚ) - q) q
    rw [sub_add_cancel, abs_sub_comm] at this
    linarith
  have h3 : |F64.nearest q| < 1 := by exact_mod_cast h2
  exact Int.abs_lt_one_iff.1 h3

/-- C74. `ROUND(x, d)` with up to 22 decimals is the double nearest to a number `k/10^d`, where the integer `k` is within a half of `x·10^d`, up to one part in `2^53` of it: what rounding
that product can do. -/
theorem C74_round_decimals (X : Ext) (x d : F64) (t : ℕ) (ht : Decimals X d t) (q : ℚ) (hq : HasValue x q) (hb : |q * 10 ^ t| < 2 ^ 1024 - 2 ^ 970) :
    ∃ r k, fn X c!"ROUND" [.num x, .num d] = .ok (.num r) ∧ RoundsTo ((k : ℤ) / 10 ^ t) r ∧ |k - q * 10 ^ t| ≤ 1 / 2 + |q * 10 ^ t| * (1 / 2 ^ 53) := by
  have hten : (10 : ℚ) ^ t ≠ 0 := by positivity
  have hm := F64.mul_roundsTo hq ht.2.2
  obtain ⟨v, hv⟩ := F64.roundsTo_below hm hb
  refine ⟨_, F64.nearest v, round_fn_eq X x d t ht, F64.div_roundsTo (F64.nearest_value hv) ht.2.2 hten, ?_⟩
  generalize q * 10 ^ t = p at *
  have hnn : 0 ≤ |p| * (1 / 2 ^ 53) := mul_nonneg (abs_nonneg _) (by norm_num)
  rcases F64.product_near hm hv with h | ⟨h1, h2⟩
  · have h3 := F64.nearest_close v
    have h4 : |(F64.nearest v : ℚ) - p| ≤ |(F64.nearest v : ℚ) - v| + |v - p| := by
      have := abs_add_le ((F64.nearest v : ℚ) - v) (v - p)
      rwa [sub_add_sub_cancel] at this
    rw [abs_sub_comm] at h3
    linarith
  · rw [F64.nearest_small (by linarith)]
    rw [Int.cast_zero, zero_sub, abs_neg]
    linarith

theorem F64.int_eq_of_close {k m : ℤ} (h : |(k : ℚ) - m| < 1) : k = m := by
  have : |k - m| < 1 := by exact_mod_cast h
  have := Int.abs_lt_one_iff.1 this
  omega

/-- C74. A number that is the double nearest to a decimal with that many places, of up to 15 digits, is not changed by `ROUND`. -/
theorem C74_round_fixes_decimals (X : Ext) (x d : F64) (t : ℕ) (ht : Decimals X d t) (m : ℤ) (hm : |m| ≤ 2 ^ 50) (hx : RoundsTo ((m : ℚ) / 10 ^ t) x) :
    fn X c!"ROUND" [.num x, .num d] = .ok (.num x) := by
  have hten : (10 : ℚ) ^ t ≠ 0 := by positivity
  have hten1 : (1 : ℚ) ≤ 10 ^ t := one_le_pow₀ (by norm_num)
  have ht22 : (10 : ℚ) ^ t ≤ 10 ^ 22 := pow_le_pow_right₀ (by norm_num) ht.2.1
  have hm' : |(m : ℚ)| ≤ 2 ^ 50 := by exact_mod_cast hm
  rw [round_fn_eq X x d t ht]
  by_cases h0 : m = 0
  · subst h0
    unfold RoundsTo at hx
    rw [if_pos (by simp)] at hx
    obtain ⟨s, rfl⟩ := hx
    obtain ⟨-, -, hp⟩ := ht
    generalize X.pow10 t = f at *
    cases f with
    | nan => exact hp.elim
    | inf _ => exact hp.elim
    | zero _ => exact absurd hp hten
    | fin w =>
      have hw : w = 10 ^ t := hp
      have hs : decide (w < 0) = false := by rw [hw]; simp
      simp [F64.mul, F64.div, F64.roundHalfAway, F64.signBit, hs]
  · have hm1 : (1 : ℚ) ≤ |(m : ℚ)| := by
      have : 1 ≤ |m| := Int.one_le_abs h0
      exact_mod_cast this
    have hbig : (2 : ℚ) ^ 60 < 2 ^ 1024 - 2 ^ 970 := by decide +kernel
    have hxp : |(m : ℚ) / 10 ^ t| ≤ 2 ^ 50 := by
      rw [abs_div, abs_of_pos (by positivity : (0 : ℚ) < 10 ^ t)]
      exact (div_le_self (abs_nonneg _) hten1).trans hm'
    obtain ⟨q, hq⟩ := F64.roundsTo_below hx (by
      refine lt_of_le_of_lt hxp (lt_trans ?_ hbig); norm_num)
    have hclose : |q - m / 10 ^ t| ≤ |(m : ℚ) / 10 ^ t| * (1 / 2 ^ 53) := by
      have hne : (m : ℚ) / 10 ^ t ≠ 0 := div_ne_zero (by exact_mod_cast h0) hten
      have hlow : (2 : ℚ) ^ (-1022 : ℤ) ≤ |(m : ℚ) / 10 ^ t| := by
        rw [abs_div, abs_of_pos (by positivity : (0 : ℚ) < 10 ^ t), le_div_iff₀ (by positivity)]
        have h1 : (2 : ℚ) ^ (-1022 : ℤ) ≤ 2 ^ (-80 : ℤ) := zpow_le_zpow_right₀ (by norm_num) (by norm_num)
        have h2 : (2 : ℚ) ^ (-80 : ℤ) * 10 ^ 22 ≤ 1 := by norm_num
        calc (2 : ℚ) ^ (-1022 : ℤ) * 10 ^ t ≤ 2 ^ (-80 : ℤ) * 10 ^ 22 := by
              exact mul_le_mul h1 ht22 (by positivity) (by positivity)
          _ ≤ 1 := h2
          _ ≤ _ := hm1
      have hx' := hx
      unfold RoundsTo at hx
      rw [if_neg hne] at hx
      cases x with
      | fin w => have hq : w = q := hq; subst hq; exact F64.rounded_close hx hlow
      | nan => exact hq.elim
      | inf _ => exact hq.elim
      | zero s =>
        exfalso
        rcases F64.product_near hx' hq with h | ⟨h, -⟩
        · have hq : q = 0 := hq
          subst hq
          rw [zero_sub, abs_neg] at h
          have hpos : 0 < |(m : ℚ) / 10 ^ t| := abs_pos.2 hne
          linarith
        · have hw : IsBin64 (2 ^ (-1022 : ℤ)) := ⟨1, -1022, by norm_num, by norm_num, by norm_num, by norm_num⟩
          have hpos := F64.pow2_pos (-1022)
          obtain ⟨hz, -⟩ := hx
          rcases abs_cases ((m : ℚ) / 10 ^ t) with ⟨hc, -⟩ | ⟨hc, -⟩
          · have := hz _ hw
            rw [hc] at this hlow
            rw [abs_of_nonneg (by linarith)] at this
            linarith
          · have := hz _ (F64.isBin64_neg hw)
            rw [hc] at this hlow
            rw [abs_of_nonpos (by linarith)] at this
            linarith
    have hscaled : |q * 10 ^ t - m| ≤ |(m : ℚ)| * (1 / 2 ^ 53) := by
      have e1 : q * 10 ^ t - m = (q - m / 10 ^ t) * 10 ^ t := by field_simp
      have e2 : |(m : ℚ)| * (1 / 2 ^ 53) = |(m : ℚ) / 10 ^ t| * (1 / 2 ^ 53) * 10 ^ t := by
        rw [abs_div, abs_of_pos (by positivity : (0 : ℚ) < 10 ^ t)]; field_simp
      rw [e1, e2, abs_mul, abs_of_pos (by positivity : (0 : ℚ) < 10 ^ t)]
      exact mul_le_mul_of_nonneg_right hclose (by positivity)
    have hsz : |q * 10 ^ t| ≤ 2 ^ 51 := by
      have := abs_add_le (q * 10 ^ t - m) m
      rw [sub_add_cancel] at this
      generalize q * 10 ^ t = p at *
      norm_num at hscaled hm' ⊢
      linarith
    obtain ⟨v, hv⟩ := F64.roundsTo_below (F64.mul_roundsTo hq ht.2.2) (by
      refine lt_of_le_of_lt hsz (lt_trans ?_ hbig); norm_num)
    have hk : F64.nearest v = m := by
      rcases F64.product_near (F64.mul_roundsTo hq ht.2.2) hv with h | ⟨h1, h2⟩
      · apply F64.int_eq_of_close
        generalize q * 10 ^ t = p at *
        have h3 := F64.nearest_close v
        rw [abs_sub_comm] at h3
        have a1 := abs_add_le ((F64.nearest v : ℚ) - v) (v - p)
        rw [sub_add_sub_cancel] at a1
        have a2 := abs_add_le ((F64.nearest v : ℚ) - p) (p - m)
        rw [sub_add_sub_cancel] at a2
        generalize (F64.nearest v : ℚ) = n at *
        norm_num at hscaled hm' h hsz ⊢
        linarith
      · exfalso
        generalize q * 10 ^ t = p at *
        have := abs_add_le (m - p) p
        rw [sub_add_cancel, abs_sub_comm] at this
        norm_num at hscaled hm'
        linarith
    have hn := F64.nearest_value hv
    rw [hk] at hn
    have := F64.div_roundsTo hn ht.2.2 hten
    rw [C97_rounds_unique _ _ _ this hx (div_ne_zero (by exact_mod_cast h0) hten)]

/-- C74. So rounding again to the same number of decimals changes nothing. -/
theorem C74_round_idempotent (X : Ext) (x d r : F64) (t : ℕ) (ht : Decimals X d t) (q : ℚ) (hq : HasValue x q) (hb : |q * 10 ^ t| ≤ 2 ^ 49)
    (h : fn X c!"ROUND" [.num x, .num d] = .ok (.num r)) : fn X c!"ROUND" [.num r, .num d] = .ok (.num r) := by
  have hbig : (2 : ℚ) ^ 49 < 2 ^ 1024 - 2 ^ 970 := by decide +kernel
  obtain ⟨r', k, h1, h2, h3⟩ := C74_round_decimals X x d t ht q hq (lt_of_le_of_lt hb hbig)
  rw [h] at h1
  cases h1
  refine C74_round_fixes_decimals X r d t ht k ?_ h2
  generalize q * 10 ^ t = p at *
  have : |(k : ℚ)| ≤ 2 ^ 50 := by
    have := abs_add_le (k - p) p
    rw [sub_add_cancel] at this
    norm_num at h3 hb ⊢
    linarith
  exact_mod_cast this

/-- The double nearest to 2.675, which is below it. -/
def Spec.halfway : F64 := .fin (3011782250804019 / 1125899906842624)

/-- C74. That allowance is needed: 2.675 as a double is less than 2.675, and yet rounds to 2.68, though 2.67 is nearer to it. -/
theorem C74_round_not_nearest (X : Ext) (h10 : X.pow10 2 = .fin 100) :
    fn X c!"ROUND" [.num halfway, .num (.fin 2)] = .ok (.num (F64.round (268 / 100))) ∧ IsDouble halfway ∧
    |(3011782250804019 / 1125899906842624 : ℚ) - 267 / 100| < |(3011782250804019 / 1125899906842624 : ℚ) - 268 / 100| := by
  refine ⟨?_, ⟨by norm_num, 3011782250804019, -50, by norm_num, by norm_num, by norm_num, by norm_num⟩, ?_⟩
  · rw [show fn X c!"ROUND" [.num halfway, .num (.fin 2)] = .ok (.num (F64.div (F64.mul halfway (X.pow10 2)).roundHalfAway (X.pow10 2))) by kernel_rfl, h10]
    kernel_rfl
  · rw [abs_of_pos (by norm_num), abs_of_neg (by norm_num)]; norm_num

theorem F64.nearest_mono {a b : ℚ} (h : a ≤ b) : F64.nearest a ≤ F64.nearest b := by
  unfold F64.nearest
  by_cases ha : a < 0
  · rw [if_pos ha]
    by_cases hb : b < 0
    · rw [if_pos hb]
      have : ⌊-b + 1 / 2⌋ ≤ ⌊-a + 1 / 2⌋ := Int.floor_le_floor (by linarith)
      exact neg_le_neg this
    · rw [if_neg hb]
      have h1 : (0 : ℤ) ≤ ⌊-a + 1 / 2⌋ := Int.floor_nonneg.2 (by linarith)
      have h2 : (0 : ℤ) ≤ ⌊b + 1 / 2⌋ := Int.floor_nonneg.2 (by linarith)
      exact (neg_nonpos.2 h1).trans h2
  · rw [if_neg ha, if_neg (fun hb => ha (lt_of_le_of_lt h hb))]
    have : ⌊a + 1 / 2⌋ ≤ ⌊b + 1 / 2⌋ := Int.floor_le_floor (by linarith)
    exact this

/-- A function that keeps what is not a finite number, and whose values on finite numbers respect the order, respects the order. -/
theorem F64.lift_mono (f : F64 → F64) (g : ℚ → ℤ) (hi : ∀ s, f (.inf s) = .inf s) (hf : ∀ x q, HasValue x q → HasValue (f x) (g q))
    (hg : ∀ a b, a ≤ b → g a ≤ g b) {x y : F64} (h : AtMost x y) : AtMost (f x) (f y) := by
  have hnn : ∀ z, z ≠ .nan → f z ≠ .nan := by
    intro z hz e
    cases z with
    | nan => exact hz rfl
    | inf s => rw [hi] at e; cases e
    | zero s => have := hf (.zero s) 0 rfl; rw [e] at this; exact this
    | fin q => have := hf (.fin q) q rfl; rw [e] at this; exact this
  refine ⟨hnn _ h.1, hnn _ h.2.1, ?_⟩
  rcases h.2.2 with rfl | rfl | ⟨p, q, hp, hq, hpq⟩
  · exact .inl (hi true)
  · exact .inr (.inl (hi false))
  · exact .inr (.inr ⟨_, _, hf _ _ hp, hf _ _ hq, by exact_mod_cast hg _ _ hpq⟩)

/-- C100. `FLOOR`, `CEIL`, and `ROUND` to any number of decimals up to 22, respect the order. -/
theorem C100_rounding (X : Ext) (x y : F64) (h : LeTrue X x y) :
    (∃ a b, fn X c!"FLOOR" [.num x] = .ok (.num a) ∧ fn X c!"FLOOR" [.num y] = .ok (.num b) ∧ LeTrue X a b) ∧
    (∃ a b, fn X c!"CEIL" [.num x] = .ok (.num a) ∧ fn X c!"CEIL" [.num y] = .ok (.num b) ∧ LeTrue X a b) ∧
    ∀ d t, Decimals X d t → ∃ a b, fn X c!"ROUND" [.num x, .num d] = .ok (.num a) ∧ fn X c!"ROUND" [.num y, .num d] = .ok (.num b) ∧ LeTrue X a b := by
  simp only [leTrue_iff] at *
  refine ⟨⟨x.floor, y.floor, ?_, ?_, ?_⟩, ⟨x.ceil, y.ceil, ?_, ?_, ?_⟩, ?_⟩
  · rw [fn_eq X _ _ (by decide)]; rfl
  · rw [fn_eq X _ _ (by decide)]; rfl
  · exact F64.lift_mono F64.floor (fun q => ⌊q⌋) (fun _ => rfl) (fun _ _ h => F64.floor_value h) (fun _ _ h => Int.floor_le_floor h) h
  · rw [fn_eq X _ _ (by decide)]; rfl
  · rw [fn_eq X _ _ (by decide)]; rfl
  · exact F64.lift_mono F64.ceil (fun q => ⌈q⌉) (fun _ => rfl) (fun _ _ h => F64.ceil_value h) (fun _ _ h => Int.ceil_le_ceil h) h
  · intro d t ht
    refine ⟨_, _, round_fn_eq X x d t ht, round_fn_eq X y d t ht, ?_⟩
    have hten : (0 : ℚ) < 10 ^ t := by positivity
    have hp := ht.2.2
    have hpos : AtMost (.zero false) (X.pow10 t) := ⟨by simp, by intro e; rw [e] at hp; exact hp, .inr (.inr ⟨0, _, rfl, hp, hten.le⟩)⟩
    have hnn : ∀ z : F64, z ≠ .nan → F64.mul z (X.pow10 t) ≠ .nan := by
      intro z hz
      cases z with
      | nan => exact absurd rfl hz
      | inf s =>
        generalize X.pow10 t = f at *
        cases f with
        | nan => exact hp.elim
        | inf _ => exact hp.elim
        | zero _ => have hp : (10 : ℚ) ^ t = 0 := hp; rw [hp] at hten; exact absurd hten (lt_irrefl _)
        | fin w => simp [F64.mul]
      | zero s => exact F64.roundsTo_not_nan (F64.mul_roundsTo (x := .zero s) rfl hp)
      | fin q => exact F64.roundsTo_not_nan (F64.mul_roundsTo (x := .fin q) rfl hp)
    refine F64.div_mono ?_ hp hten
    exact F64.lift_mono F64.roundHalfAway F64.nearest (fun _ => rfl) (fun _ _ h => F64.nearest_value h) (fun _ _ h => F64.nearest_mono h)
      (F64.mul_mono h hpos (hnn _ h.1) (hnn _ h.2.1))

/-- Cases: the numbers 2 and 0 for `d`; 1234.5 and a number with two decimals, 0.1. -/
example (X : Ext) (h10 : X.pow10 2 = .fin 100) : Decimals X (.fin 2) 2 ∧ HasValue (.fin (2469 / 2)) (2469 / 2) ∧ |(2469 / 2 : ℚ) * 10 ^ 2| ≤ 2 ^ 49 ∧
    RoundsTo (((10 : ℤ) : ℚ) / 10 ^ 2) (F64.round (((10 : ℤ) : ℚ) / 10 ^ 2)) :=
  ⟨⟨by norm_num [TruncatesTo, IsTrunc], by norm_num, by rw [show ((2 : ℕ) : ℤ) = 2 from rfl, h10]; norm_num [HasValue]⟩, rfl, by norm_num, F64.roundsTo_round _ _⟩
