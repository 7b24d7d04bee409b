import Verif.Props.SumError
/-! C100: arithmetic respects the order of numbers. -/

open Lib Spec

namespace Spec

/-- `x` is at most `y`: neither is a NaN, and as numbers or infinities they are in this order. -/
def AtMost (x y : F64) : Prop :=
  x ≠ .nan ∧ y ≠ .nan ∧ (x = .inf true ∨ y = .inf false ∨ ∃ p q, HasValue x p ∧ HasValue y q ∧ p ≤ q)

/-- `:a <= :b` is true. -/
def LeTrue (X : Ext) (x y : F64) : Prop :=
  evaluateWith X c!":a <= :b" ((Env.empty.insert c!"a" (.num x)).insert c!"b" (.num y)) = .ok (.bool true)

end Spec

namespace F64

theorem fle_atMost (x y : F64) : fle x y = true ↔ AtMost x y := by
  unfold AtMost
  cases x with
  | nan => simp [fle]
  | inf s =>
    cases y with
    | nan => simp [fle]
    | inf t => cases s <;> cases t <;> simp [fle, HasValue]
    | zero t => cases s <;> simp [fle, HasValue]
    | fin q => cases s <;> simp [fle, HasValue]
  | zero s =>
    cases y with
    | nan => simp [fle]
    | inf t => cases t <;> simp [fle, HasValue]
    | zero t => simp [fle, HasValue, toRat]
    | fin q => simp [fle, HasValue, toRat]; exact decide_eq_true_iff
  | fin p =>
    cases y with
    | nan => simp [fle]
    | inf t => cases t <;> simp [fle, HasValue]
    | zero t => simp [fle, HasValue, toRat]; exact decide_eq_true_iff
    | fin q => simp [fle, HasValue, toRat]; exact decide_eq_true_iff

/-- What rounding to a finite double means, zero included. -/
theorem roundsTo_near {p a : ℚ} {x : F64} (h : RoundsTo p x) (ha : HasValue x a) : IsBin64 a ∧ ∀ w, IsBin64 w → |p - a| ≤ |p - w| := by
  unfold RoundsTo at h
  split at h
  · rename_i h0
    obtain ⟨s, rfl⟩ := h
    have ha : a = 0 := ha
    subst ha h0
    exact ⟨⟨0, 0, by norm_num⟩, fun w _ => by simp⟩
  · cases x with
    | nan => exact ha.elim
    | inf s => exact ha.elim
    | zero s =>
      have ha : a = 0 := ha
      subst ha
      exact ⟨⟨0, 0, by norm_num⟩, fun w hw => by rw [sub_zero]; exact h.1 w hw⟩
    | fin v =>
      have ha : v = a := ha
      subst ha
      exact ⟨h.2.1, h.2.2.2.1⟩

theorem roundsTo_not_nan {p : ℚ} {x : F64} (h : RoundsTo p x) : x ≠ .nan := by
  rintro rfl
  unfold RoundsTo at h
  split at h
  · obtain ⟨s, hs⟩ := h; cases hs
  · exact h

/-- What is rounded to infinity. -/
def bound : ℚ := 2 ^ 1024 - 2 ^ 970
theorem one_lt_bound : 1 < bound := by decide +kernel

/-- A number is rounded to infinity exactly when it is too great. -/
theorem roundsTo_inf {p : ℚ} {s : Bool} (h : RoundsTo p (.inf s)) : bound ≤ |p| ∧ (s = true ↔ p < 0) := by
  unfold RoundsTo at h
  split at h
  · obtain ⟨s, hs⟩ := h; cases hs
  · exact h

theorem roundsTo_finite {p a : ℚ} {x : F64} (h : RoundsTo p x) (ha : HasValue x a) : |p| < bound := by
  have hbig := one_lt_bound
  unfold RoundsTo at h
  split at h
  · rename_i h0; rw [h0, abs_zero]; linarith
  · cases x with
    | nan => exact ha.elim
    | inf s => exact ha.elim
    | zero s =>
      by_contra hc
      have h1 := h.1 1 ⟨1, 0, by norm_num⟩
      have h2 := h.1 (-1) ⟨-1, 0, by norm_num⟩
      rcases abs_cases p with ⟨e, e'⟩ | ⟨e, e'⟩
      · rw [abs_of_nonneg (by linarith : 0 ≤ p - 1)] at h1; linarith
      · rw [abs_of_neg (by linarith : p - -1 < 0)] at h2; linarith
    | fin v => exact h.2.2.1

/-- Rounding respects the order. -/
theorem roundsTo_mono {p q : ℚ} {x y : F64} (hx : RoundsTo p x) (hy : RoundsTo q y) (h : p ≤ q) : AtMost x y := by
  refine ⟨roundsTo_not_nan hx, roundsTo_not_nan hy, ?_⟩
  have hbig := one_lt_bound
  by_cases fx : x.isFinite = true
  · by_cases fy : y.isFinite = true
    · right; right
      obtain ⟨a, ha⟩ := value_of_finite fx
      obtain ⟨b, hb⟩ := value_of_finite fy
      refine ⟨a, b, ha, hb, ?_⟩
      obtain ⟨a1, a2⟩ := roundsTo_near hx ha
      obtain ⟨b1, b2⟩ := roundsTo_near hy hb
      by_contra hc
      push Not at hc
      have h1 := a2 b b1
      have h2 := b2 a a1
      have e1 : (a + b) / 2 ≤ p := by
        by_contra hp
        push Not at hp
        rw [abs_of_neg (by linarith : p - a < 0)] at h1
        rcases abs_cases (p - b) with ⟨e, -⟩ | ⟨e, -⟩ <;> rw [e] at h1 <;> linarith
      have e2 : q ≤ (a + b) / 2 := by
        by_contra hp
        push Not at hp
        rw [abs_of_pos (by linarith : 0 < q - b)] at h2
        rcases abs_cases (q - a) with ⟨e, -⟩ | ⟨e, -⟩ <;> rw [e] at h2 <;> linarith
      have e3 : p = q := by linarith
      subst e3
      by_cases h0 : p = 0
      · subst h0
        have h1 := a2 0 ⟨0, 0, by norm_num⟩
        have h2 := b2 0 ⟨0, 0, by norm_num⟩
        simp at h1 h2
        rw [h1, h2] at hc
        exact lt_irrefl _ hc
      · have := C97_rounds_unique p x y hx hy h0
        subst this
        rw [hasValue_unique ha hb] at hc
        exact lt_irrefl _ hc
    · cases y with
      | fin _ => exact absurd rfl fy
      | zero _ => exact absurd rfl fy
      | nan => exact absurd rfl (roundsTo_not_nan hy)
      | inf t =>
        cases t with
        | false => exact .inr (.inl rfl)
        | true =>
          exfalso
          obtain ⟨a, ha⟩ := value_of_finite fx
          have h1 := roundsTo_finite hx ha
          obtain ⟨h2, h3⟩ := roundsTo_inf hy
          have hq := h3.1 rfl
          rw [abs_of_neg hq] at h2
          rw [abs_of_neg (by linarith)] at h1
          linarith
  · cases x with
    | fin _ => exact absurd rfl fx
    | zero _ => exact absurd rfl fx
    | nan => exact absurd rfl (roundsTo_not_nan hx)
    | inf s =>
      cases s with
      | true => exact .inl rfl
      | false =>
        obtain ⟨h2, h3⟩ := roundsTo_inf hx
        have hp : 0 ≤ p := by
          by_contra hc
          exact absurd (h3.2 (not_le.1 hc)) (by simp)
        rw [abs_of_nonneg hp] at h2
        by_cases fy : y.isFinite = true
        · exfalso
          obtain ⟨b, hb⟩ := value_of_finite fy
          have h1 := roundsTo_finite hy hb
          rw [abs_of_nonneg (by linarith)] at h1
          linarith
        · cases y with
          | fin _ => exact absurd rfl fy
          | zero _ => exact absurd rfl fy
          | nan => exact absurd rfl (roundsTo_not_nan hy)
          | inf t =>
            cases t with
            | false => exact .inr (.inl rfl)
            | true =>
              exfalso
              have := (roundsTo_inf hy).2.1 rfl
              linarith

theorem atMost_low {y : F64} (h : y ≠ .nan) : AtMost (.inf true) y := ⟨by simp, h, .inl rfl⟩
theorem atMost_high {x : F64} (h : x ≠ .nan) : AtMost x (.inf false) := ⟨h, by simp, .inr (.inl rfl)⟩

/-- The cases of the order. -/
theorem atMost_cases {x y : F64} (h : AtMost x y) : x = .inf true ∨ y = .inf false ∨ ∃ p q, HasValue x p ∧ HasValue y q ∧ p ≤ q := h.2.2

theorem add_low {x y : F64} (h : x = .inf true ∨ y = .inf true) (hn : add x y ≠ .nan) : add x y = .inf true := by
  rcases h with rfl | rfl
  · cases y with
    | nan => exact absurd rfl hn
    | inf t => cases t <;> simp [add] at hn ⊢
    | zero _ => rfl
    | fin _ => rfl
  · cases x with
    | nan => exact absurd rfl hn
    | inf t => cases t <;> simp [add] at hn ⊢
    | zero _ => rfl
    | fin _ => rfl

theorem add_high {x y : F64} (h : x = .inf false ∨ y = .inf false) (hn : add x y ≠ .nan) : add x y = .inf false := by
  rcases h with rfl | rfl
  · cases y with
    | nan => exact absurd rfl hn
    | inf t => cases t <;> simp [add] at hn ⊢
    | zero _ => rfl
    | fin _ => rfl
  · cases x with
    | nan => exact absurd rfl hn
    | inf t => cases t <;> simp [add] at hn ⊢
    | zero _ => rfl
    | fin _ => rfl

/-- Addition respects the order. -/
theorem add_mono {a b c d : F64} (ha : IsDouble a) (hb : IsDouble b) (hc : IsDouble c) (hd : IsDouble d) (h : AtMost a b) (h' : AtMost c d)
    (hn : add a c ≠ .nan) (hn' : add b d ≠ .nan) : AtMost (add a c) (add b d) := by
  rcases atMost_cases h with h1 | h1 | ⟨p, q, hp, hq, hpq⟩
  · rw [add_low (.inl h1) hn]; exact atMost_low hn'
  · rw [add_high (.inl h1) hn']; exact atMost_high hn
  · rcases atMost_cases h' with h2 | h2 | ⟨r, s, hr, hs, hrs⟩
    · rw [add_low (.inr h2) hn]; exact atMost_low hn'
    · rw [add_high (.inr h2) hn']; exact atMost_high hn
    · exact roundsTo_mono (add_roundsTo ha hc hp hr) (add_roundsTo hb hd hq hs) (add_le_add hpq hrs)

theorem neg_atMost {x y : F64} (h : AtMost x y) : AtMost (neg y) (neg x) := by
  obtain ⟨h1, h2, h3⟩ := h
  refine ⟨by cases y <;> simp_all [neg], by cases x <;> simp_all [neg], ?_⟩
  rcases h3 with rfl | rfl | ⟨p, q, hp, hq, hpq⟩
  · exact .inr (.inl rfl)
  · exact .inl rfl
  · exact .inr (.inr ⟨-q, -p, neg_value hq, neg_value hp, neg_le_neg hpq⟩)

/-- Multiplication by something not negative respects the order. -/
theorem mul_mono {a b c : F64} (h : AtMost a b) (hc : AtMost (.zero false) c) (hn : mul a c ≠ .nan) (hn' : mul b c ≠ .nan) :
    AtMost (mul a c) (mul b c) := by
  have hlow : a = .inf true → mul a c = .inf true := by
    rintro rfl
    cases c with
    | nan => exact absurd rfl hn
    | zero s => exact absurd rfl hn
    | inf s => 
      obtain ⟨-, -, h | h | ⟨p, q, -, hq, -⟩⟩ := hc
      · cases h
      · cases h; rfl
      · exact hq.elim
    | fin q =>
      obtain ⟨-, -, h | h | ⟨p, r, hp, hr, hpr⟩⟩ := hc
      · cases h
      · cases h
      · have hp : p = 0 := hp
        have hr : q = r := hr
        subst hp hr
        have : ¬ q < 0 := not_lt.2 hpr
        simp [mul, signBit, this]
  have hhigh : b = .inf false → mul b c = .inf false := by
    rintro rfl
    cases c with
    | nan => exact absurd rfl hn'
    | zero s => exact absurd rfl hn'
    | inf s => 
      obtain ⟨-, -, h | h | ⟨p, q, -, hq, -⟩⟩ := hc
      · cases h
      · cases h; rfl
      · exact hq.elim
    | fin q =>
      obtain ⟨-, -, h | h | ⟨p, r, hp, hr, hpr⟩⟩ := hc
      · cases h
      · cases h
      · have hp : p = 0 := hp
        have hr : q = r := hr
        subst hp hr
        have : ¬ q < 0 := not_lt.2 hpr
        simp [mul, signBit, this]
  rcases atMost_cases h with h1 | h1 | ⟨p, q, hp, hq, hpq⟩
  · rw [hlow h1]; exact atMost_low hn'
  · rw [hhigh h1]; exact atMost_high hn
  · obtain ⟨-, -, hc | hc | ⟨z, r, hz, hr, hzr⟩⟩ := hc
    · cases hc
    · subst hc
      cases a with
      | nan => exact hp.elim
      | inf _ => exact hp.elim
      | zero _ => exact absurd rfl hn
      | fin u =>
        have hp : u = p := hp
        subst hp
        cases b with
        | nan => exact hq.elim
        | inf _ => exact hq.elim
        | zero _ => exact absurd rfl hn'
        | fin v =>
          have hq : v = q := hq
          subst hq
          by_cases hu : u < 0
          · have : mul (.fin u) (.inf false) = .inf true := by simp [mul, signBit, hu]
            rw [this]; exact atMost_low hn'
          · have : mul (.fin v) (.inf false) = .inf false := by
              have : ¬ v < 0 := by linarith
              simp [mul, signBit, this]
            rw [this]; exact atMost_high hn
    · have hz : z = 0 := hz
      subst hz
      exact roundsTo_mono (mul_roundsTo hp hr) (mul_roundsTo hq hr) (mul_le_mul_of_nonneg_right hpq hzr)

/-- Multiplication by something not positive reverses the order. -/
theorem mul_anti {a b c : F64} (hcd : IsDouble c) (h : AtMost a b) (hc : AtMost c (.zero false)) (hn : mul a c ≠ .nan) (hn' : mul b c ≠ .nan) :
    AtMost (mul b c) (mul a c) := by
  have key : ∀ s, mul (.inf s) c = .nan ∨ mul (.inf s) c = .inf (!s) := by
    intro s
    cases c with
    | nan => exact .inl rfl
    | zero t => exact .inl rfl
    | inf t =>
      obtain ⟨-, -, h | h | ⟨p, q, hp, -, -⟩⟩ := hc
      · cases h; cases s <;> exact .inr rfl
      · cases h
      · exact hp.elim
    | fin q =>
      obtain ⟨-, -, h | h | ⟨p, r, hp, hr, hpr⟩⟩ := hc
      · cases h
      · cases h
      · have hr : r = 0 := hr
        have hp : q = p := hp
        subst hp hr
        have h0 : q < 0 := lt_of_le_of_ne hpr hcd.1
        cases s <;> simp [mul, signBit, h0]
  rcases atMost_cases h with h1 | h1 | ⟨p, q, hp, hq, hpq⟩
  · subst h1
    rcases key true with h1 | h1
    · exact absurd h1 hn
    · rw [h1]; exact atMost_high hn'
  · subst h1
    rcases key false with h1 | h1
    · exact absurd h1 hn'
    · rw [h1]; exact atMost_low hn
  · obtain ⟨-, -, hc | hc | ⟨r, z, hr, hz, hzr⟩⟩ := hc
    · subst hc
      cases a with
      | nan => exact hp.elim
      | inf _ => exact hp.elim
      | zero _ => exact absurd rfl hn
      | fin u =>
        have hp : u = p := hp
        subst hp
        cases b with
        | nan => exact hq.elim
        | inf _ => exact hq.elim
        | zero _ => exact absurd rfl hn'
        | fin v =>
          have hq : v = q := hq
          subst hq
          by_cases hu : u < 0
          · have : mul (.fin u) (.inf true) = .inf false := by simp [mul, signBit, hu]
            rw [this]; exact atMost_high hn'
          · have : mul (.fin v) (.inf true) = .inf true := by
              have : ¬ v < 0 := by linarith
              simp [mul, signBit, this]
            rw [this]; exact atMost_low hn
    · cases hc
    · have hz : z = 0 := hz
      subst hz
      exact roundsTo_mono (mul_roundsTo hq hr) (mul_roundsTo hp hr) (mul_le_mul_of_nonpos_right hpq hzr)

theorem add_comm' (a b : F64) : add a b = add b a := by
  cases a <;> cases b <;> simp only [add]
  · rename_i s t
    cases s <;> cases t <;> rfl
  · rw [Bool.and_comm]
  · rw [add_comm]

theorem mul_comm' (a b : F64) : mul a b = mul b a := by
  cases a <;> cases b <;> simp only [mul, signBit] <;> first | rw [mul_comm] | (congr 1; exact bne_comm)

/-- The difference of two different doubles is not rounded to zero. -/
theorem sub_ne_zero {p q : ℚ} {s : Bool} (hp : IsBin64 p) (hq : IsBin64 q) (h : RoundsTo (p - q) (.zero s)) : p = q := by
  by_contra hne
  obtain ⟨a, rfl⟩ := multiple hp
  obtain ⟨b, rfl⟩ := multiple hq
  have hpos := pow2_pos (-1074)
  have hab : a ≠ b := by rintro rfl; exact hne rfl
  unfold RoundsTo at h
  rw [if_neg (sub_ne_zero_of_ne hne)] at h
  obtain ⟨h, -⟩ := h
  have hb : IsBin64 (2 ^ (-1074 : ℤ)) := ⟨1, -1074, by norm_num, by norm_num, by norm_num, by norm_num⟩
  have h1 := h _ hb
  have h2 := h _ (isBin64_neg hb)
  rw [← sub_mul] at h1 h2
  generalize (2 : ℚ) ^ (-1074 : ℤ) = u at *
  rcases lt_or_gt_of_ne hab with hlt | hlt
  · have : ((a : ℚ) - b) ≤ -1 := by
      have : a - b ≤ -1 := by omega
      exact_mod_cast this
    rw [abs_of_nonpos (by nlinarith), abs_of_nonpos (by nlinarith)] at h2
    linarith
  · have : (1 : ℚ) ≤ (a : ℚ) - b := by
      have : 1 ≤ a - b := by omega
      exact_mod_cast this
    rw [abs_of_nonneg (by nlinarith), abs_of_nonneg (by nlinarith)] at h1
    linarith

/-- Doubling a double is exact unless it is too great. -/
theorem isBin64_double {p : ℚ} (hp : IsBin64 p) (h : |p + p| < bound) : IsBin64 (p + p) := by
  obtain ⟨m, e, h1, h2, h3, rfl⟩ := hp
  by_cases he : e = 971
  · subst he
    refine ⟨2 * m, 971, ?_, by norm_num, by norm_num, by push_cast; ring⟩
    by_contra hc
    push Not at hc
    have hm : (2 : ℚ) ^ 53 ≤ |((2 * m : ℤ) : ℚ)| := by
      rw [← Int.cast_abs]; exact_mod_cast hc
    have e1 : (m : ℚ) * 2 ^ (971 : ℤ) + m * 2 ^ (971 : ℤ) = ((2 * m : ℤ) : ℚ) * 2 ^ (971 : ℤ) := by push_cast; ring
    rw [e1, abs_mul, abs_of_pos (pow2_pos 971)] at h
    have h5 : bound ≤ (2 : ℚ) ^ 53 * 2 ^ (971 : ℤ) := by
      unfold bound
      rw [show (2 : ℚ) ^ 53 * 2 ^ (971 : ℤ) = 2 ^ 1024 by
        rw [← zpow_natCast, ← zpow_natCast, two_zpow_mul]; norm_num]
      exact sub_le_self _ (by positivity)
    have h6 := mul_le_mul_of_nonneg_right hm (pow2_pos 971).le
    exact absurd (h5.trans h6) (not_le.2 h)
  · refine ⟨m, e + 1, h1, by omega, by omega, ?_⟩
    rw [zpow_add₀ (by norm_num)]; norm_num; ring

/-- Division by something finite and positive respects the order. -/
theorem div_mono {a b c : F64} (h : AtMost a b) {r : ℚ} (hr : HasValue c r) (h0 : 0 < r) : AtMost (div a c) (div b c) := by
  cases c with
  | nan => exact hr.elim
  | inf _ => exact hr.elim
  | zero _ => have hr : r = 0 := hr; exact absurd hr h0.ne'
  | fin w =>
    have hw : w = r := hr
    subst hw
    have hw : ¬ w < 0 := not_lt.2 h0.le
    have hnan : ∀ x : F64, x ≠ .nan → div x (.fin w) ≠ .nan := by
      intro x hx
      cases x with
      | nan => exact absurd rfl hx
      | inf s => simp [div]
      | zero s => simp [div]
      | fin p => exact roundsTo_not_nan (roundsTo_round (p / w) false)
    rcases atMost_cases h with h1 | h1 | ⟨p, q, hp, hq, hpq⟩
    · have : div a (.fin w) = .inf true := by rw [h1]; simp [div, signBit, hw]
      rw [this]; exact atMost_low (hnan b h.2.1)
    · have : div b (.fin w) = .inf false := by rw [h1]; simp [div, signBit, hw]
      rw [this]; exact atMost_high (hnan a h.1)
    · exact roundsTo_mono (div_roundsTo hp hr h0.ne') (div_roundsTo hq hr h0.ne') (div_le_div_of_nonneg_right hpq h0.le)

end F64

theorem leTrue_iff (X : Ext) (x y : F64) : LeTrue X x y ↔ AtMost x y := by
  rw [← F64.fle_atMost]
  unfold LeTrue
  have : evaluateWith X c!":a <= :b" ((Env.empty.insert c!"a" (.num x)).insert c!"b" (.num y)) = .ok (.bool (F64.fle x y)) := by
    refine Eq.trans (b := Ops.binary X .le (.num x) (.num y)) (by kernel_rfl) rfl
  rw [this]
  simp

/-! ### The theorems -/

/-- C100. If `a <= b` and `c <= d` are true then so are `a + c <= b + d` and `a - d <= b - c`, unless one of the results is no number; infinities count as numbers. -/
theorem C100_add_sub (X : Ext) (a b c d : F64) (ha : IsDouble a) (hb : IsDouble b) (hc : IsDouble c) (hd : IsDouble d) (h : LeTrue X a b) (h' : LeTrue X c d) :
    (∃ s t, opText X '+' (.num a) (.num c) = .ok (.num s) ∧ opText X '+' (.num b) (.num d) = .ok (.num t) ∧ (s = .nan ∨ t = .nan ∨ LeTrue X s t)) ∧
    (∃ s t, opText X '-' (.num a) (.num d) = .ok (.num s) ∧ opText X '-' (.num b) (.num c) = .ok (.num t) ∧ (s = .nan ∨ t = .nan ∨ LeTrue X s t)) := by
  rw [leTrue_iff] at h h'
  refine ⟨⟨_, _, (opText_eq X _ _).1, (opText_eq X _ _).1, ?_⟩, ⟨_, _, (opText_eq X _ _).2.1, (opText_eq X _ _).2.1, ?_⟩⟩
  · by_cases h1 : F64.add a c = .nan
    · exact .inl h1
    · by_cases h2 : F64.add b d = .nan
      · exact .inr (.inl h2)
      · exact .inr (.inr ((leTrue_iff X _ _).2 (F64.add_mono ha hb hc hd h h' h1 h2)))
  · by_cases h1 : F64.sub a d = .nan
    · exact .inl h1
    · by_cases h2 : F64.sub b c = .nan
      · exact .inr (.inl h2)
      · exact .inr (.inr ((leTrue_iff X _ _).2 (F64.add_mono ha hb (F64.neg_isDouble hd) (F64.neg_isDouble hc) h (F64.neg_atMost h') h1 h2)))

/-- C100. Multiplying both sides by the same number keeps the order if it is not negative and reverses it if it is not positive; dividing both by the same finite positive number keeps it. -/
theorem C100_mul_div (X : Ext) (a b c : F64) (hc : IsDouble c) (h : LeTrue X a b) :
    (LeTrue X (.zero false) c → ∃ s t, opText X '*' (.num a) (.num c) = .ok (.num s) ∧ opText X '*' (.num b) (.num c) = .ok (.num t) ∧ (s = .nan ∨ t = .nan ∨ LeTrue X s t)) ∧
    (LeTrue X c (.zero false) → ∃ s t, opText X '*' (.num a) (.num c) = .ok (.num s) ∧ opText X '*' (.num b) (.num c) = .ok (.num t) ∧ (s = .nan ∨ t = .nan ∨ LeTrue X t s)) ∧
    (∀ r, HasValue c r → 0 < r → ∃ s t, opText X '/' (.num a) (.num c) = .ok (.num s) ∧ opText X '/' (.num b) (.num c) = .ok (.num t) ∧ LeTrue X s t) := by
  rw [leTrue_iff] at h
  refine ⟨?_, ?_, ?_⟩
  · intro h0
    rw [leTrue_iff] at h0
    refine ⟨_, _, (opText_eq X _ _).2.2.1, (opText_eq X _ _).2.2.1, ?_⟩
    by_cases h1 : F64.mul a c = .nan
    · exact .inl h1
    · by_cases h2 : F64.mul b c = .nan
      · exact .inr (.inl h2)
      · exact .inr (.inr ((leTrue_iff X _ _).2 (F64.mul_mono h h0 h1 h2)))
  · intro h0
    rw [leTrue_iff] at h0
    refine ⟨_, _, (opText_eq X _ _).2.2.1, (opText_eq X _ _).2.2.1, ?_⟩
    by_cases h1 : F64.mul a c = .nan
    · exact .inl h1
    · by_cases h2 : F64.mul b c = .nan
      · exact .inr (.inl h2)
      · exact .inr (.inr ((leTrue_iff X _ _).2 (F64.mul_anti hc h h0 h1 h2)))
  · intro r hr h0
    exact ⟨_, _, (opText_eq X _ _).2.2.2, (opText_eq X _ _).2.2.2, (leTrue_iff X _ _).2 (F64.div_mono h hr h0)⟩

/-- C100. `+` and `*` do not depend on the order of their operands, whatever they are. -/
theorem C100_commutative (X : Ext) (a b : F64) :
    opText X '+' (.num a) (.num b) = opText X '+' (.num b) (.num a) ∧ opText X '*' (.num a) (.num b) = opText X '*' (.num b) (.num a) := by
  obtain ⟨h1, -, h3, -⟩ := opText_eq X (.num a) (.num b)
  obtain ⟨k1, -, k3, -⟩ := opText_eq X (.num b) (.num a)
  rw [h1, h3, k1, k3]
  refine ⟨congrArg (fun z => Except.ok (Value.num z)) (F64.add_comm' a b), congrArg (fun z => Except.ok (Value.num z)) (F64.mul_comm' a b)⟩

/-- C100. The difference of two finite numbers is zero exactly when they are equal, however close they are. -/
theorem C100_difference (X : Ext) (a b : F64) (ha : IsDouble a) (hb : IsDouble b) (p q : ℚ) (hp : HasValue a p) (hq : HasValue b q) :
    (∃ s, opText X '-' (.num a) (.num b) = .ok (.num (.zero s))) ↔ p = q := by
  rw [(opText_eq X _ _).2.1]
  have hr := F64.sub_roundsTo ha hb hp hq
  constructor
  · rintro ⟨s, hs⟩
    have hs : (Except.ok (Value.num (F64.sub a b)) : Res Value) = .ok (.num (.zero s)) := hs
    simp only [Except.ok.injEq, Value.num.injEq] at hs
    rw [hs] at hr
    exact F64.sub_ne_zero (F64.hasValue_bin64 hp ha) (F64.hasValue_bin64 hq hb) hr
  · rintro rfl
    rw [sub_self] at hr
    unfold RoundsTo at hr
    rw [if_pos rfl] at hr
    obtain ⟨s, hs⟩ := hr
    exact ⟨s, by rw [← hs]; rfl⟩

theorem F64.nan_add (x : F64) : F64.add .nan x = .nan := rfl

theorem F64.foldl_nan (xs : List F64) : xs.foldl F64.add .nan = .nan := by
  induction xs with
  | nil => rfl
  | cons x xs ih => exact ih

theorem F64.fold_mono {xs ys : List F64} (h : List.Forall₂ (fun x y => IsDouble x ∧ IsDouble y ∧ AtMost x y) xs ys) (a b : F64) (ha : IsDouble a) (hb : IsDouble b)
    (hab : AtMost a b) (hn : xs.foldl F64.add a ≠ .nan) (hn' : ys.foldl F64.add b ≠ .nan) : AtMost (xs.foldl F64.add a) (ys.foldl F64.add b) := by
  induction h generalizing a b with
  | nil => exact hab
  | @cons x y xs ys hxy _ ih =>
    rw [List.foldl_cons] at hn hn' ⊢
    rw [List.foldl_cons]
    refine ih _ _ (F64.add_isDouble ha hxy.1) (F64.add_isDouble hb hxy.2.1) (F64.add_mono ha hb hxy.1 hxy.2.1 hab hxy.2.2 ?_ ?_) hn hn'
    · intro e; rw [e, F64.foldl_nan] at hn; exact hn rfl
    · intro e; rw [e, F64.foldl_nan] at hn'; exact hn' rfl

/-- C100. Raising terms, one or many, never lowers `SUM` or `AVG`: if the numbers in two argument lists are as many, and each of the first at most the one of the second in its place,
then so are the sums, unless one is no number, and the averages. -/
theorem C100_sum_avg (X : Ext) (vs ws ls ks : List Value) (hl : LeavesOf vs ls) (hk : LeavesOf ws ks)
    (h : List.Forall₂ (fun x y => IsDouble x ∧ IsDouble y ∧ LeTrue X x y) (amounts ls) (amounts ks)) (hlen : (amounts ls).length ≤ 2 ^ 53) (s t u v : F64)
    (hs : fn X c!"SUM" vs = .ok (.num s)) (ht : fn X c!"SUM" ws = .ok (.num t)) (hu : fn X c!"AVG" vs = .ok (.num u)) (hv : fn X c!"AVG" ws = .ok (.num v))
    (hsn : s ≠ .nan) (htn : t ≠ .nan) : LeTrue X s t ∧ LeTrue X u v := by
  rw [(C38_aggregates X vs ls hl).1] at hs
  rw [(C38_aggregates X ws ks hk).1] at ht
  rw [(C38_aggregates X vs ls hl).2.1] at hu
  rw [(C38_aggregates X ws ks hk).2.1] at hv
  simp only [leTrue_iff] at h ⊢
  simp only [Except.ok.injEq, Value.num.injEq] at hs ht hu hv
  have hll := h.length_eq
  generalize amounts ls = xs at *
  generalize amounts ks = ys at *
  have hst : AtMost s t := by
    subst hs ht
    exact F64.fold_mono h _ _ trivial trivial ⟨by simp, by simp, .inr (.inr ⟨0, 0, rfl, rfl, le_refl _⟩)⟩ hsn htn
  refine ⟨hst, ?_⟩
  by_cases h0 : xs = []
  · have h1 : ys = [] := by rw [h0] at hll; exact List.length_eq_zero_iff.1 hll.symm
    rw [if_pos h0] at hu
    rw [if_pos h1] at hv
    subst hu hv
    exact ⟨by simp, by simp, .inr (.inr ⟨0, 0, rfl, rfl, le_refl _⟩)⟩
  · have h1 : ys ≠ [] := by rintro rfl; exact h0 (List.length_eq_zero_iff.1 hll)
    rw [if_neg h0, hs] at hu
    rw [if_neg h1, ht, ← hll] at hv
    have hpos : 0 < xs.length := List.length_pos_iff.2 h0
    have hof : F64.ofNat xs.length = .fin (xs.length : ℚ) := by
      have hb := F64.isBin64_int (xs.length : ℤ) (by rw [abs_of_nonneg (by positivity)]; exact_mod_cast hlen)
      have := F64.round_exact hb (by exact_mod_cast hpos.ne') false
      exact_mod_cast this
    subst hu hv
    rw [hof]
    exact F64.div_mono hst (r := (xs.length : ℚ)) rfl (by exact_mod_cast hpos)

theorem F64.atMost_left {x y z : F64} {p : ℚ} (hx : HasValue x p) (hy : HasValue y p) (h : AtMost x z) : AtMost y z := by
  obtain ⟨-, h2, h3⟩ := h
  refine ⟨by rintro rfl; exact hy, h2, ?_⟩
  rcases h3 with rfl | h3 | ⟨a, b, ha, hb, hab⟩
  · exact hx.elim
  · exact .inr (.inl h3)
  · rw [F64.hasValue_unique ha hx] at hab; exact .inr (.inr ⟨p, b, hy, hb, hab⟩)

theorem F64.atMost_right {x y z : F64} {p : ℚ} (hx : HasValue x p) (hy : HasValue y p) (h : AtMost z x) : AtMost z y := by
  obtain ⟨h1, -, h3⟩ := h
  refine ⟨h1, by rintro rfl; exact hy, ?_⟩
  rcases h3 with h3 | rfl | ⟨a, b, ha, hb, hab⟩
  · exact .inl h3
  · exact hx.elim
  · rw [F64.hasValue_unique hb hx] at hab; exact .inr (.inr ⟨a, p, ha, hy, hab⟩)

/-- C100. The average of two finite numbers is between them, if twice each of them is finite. -/
theorem C100_average_of_two (X : Ext) (a b m : F64) (ha : IsDouble a) (hb : IsDouble b) (p q : ℚ) (hp : HasValue a p) (hq : HasValue b q) (hab : p ≤ q)
    (h1 : |p + p| < 2 ^ 1024 - 2 ^ 970) (h2 : |q + q| < 2 ^ 1024 - 2 ^ 970)
    (hm : fn X c!"AVG" [.num a, .num b] = .ok (.num m) ∨ fn X c!"AVG" [.num b, .num a] = .ok (.num m)) : LeTrue X a m ∧ LeTrue X m b := by
  have hl (x y : F64) : LeavesOf [.num x, .num y] [.num x, .num y] := by
    refine LeavesOf.leaf ?_ (LeavesOf.leaf ?_ LeavesOf.nil) <;> simp
  have key : ∃ z, RoundsTo (p + q) z ∧ m = F64.div z (.fin 2) := by
    have go (x y : F64) (r s : ℚ) (hx : IsDouble x) (hy : IsDouble y) (hr : HasValue x r) (hs : HasValue y s) (h : fn X c!"AVG" [.num x, .num y] = .ok (.num m)) :
        ∃ z, RoundsTo (r + s) z ∧ m = F64.div z (.fin 2) := by
      rw [(C38_aggregates X _ _ (hl x y)).2.1] at h
      have h : (Except.ok (Value.num (F64.div (F64.add (F64.add (.zero false) x) y) (F64.ofNat 2))) : Res Value) = .ok (.num m) := h
      simp only [Except.ok.injEq, Value.num.injEq] at h
      rw [show F64.ofNat 2 = .fin 2 by decide +kernel] at h
      refine ⟨_, ?_, h.symm⟩
      have h0 := F64.add_roundsTo (x := .zero false) trivial hx rfl hr
      rw [zero_add] at h0
      have h0 := F64.roundsTo_exact h0 (F64.hasValue_bin64 hr hx)
      exact F64.add_roundsTo h0.2 hy h0.1 hs
    rcases hm with h | h
    · exact go a b p q ha hb hp hq h
    · rw [add_comm]; exact go b a q p hb ha hq hp h
  obtain ⟨z, hz, rfl⟩ := key
  have two : HasValue (.fin 2) 2 := rfl
  have half (r : ℚ) (hr : IsBin64 r) (hb : |r + r| < 2 ^ 1024 - 2 ^ 970) : HasValue (F64.div (F64.round (r + r)) (.fin 2)) r := by
    have e := F64.roundsTo_exact (F64.roundsTo_round (r + r) false) (F64.isBin64_double hr hb)
    have h3 := F64.div_roundsTo e.1 two (by norm_num)
    rw [show (r + r) / 2 = r by ring] at h3
    exact (F64.roundsTo_exact h3 hr).1
  rw [leTrue_iff, leTrue_iff]
  constructor
  · have h3 : AtMost (F64.round (p + p)) z := F64.roundsTo_mono (F64.roundsTo_round _ _) hz (by linarith)
    exact F64.atMost_left (half p (F64.hasValue_bin64 hp ha) h1) hp (F64.div_mono h3 two (by norm_num))
  · have h3 : AtMost z (F64.round (q + q)) := F64.roundsTo_mono hz (F64.roundsTo_round _ _) (by linarith)
    exact F64.atMost_right (half q (F64.hasValue_bin64 hq hb) h2) hq (F64.div_mono h3 two (by norm_num))

/-- One tenth, as a double. -/
def Spec.tenth : F64 := .fin (3602879701896397 / 36028797018963968)

/-- C100 fails for the average of more: that of 0.1, 0.1 and 0.1 is greater than 0.1. -/
theorem C100_average_of_three (X : Ext) : fn X c!"AVG" [.num tenth, .num tenth, .num tenth] = .ok (.num (.fin (7205759403792795 / 72057594037927936))) ∧
    fn X c!"MAX" [.num tenth, .num tenth, .num tenth] = .ok (.num tenth) ∧ IsDouble tenth ∧
    ¬ LeTrue X (.fin (7205759403792795 / 72057594037927936)) tenth := by
  refine ⟨by kernel_rfl, by kernel_rfl, ⟨by norm_num, 3602879701896397 * 2, -56, by norm_num, by norm_num, by norm_num, by norm_num⟩, ?_⟩
  rw [leTrue_iff, ← F64.fle_atMost]
  decide +kernel

/-- Cases: the hypotheses hold of ordinary numbers and of infinities. -/
example (X : Ext) : LeTrue X (.fin 1) (.fin 2) ∧ LeTrue X (.inf true) (.zero true) ∧ LeTrue X (.zero false) (.zero true) ∧ ¬ LeTrue X .nan .nan ∧ LeTrue X (.fin (-2)) (.zero false) := by
  simp only [leTrue_iff, ← F64.fle_atMost]
  decide +kernel
example : IsDouble tenth ∧ HasValue tenth (3602879701896397 / 36028797018963968) :=
  ⟨⟨by norm_num, 3602879701896397 * 2, -56, by norm_num, by norm_num, by norm_num, by norm_num⟩, rfl⟩
