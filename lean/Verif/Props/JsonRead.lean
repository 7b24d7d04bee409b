import Verif.Lemmas.JsonRead
import Verif.Lemmas.JsonReadLong
import Verif.Props.NumText
/-! C138: what JSON does to numbers, with the reader that the code is built with. -/

open Lib Spec JsonText NumText JsonRead

namespace JsonRead

open Reader

/-! ### Reading -/

/-- **C138.** A number text with at most 2^53 in its digits (so, with up to 15 digits) and a power of ten up to 22 is read as the nearest double. -/
theorem C138_reads (N : Floats) (hN : Real N) (t : Str) (neg : Bool) (m f : ℕ) (x : ℤ) (h : Written t neg m f x) (hl : f < 2 ^ 30)
    (hm : m ≤ 2 ^ 53) (hk : |x - f| ≤ 22) : ∃ y, N.read t = some y ∧ Nearest neg m (x - f) y := by
  have hk' := abs_le.1 hk
  have hb : IsBin64 (m : ℚ) := by
    have := F64.isBin64_int (m : ℤ) (by rw [abs_of_nonneg (by positivity)]; exact_mod_cast hm)
    exact_mod_cast this
  refine ⟨signed neg (dec m (x - f)), ?_, signed_nearest neg m _⟩
  rw [hN.read, read_written h (by omega) (abs_lt.2 ⟨by omega, by omega⟩) (abs_lt.2 ⟨by omega, by omega⟩), fromParts_exact neg hb (by omega) hk]

/-! ### What is written -/

/-- The library with correct rounding that writes in the same way. -/
noncomputable def exactly (N : Floats) : Floats := { write := N.write, read := fun t => (F64.parse t).filter F64.isFinite }

theorem exactly_std {N : Floats} (hN : Real N) : JsonStd (exactly N) :=
  { write := hN.write
    read := fun t x h hf => by simp [exactly, h, hf]
    only := fun t x h => by
      simp only [exactly, Option.filter_eq_some_iff] at h
      exact h }

theorem number_text {N : Floats} (hN : Real N) {x : F64} (hx : IsDouble x) (hf : x.isFinite = true) :
    JsonText.Spec.NumberText (N.write x) ∧ ¬ ∃ i, JsonText.Spec.Exact i ∧ N.write x = Str.showInt i := by
  have := C137_json (exactly N) (exactly_std hN) x hx hf
  exact ⟨this.1, this.2.1⟩

theorem floatBack_of {N : Floats} (hN : Real N) {x : F64} (hx : IsDouble x) (hf : x.isFinite = true) (h : N.read (N.write x) = some x) :
    JsonText.Spec.FloatBack N x := by
  have := number_text hN hx hf
  exact ⟨this.1, this.2, h⟩

theorem ten_lt {a b : ℤ} (h : (10 : ℚ) ^ a < 10 ^ b) : a < b := (zpow_lt_zpow_iff_right₀ (by norm_num : (1 : ℚ) < 10)).1 h

theorem digits_length {m n : ℕ} (h : m < 10 ^ n) (hn : 0 < n) : (digits m).length ≤ n :=
  (Nat.length_toDigits_le_iff (by norm_num) hn).2 h

theorem digits_low {m : ℕ} (hm : 0 < m) : 10 ^ ((digits m).length - 1) ≤ m := by
  by_contra hc
  push Not at hc
  have hl := length_pos m
  rcases Nat.eq_zero_or_pos ((digits m).length - 1) with h | h
  · rw [h] at hc; omega
  · have := digits_length hc h
    omega

theorem dec_low {m : ℕ} (hm : 0 < m) (e : ℤ) : (10 : ℚ) ^ ((digits m).length - 1 + e) ≤ dec m e := by
  have h := digits_low hm
  have h' : (10 : ℚ) ^ ((digits m).length - 1) ≤ m := by exact_mod_cast h
  have hl := length_pos m
  rw [zpow_add₀ (by norm_num), dec]
  refine mul_le_mul_of_nonneg_right ?_ (by positivity)
  rw [← zpow_natCast, Nat.cast_sub hl] at h'
  exact h'

theorem dec_lt_ten {m n : ℕ} (h : m < 10 ^ n) (e : ℤ) : dec m e < 10 ^ (n + e) := by
  have h' : (m : ℚ) < 10 ^ n := by exact_mod_cast h
  rw [zpow_add₀ (by norm_num), dec, zpow_natCast]
  exact mul_lt_mul_of_pos_right h' (by positivity)

/-- The shortest decimal of a double is outside the subnormal range if the double is. -/
theorem shortest_normal {q : ℚ} {m : ℕ} {e : ℤ} (h0 : (2 : ℚ) ^ (-1022 : ℤ) < q) (h : IsRounded (dec m e) (.fin q)) : (2 : ℚ) ^ (-1022 : ℤ) ≤ dec m e := by
  by_contra hc
  push Not at hc
  have hb : IsBin64 ((2 : ℚ) ^ (-1022 : ℤ)) := ⟨1, -1022, by norm_num, by norm_num, by norm_num, by simp⟩
  have := h.2.2.2.1 _ hb
  rw [abs_of_nonpos (by linarith), abs_of_nonpos (by linarith)] at this
  linarith

/-- The number with the digits of a shortest decimal is what is read. -/
theorem read_write {N : Floats} (hN : Real N) {q : ℚ} (hb : IsBin64 q) (h0 : (2 : ℚ) ^ (-1022 : ℤ) < |q|) :
    ∃ m e, Shortest |q| m e ∧ 0 < m ∧ m < 10 ^ 17 ∧ -400 < e ∧ e < 400 ∧
      ((0 ≤ e ∧ (digits m).length + e ≤ 16 ∧ N.read (N.write (.fin q)) = fromParts (decide (q < 0)) (m * 10 ^ e.toNat * 10) (-1)) ∨
       (¬ (0 ≤ e ∧ (digits m).length + e ≤ 16) ∧ N.read (N.write (.fin q)) = fromParts (decide (q < 0)) m e)) := by
  have hq0 : q ≠ 0 := by
    rintro rfl
    rw [abs_zero] at h0
    exact absurd h0 (not_lt.2 (F64.pow2_pos _).le)
  obtain ⟨m, e, hs, ht⟩ := hN.write (.fin q) ⟨hq0, hb⟩
  have hm := shortest_pos hq0 hs
  have hm17 := seventeen (isBin64_abs hb) h0 hs
  have hn := shortest_normal h0 hs.back
  have hp : 0 < dec m e := (F64.pow2_pos _).trans_le hn
  have hl := length_pos m
  have hl17 := digits_length hm17 (by norm_num)
  have hdlow := dec_low hm e
  have hdhigh := dec_lt_ten hm17 e
  have b1 : -400 < e := by
    have h2 : (10 : ℚ) ^ (-308 : ℤ) < 2 ^ (-1022 : ℤ) := by
      rw [zpow_neg, zpow_neg]
      apply inv_strictAnti₀ (by positivity)
      have : (2 : ℚ) ^ (1022 : ℕ) < 10 ^ (308 : ℕ) := by
        have h := Nat.pow_lt_pow_left (show 2 ^ 10 < 10 ^ 4 by norm_num) (show (1 : ℕ) ≠ 0 by norm_num)
        exact_mod_cast (show 2 ^ 1022 < 10 ^ 308 by decide +kernel)
      exact_mod_cast this
    have := ten_lt ((h2.trans_le hn).trans hdhigh)
    push_cast at this
    omega
  have b2 : e < 400 := by
    have h2 : dec m e < 10 ^ (400 : ℤ) := by
      have h3 := hs.back.2.2.1
      rw [abs_of_pos hp] at h3
      have h4 : (2 : ℚ) ^ 1024 - 2 ^ 970 < 10 ^ (400 : ℤ) := by
        have : (2 : ℚ) ^ (1024 : ℕ) < 10 ^ (400 : ℕ) := by exact_mod_cast (show 2 ^ 1024 < 10 ^ 400 by decide +kernel)
        have h5 : (0 : ℚ) < 2 ^ 970 := by positivity
        have h6 : (10 : ℚ) ^ (400 : ℤ) = 10 ^ (400 : ℕ) := zpow_natCast 10 400
        rw [h6]
        exact lt_of_le_of_lt (sub_le_self _ h5.le) this
      exact h3.trans h4
    have := ten_lt (hdlow.trans_lt h2)
    omega
  refine ⟨m, e, hs, hm, hm17, b1, b2, ?_⟩
  by_cases hc : 0 ≤ e ∧ (digits m).length + e ≤ 16
  · left
    refine ⟨hc.1, hc.2, ?_⟩
    obtain ⟨n, rfl⟩ := Int.eq_ofNat_of_zero_le hc.1
    rw [if_pos ⟨by omega, hc.2⟩] at ht
    rw [hN.read, ht, read_written (written_whole _ hm n) ?_ (by norm_num) (by norm_num)]
    · simp
    · have h1 : m < 10 ^ (digits m).length := by
        have := Nat.lt_pow_self (show 1 < 10 by norm_num) (n := m)
        exact (Nat.length_toDigits_le_iff (b := 10) (by norm_num) hl).1 le_rfl
      have h2 : m * 10 ^ n < 10 ^ 16 := by
        calc m * 10 ^ n < 10 ^ (digits m).length * 10 ^ n := Nat.mul_lt_mul_of_pos_right h1 (by positivity)
          _ = 10 ^ ((digits m).length + n) := (pow_add _ _ _).symm
          _ ≤ 10 ^ 16 := Nat.pow_le_pow_right (by norm_num) (by omega)
      omega
  · right
    refine ⟨hc, ?_⟩
    rw [hN.read, ht]
    split
    · rename_i h1
      have he : e < 0 := by omega
      rw [read_written (written_point _ hm he) (by omega) (by norm_num) (by rw [abs_lt]; omega)]
      congr 1
      omega
    · rw [read_written (written_scientific _ hm e) (by omega) (by rw [abs_lt]; omega) (by rw [abs_lt]; omega)]
      congr 1
      omega

/-! ### Numbers that survive -/

theorem zero_back {N : Floats} (hN : Real N) (b : Bool) : JsonText.Spec.FloatBack N (.zero b) := by
  refine floatBack_of hN trivial rfl ?_
  have hw : N.write (.zero b) = sign b ++ c!"0.0" := hN.write (.zero b) trivial
  rw [hw, hN.read]
  cases b with
  | false => exact (by kernel_rfl : Reader.read c!"0.0" = some (.zero false))
  | true => exact (by kernel_rfl : Reader.read c!"-0.0" = some (.zero true))

theorem even_bin {n : ℕ} (h : n ≤ 2 ^ 53) : IsBin64 ((n * 2 : ℕ) : ℚ) := by
  rcases h.lt_or_eq with h | h
  · exact ⟨n, 1, by rw [abs_of_nonneg (by positivity)]; exact_mod_cast h, by norm_num, by norm_num, by push_cast; norm_num⟩
  · exact ⟨1, 54, by norm_num, by norm_num, by norm_num, by rw [h]; norm_num⟩

/-- **C138.** A number with at most 15 digits, of which at most 22 follow the point, is written to JSON and read as the same number. -/
theorem C138_short (N : Floats) (hN : Real N) (x : F64) (h : Short x) : JsonText.Spec.FloatBack N x := by
  obtain ⟨neg, m, k, hm, hk, hx⟩ := h
  rcases Nat.eq_zero_or_pos m with rfl | hm0
  · have : x = .zero neg := by simpa [Nearest] using hx
    rw [this]; exact zero_back hN neg
  have hx' := nearest_signed hx
  set D := dec m (-(k : ℤ)) with hD
  have hm1 : (1 : ℚ) ≤ m := by exact_mod_cast hm0
  have hm15 : (m : ℚ) < 10 ^ 15 := by exact_mod_cast hm
  have hp22 : (0 : ℚ) < 10 ^ (-(k : ℤ)) := by positivity
  have hlow : (10 : ℚ) ^ (-22 : ℤ) ≤ 10 ^ (-(k : ℤ)) := zpow_le_zpow_right₀ (by norm_num) (by omega)
  have hDlow : (10 : ℚ) ^ (-22 : ℤ) ≤ D := by
    rw [hD, dec]
    exact hlow.trans (le_mul_of_one_le_left hp22.le hm1)
  have hDhigh : D < 10 ^ 15 := by
    rw [hD, dec]
    have : (10 : ℚ) ^ (-(k : ℤ)) ≤ 1 := zpow_le_one_of_nonpos₀ (by norm_num) (by omega)
    exact lt_of_le_of_lt (mul_le_of_le_one_right (by positivity) this) hm15
  have hDpos : 0 < D := lt_of_lt_of_le (by norm_num) hDlow
  have hsm : (2 : ℚ) ^ (-1022 : ℤ) ≤ 2 ^ (-100 : ℤ) := zpow_le_zpow_right₀ (by norm_num) (by norm_num)
  have hDn : (2 : ℚ) ^ (-1022 : ℤ) ≤ D := by
    refine hsm.trans (le_trans ?_ hDlow)
    norm_num
  rw [signed, if_neg hDpos.ne'] at hx'
  have hr := F64.roundPos_pos hDpos
  cases hv : F64.roundPos false D with
  | nan => rw [hv] at hr; exact hr.elim
  | inf b =>
    exfalso
    rw [hv] at hr
    have h1 := hr.1
    rw [abs_of_pos hDpos, two1024_eq] at h1
    have h2 : (2 : ℚ) ^ 200 ≤ 2 ^ 970 := pow_le_pow_right₀ (by norm_num) (by norm_num)
    generalize (2 : ℚ) ^ 970 = T at h1 h2
    have h3 := h1.trans_lt hDhigh
    norm_num at h2 h3
    linarith
  | zero b =>
    exfalso
    rw [hv] at hr
    have h1 := hr.1 (2 ^ (-100 : ℤ)) ⟨1, -100, by norm_num, by norm_num, by norm_num, by simp⟩
    rw [abs_of_pos hDpos, abs_of_nonneg (sub_nonneg.2 (le_trans (by norm_num) hDlow))] at h1
    have : (0 : ℚ) < 2 ^ (-100 : ℤ) := by positivity
    linarith
  | fin v =>
    rw [hv] at hr
    have hc := F64.rounded_close hr (by rwa [abs_of_pos hDpos])
    rw [abs_of_pos hDpos] at hc
    have hc' := abs_le.1 hc
    have hvpos : 0 < v := by norm_num at hc'; linarith
    have hvn : (2 : ℚ) ^ (-1022 : ℤ) < v := by
      refine lt_of_le_of_lt hsm ?_
      have : (2 : ℚ) ^ (-100 : ℤ) < 10 ^ (-22 : ℤ) / 2 := by norm_num
      generalize (2 : ℚ) ^ (-100 : ℤ) = A at this ⊢
      generalize (10 : ℚ) ^ (-22 : ℤ) = B at this hDlow
      norm_num at hc'
      linarith
    -- the number with its sign
    obtain ⟨q, hq, hqv, hqn⟩ : ∃ q : ℚ, x = .fin q ∧ |q| = v ∧ decide (q < 0) = neg := by
      cases neg with
      | false => exact ⟨v, by rw [hx', hv], abs_of_pos hvpos, by simp [hvpos.le]⟩
      | true => exact ⟨-v, by rw [hx', F64.roundPos_true, hv]; rfl, by rw [abs_neg, abs_of_pos hvpos], by simp [hvpos]⟩
    have hqb : IsBin64 q := by
      cases neg with
      | false =>
        have : 0 ≤ q := by simpa using hqn
        rw [abs_of_nonneg this] at hqv; rw [hqv]; exact hr.2.1
      | true =>
        have : q < 0 := by simpa using hqn
        rw [abs_of_neg this] at hqv
        rw [show q = -v by linarith]; exact F64.isBin64_neg hr.2.1
    have hq0 : q ≠ 0 := by rintro rfl; rw [abs_zero] at hqv; exact hvpos.ne hqv
    subst hq
    obtain ⟨m', e', hs, hm0', _, b1, b2, hread⟩ := read_write hN hqb (by rw [hqv]; exact hvn)
    rw [hqv] at hs
    have hm15' : m' < 10 ^ 15 := hs.short m (-(k : ℤ)) 15 hr hm
    have hsame : dec m' e' = D := fifteen hm15' hm (shortest_normal hvn hs.back) hDn hs.back hr
    refine floatBack_of hN ⟨hq0, hqb⟩ rfl ?_
    have hval : ∀ M : ℕ, ∀ K : ℤ, dec M K = dec m' e' → signed (decide (q < 0)) (dec M K) = .fin q := by
      intro M K h
      rw [h, hsame, hqn, signed, if_neg hDpos.ne', ← hx']
    have hlen : (digits m').length + e' ≤ 15 := by
      have h1 := dec_low hm0' e'
      rw [hsame] at h1
      have h2 : D < (10 : ℚ) ^ (15 : ℤ) := by exact_mod_cast hDhigh
      have := ten_lt (h1.trans_lt h2)
      omega
    have hek : -(k : ℤ) ≤ e' := by
      by_contra hlt
      obtain ⟨j, hj⟩ := Int.eq_ofNat_of_zero_le (show 0 ≤ -(k : ℤ) - e' - 1 by omega)
      refine shortest_not_ten hvpos hs ?_
      have h1 : -(k : ℤ) = e' + (j + 1 : ℕ) := by push_cast; omega
      rw [hD, h1, ← dec_zeros] at hsame
      have h2 : m' = m * 10 ^ (j + 1) := by
        have h3 : ¬ m' < m * 10 ^ (j + 1) := fun h => by have := (dec_lt (e := e')).2 h; rw [hsame] at this; exact lt_irrefl _ this
        have h4 : ¬ m * 10 ^ (j + 1) < m' := fun h => by have := (dec_lt (e := e')).2 h; rw [hsame] at this; exact lt_irrefl _ this
        omega
      rw [h2, pow_succ]
      exact ⟨m * 10 ^ j, by ring⟩
    rcases hread with ⟨he, _, hrd⟩ | ⟨he, hrd⟩
    · obtain ⟨n, rfl⟩ := Int.eq_ofNat_of_zero_le he
      rw [Int.toNat_natCast] at hrd
      have hdec : dec m' (n : ℤ) = ((m' * 10 ^ n : ℕ) : ℚ) := by simp [dec]
      have hlt : m' * 10 ^ n < 10 ^ 15 := by
        rw [hdec] at hsame
        have : ((m' * 10 ^ n : ℕ) : ℚ) < (10 ^ 15 : ℕ) := by rw [hsame]; push_cast; exact hDhigh
        exact_mod_cast this
      have hb10 : IsBin64 ((m' * 10 ^ n * 10 : ℕ) : ℚ) := by
        have := even_bin (n := m' * 10 ^ n * 5) (by omega)
        rwa [show m' * 10 ^ n * 10 = m' * 10 ^ n * 5 * 2 by ring]
      have h10 : dec (m' * 10 ^ n * 10) (-1) = dec m' (n : ℤ) := by
        rw [hdec]; simp [dec]
      rw [hrd, fromParts_exact _ hb10 (by omega) (by norm_num), hval _ _ h10]
    · have he' : |e'| ≤ 22 := by
        rw [abs_le]
        constructor <;> omega
      have hb : IsBin64 (m' : ℚ) := by
        have := F64.isBin64_int (m' : ℤ) (by rw [abs_of_nonneg (by positivity)]; omega)
        exact_mod_cast this
      rw [hrd, fromParts_exact _ hb (by omega) he', hval _ _ rfl]

/-- **C138.** A whole number up to 1801439850948198 is written to JSON and read as the same number. -/
theorem C138_whole (N : Floats) (hN : Real N) (x : F64) (h : Whole x) : JsonText.Spec.FloatBack N x := by
  obtain ⟨i, hi, rfl⟩ := h
  have hi' := abs_le.1 hi
  rw [F64.ofInt_exact i (by rw [abs_le]; omega)]
  unfold F64.ofIntExact
  split
  · exact zero_back hN false
  rename_i h0
  have hq0 : (i : ℚ) ≠ 0 := by exact_mod_cast h0
  have hb := F64.isBin64_int i (by rw [abs_le]; omega)
  have habs : |(i : ℚ)| = (i.natAbs : ℚ) := by rw [Nat.cast_natAbs]; push_cast; rfl
  have h1 : (1 : ℚ) ≤ |(i : ℚ)| := by
    rw [habs]
    exact_mod_cast (show 1 ≤ i.natAbs by omega)
  have hn : (2 : ℚ) ^ (-1022 : ℤ) < |(i : ℚ)| := by
    refine lt_of_lt_of_le ?_ h1
    exact zpow_lt_one_of_neg₀ (by norm_num) (by norm_num)
  obtain ⟨m, e, hs, hm0, _, b1, b2, hread⟩ := read_write hN hb hn
  have hs' := hs
  rw [habs] at hs'
  obtain ⟨he, hd⟩ := shortest_whole (by omega) (by omega) hs'
  refine floatBack_of hN ⟨hq0, hb⟩ rfl ?_
  obtain ⟨n, rfl⟩ := Int.eq_ofNat_of_zero_le he
  have hdec : dec m (n : ℤ) = ((m * 10 ^ n : ℕ) : ℚ) := by simp [dec]
  have hN' : m * 10 ^ n = i.natAbs := by rw [hdec] at hd; exact_mod_cast hd
  have hlen : (digits m).length + (n : ℤ) ≤ 16 := by
    have g1 := dec_low hm0 n
    rw [hd] at g1
    have g2 : (i.natAbs : ℚ) < (10 : ℚ) ^ (16 : ℤ) := by
      have : (i.natAbs : ℚ) < ((10 ^ 16 : ℕ) : ℚ) := by exact_mod_cast (show i.natAbs < 10 ^ 16 by omega)
      exact_mod_cast this
    have := ten_lt (g1.trans_lt g2)
    omega
  rcases hread with ⟨_, _, hrd⟩ | ⟨hne, _⟩
  · rw [Int.toNat_natCast, hN'] at hrd
    have hb10 : IsBin64 ((i.natAbs * 10 : ℕ) : ℚ) := by
      have := even_bin (n := i.natAbs * 5) (by omega)
      rwa [show i.natAbs * 10 = i.natAbs * 5 * 2 by ring]
    rw [hrd, fromParts_exact _ hb10 (by omega) (by norm_num)]
    have h10 : dec (i.natAbs * 10) (-1) = dec m (n : ℤ) := by
      rw [hd]; simp [dec]
    rw [h10]
    exact congrArg some (signed_back hq0 hs.back)
  · exact absurd ⟨he, hlen⟩ hne

/-! ### All others nearly -/

theorem round_close {v : ℚ} (h : (2 : ℚ) ^ (-1022 : ℤ) ≤ v) (h2 : v < 2 ^ 970 * (2 ^ 54 - 1)) : ∃ w, F64.round v = .fin w ∧ 0 < w ∧ |w - v| ≤ v * (1 / 2 ^ 53) := by
  have hv : 0 < v := (F64.pow2_pos _).trans_le h
  have hr := F64.round_isRounded hv.ne' false
  cases hx : F64.round v with
  | nan => rw [hx] at hr; exact hr.elim
  | inf b =>
    rw [hx] at hr
    have h1 := hr.1
    rw [abs_of_pos hv, two1024_eq] at h1
    exact absurd h2 (not_lt.2 h1)
  | zero b =>
    exfalso
    rw [hx] at hr
    have h1 := hr.1 (2 ^ (-1022 : ℤ)) ⟨1, -1022, by norm_num, by norm_num, by norm_num, by simp⟩
    rw [abs_of_pos hv, abs_of_nonneg (sub_nonneg.2 h)] at h1
    have := F64.pow2_pos (-1022)
    linarith
  | fin w =>
    rw [hx] at hr
    have hc := F64.rounded_close hr (by rwa [abs_of_pos hv])
    rw [abs_of_pos hv] at hc
    refine ⟨w, rfl, ?_, hc⟩
    have := (abs_le.1 hc).1
    norm_num at this
    linarith

theorem big {n : ℕ} (h : n ≤ 900) {v : ℚ} (hv : v < 2 ^ n) : v < 2 ^ 970 * (2 ^ 54 - 1) := by
  have h1 : (2 : ℚ) ^ n ≤ 2 ^ 970 := pow_le_pow_right₀ (by norm_num) (by omega)
  have h2 : (0 : ℚ) < 2 ^ 970 := by positivity
  generalize (2 : ℚ) ^ 970 = T at *
  have : T ≤ T * (2 ^ 54 - 1) := le_mul_of_one_le_right h2.le (by norm_num)
  exact (hv.trans_le h1).trans_le this

theorem ten308 : (10 : ℚ) ^ 308 * 1.5 < 2 ^ 970 * (2 ^ 54 - 1) := by
  have : 10 ^ 308 * 3 < 2 ^ 970 * (2 ^ 54 - 1) * 2 := by decide +kernel
  have h : ((10 ^ 308 * 3 : ℕ) : ℚ) < ((2 ^ 970 * (2 ^ 54 - 1) * 2 : ℕ) : ℚ) := by exact_mod_cast this
  rw [Nat.cast_mul, Nat.cast_mul, Nat.cast_mul, Nat.cast_pow, Nat.cast_pow, Nat.cast_sub (by norm_num), Nat.cast_pow] at h
  push_cast at h
  generalize (10 : ℚ) ^ 308 = A at *
  generalize (2 : ℚ) ^ 970 = B at *
  norm_num at h ⊢
  linarith

theorem one_normal : (2 : ℚ) ^ (-1022 : ℤ) ≤ 1 := zpow_le_one_of_nonpos₀ (by norm_num) (by norm_num)

theorem fromParts_close (neg : Bool) {M : ℕ} {K : ℤ} (h0 : 0 < M) (hM : M < 2 ^ 64) (hK : |K| ≤ 308) (hlow : (2 : ℚ) ^ (-1021 : ℤ) ≤ dec M K) (hhigh : dec M K ≤ 10 ^ 308 * (5 / 4)) :
    ∃ g : ℚ, fromParts neg M K = some (.fin (if neg then -g else g)) ∧ |g - dec M K| ≤ dec M K * (5 / 2 ^ 53) := by
  have hK' := abs_le.1 hK
  have h308 : K.natAbs ≤ 308 := by omega
  have hMq : (1 : ℚ) ≤ M := by exact_mod_cast h0
  have hD : 0 < dec M K := by unfold dec; positivity
  obtain ⟨f, hf, hf0, hfc⟩ := round_close (v := (M : ℚ)) (one_normal.trans hMq) (big (n := 64) (by norm_num) (by exact_mod_cast hM))
  have hP1 : (1 : ℚ) ≤ 10 ^ K.natAbs := one_le_pow₀ (by norm_num)
  have hP308 : (10 : ℚ) ^ K.natAbs ≤ 10 ^ 308 := pow_le_pow_right₀ (by norm_num) h308
  obtain ⟨p, hp, hp0, hpc⟩ := round_close (v := (10 : ℚ) ^ K.natAbs) (one_normal.trans hP1) (by
    refine lt_of_le_of_lt hP308 (lt_of_le_of_lt ?_ ten308)
    generalize (10 : ℚ) ^ 308 = A at *
    linarith)
  have hfM : F64.ofNat M = .fin f := by unfold F64.ofNat F64.ofInt; push_cast; exact hf
  have hpP : pow10 K.natAbs = .fin p := by unfold pow10 F64.ofNat F64.ofInt; push_cast; exact hp
  have a1 := abs_le.1 hfc
  have a2 := abs_le.1 hpc
  have two : (2 : ℚ) ^ (-1021 : ℤ) = 2 ^ (-1022 : ℤ) * 2 := by rw [← zpow_add_one₀ (by norm_num)]; norm_num
  rw [two] at hlow
  have fin : ∀ y : ℚ, |y - dec M K| ≤ dec M K * (3 / 2 ^ 53) → ∃ g, F64.round y = .fin g ∧ |g - dec M K| ≤ dec M K * (5 / 2 ^ 53) := by
    intro y hy
    have b := abs_le.1 hy
    have hu : (0 : ℚ) < 2 ^ (-1022 : ℤ) := F64.pow2_pos _
    have ht := ten308
    have hyn : (2 : ℚ) ^ (-1022 : ℤ) ≤ y := by
      generalize (2 : ℚ) ^ (-1022 : ℤ) = u at *
      norm_num at b
      linarith
    obtain ⟨g, hg, _, hgc⟩ := round_close (v := y) hyn (by
      refine lt_of_le_of_lt ?_ ht
      generalize (10 : ℚ) ^ 308 = A at *
      norm_num at b ⊢
      linarith)
    refine ⟨g, hg, ?_⟩
    have c := abs_le.1 hgc
    rw [abs_le]
    norm_num at b c ⊢
    constructor <;> linarith
  unfold fromParts
  rw [scale, if_pos h308, hfM, hpP]
  by_cases hk : 0 ≤ K
  · rw [if_pos hk]
    have hv : (M : ℚ) * 10 ^ K.natAbs = dec M K := by
      unfold dec
      rw [← zpow_natCast, Int.natAbs_of_nonneg hk]
    obtain ⟨g, hg, hgc⟩ := fin (f * p) (by
      rw [← hv]
      generalize (10 : ℚ) ^ K.natAbs = P at *
      rw [abs_le]
      have k1 : f * p ≤ (M + M * (1 / 2 ^ 53)) * (P + P * (1 / 2 ^ 53)) := mul_le_mul (by linarith) (by linarith) hp0.le (by positivity)
      have k2 : (M - M * (1 / 2 ^ 53)) * (P - P * (1 / 2 ^ 53)) ≤ f * p := mul_le_mul (by linarith) (by linarith) (by norm_num; linarith) hf0.le
      have hMP : 0 < (M : ℚ) * P := by positivity
      have e1 : (M + M * (1 / 2 ^ 53)) * (P + P * (1 / 2 ^ 53)) = (M : ℚ) * P * ((1 + 1 / 2 ^ 53) * (1 + 1 / 2 ^ 53)) := by ring
      have e2 : (M - M * (1 / 2 ^ 53)) * (P - P * (1 / 2 ^ 53)) = (M : ℚ) * P * ((1 - 1 / 2 ^ 53) * (1 - 1 / 2 ^ 53)) := by ring
      rw [e1] at k1
      rw [e2] at k2
      norm_num at k1 k2 ⊢
      constructor <;> linarith)
    have hmul : F64.mul (.fin f) (.fin p) = .fin g := hg
    refine ⟨g, ?_, hgc⟩
    rw [hmul]
    cases neg <;> rfl
  · rw [if_neg hk]
    have hv : (M : ℚ) / 10 ^ K.natAbs = dec M K := by
      unfold dec
      have : K = -(K.natAbs : ℤ) := by omega
      conv_rhs => rw [this, zpow_neg, zpow_natCast]
      rfl
    obtain ⟨g, hg, hgc⟩ := fin (f / p) (by
      have hDP : (M : ℚ) = dec M K * 10 ^ K.natAbs := by rw [← hv]; field_simp
      generalize (10 : ℚ) ^ K.natAbs = P at *
      generalize dec M K = D at *
      rw [abs_le]
      rw [neg_le_sub_iff_le_add, sub_le_iff_le_add, ← sub_le_iff_le_add, le_div_iff₀ hp0, div_le_iff₀ hp0]
      have hDP0 : 0 < D * P := by positivity
      constructor
      · have : (D - D * (3 / 2 ^ 53)) * p ≤ (D - D * (3 / 2 ^ 53)) * (P + P * (1 / 2 ^ 53)) := mul_le_mul_of_nonneg_left (by linarith) (by norm_num; linarith)
        have e : (D - D * (3 / 2 ^ 53)) * (P + P * (1 / 2 ^ 53)) = D * P * ((1 - 3 / 2 ^ 53) * (1 + 1 / 2 ^ 53)) := by ring
        rw [e] at this
        refine this.trans ?_
        rw [hDP] at a1
        norm_num at a1 ⊢
        linarith
      · have : (D * (3 / 2 ^ 53) + D) * (P - P * (1 / 2 ^ 53)) ≤ (D * (3 / 2 ^ 53) + D) * p := mul_le_mul_of_nonneg_left (by linarith) (by positivity)
        have e : (D * (3 / 2 ^ 53) + D) * (P - P * (1 / 2 ^ 53)) = D * P * ((1 + 3 / 2 ^ 53) * (1 - 1 / 2 ^ 53)) := by ring
        rw [e] at this
        refine le_trans ?_ this
        rw [hDP] at a1
        norm_num at a1 ⊢
        linarith)
    have hdiv : F64.div (.fin f) (.fin p) = .fin g := hg
    refine ⟨g, ?_, hgc⟩
    rw [hdiv]
    cases neg <;> rfl

/-- **C138.** Every number between 10^-290 and 10^308 in magnitude is read as a number within one part in 2^50 of it, with the same sign. -/
theorem C138_close (N : Floats) (hN : Real N) (q : ℚ) (hb : IsBin64 q) (h1 : (10 : ℚ) ^ (-290 : ℤ) ≤ |q|) (h2 : |q| ≤ 10 ^ 308) :
    ∃ r, N.read (N.write (.fin q)) = some (.fin r) ∧ |r - q| ≤ |q| / 2 ^ 50 := by
  have htiny : (2 : ℚ) ^ (-1020 : ℤ) ≤ 10 ^ (-290 : ℤ) := by
    rw [zpow_neg, zpow_neg]
    apply inv_anti₀ (by positivity)
    have : (10 : ℚ) ^ (290 : ℕ) ≤ 2 ^ (1020 : ℕ) := by exact_mod_cast (show 10 ^ 290 ≤ 2 ^ 1020 by decide +kernel)
    exact_mod_cast this
  have t1 : (2 : ℚ) ^ (-1020 : ℤ) = 2 ^ (-1021 : ℤ) * 2 := by rw [← zpow_add_one₀ (by norm_num)]; norm_num
  have t2 : (2 : ℚ) ^ (-1021 : ℤ) = 2 ^ (-1022 : ℤ) * 2 := by rw [← zpow_add_one₀ (by norm_num)]; norm_num
  have t0 : (0 : ℚ) < 2 ^ (-1022 : ℤ) := F64.pow2_pos _
  have hq1 : (2 : ℚ) ^ (-1021 : ℤ) * 2 ≤ |q| := t1 ▸ (htiny.trans h1)
  have hn : (2 : ℚ) ^ (-1022 : ℤ) < |q| := by rw [t2] at hq1; linarith
  obtain ⟨m, e, hs, hm0, hm17, b1, b2, hread⟩ := read_write hN hb hn
  have hDn := shortest_normal hn hs.back
  have hD : 0 < dec m e := t0.trans_le hDn
  have hc := F64.rounded_close hs.back (by rwa [abs_of_pos hD])
  rw [abs_of_pos hD] at hc
  have hc' := abs_le.1 hc
  have hpos : 0 < |q| := t0.trans hn
  have hlow : (2 : ℚ) ^ (-1021 : ℤ) ≤ dec m e := by
    have := F64.pow2_pos (-1021)
    generalize (2 : ℚ) ^ (-1021 : ℤ) = u at *
    norm_num at hc'
    linarith
  have hhigh : dec m e ≤ 10 ^ 308 * (5 / 4) := by
    generalize (10 : ℚ) ^ 308 = A at *
    norm_num at hc'
    linarith
  have close : ∀ (M : ℕ) (K : ℤ), 0 < M → M < 2 ^ 64 → |K| ≤ 308 → dec M K = dec m e → N.read (N.write (.fin q)) = fromParts (decide (q < 0)) M K →
      ∃ r, N.read (N.write (.fin q)) = some (.fin r) ∧ |r - q| ≤ |q| / 2 ^ 50 := by
    intro M K hM0 hM hK hd hr
    obtain ⟨g, hg, hgc⟩ := fromParts_close (decide (q < 0)) hM0 hM hK (hd ▸ hlow) (hd ▸ hhigh)
    refine ⟨_, hr.trans hg, ?_⟩
    rw [hd] at hgc
    have hgc' := abs_le.1 hgc
    have key : abs (g - abs q) ≤ abs q / 2 ^ 50 := by
      rw [abs_le]
      norm_num at hc' hgc' ⊢
      constructor <;> linarith
    by_cases hq : q < 0
    · rw [decide_eq_true hq, if_pos rfl]
      rw [abs_of_neg hq] at key ⊢
      rw [show -g - q = -(g - -q) by ring, abs_neg]
      exact key
    · rw [decide_eq_false hq, if_neg (by simp)]
      rwa [abs_of_nonneg (not_lt.1 hq)] at key ⊢
  rcases hread with ⟨he, hlen, hrd⟩ | ⟨he, hrd⟩
  · obtain ⟨n, rfl⟩ := Int.eq_ofNat_of_zero_le he
    rw [Int.toNat_natCast] at hrd
    have hdec : dec m (n : ℤ) = ((m * 10 ^ n : ℕ) : ℚ) := by simp [dec]
    have hlt : m * 10 ^ n < 10 ^ 16 := by
      have h1 : m < 10 ^ (digits m).length := (Nat.length_toDigits_le_iff (b := 10) (by norm_num) (length_pos m)).1 le_rfl
      calc m * 10 ^ n < 10 ^ (digits m).length * 10 ^ n := Nat.mul_lt_mul_of_pos_right h1 (by positivity)
        _ = 10 ^ ((digits m).length + n) := (pow_add _ _ _).symm
        _ ≤ 10 ^ 16 := Nat.pow_le_pow_right (by norm_num) (by omega)
    exact close _ _ (by positivity) (by omega) (by norm_num) (by rw [hdec]; simp [dec]) hrd
  · refine close m e hm0 (by omega) ?_ rfl hrd
    have g1 := dec_lt_ten hm17 e
    have g2 : (10 : ℚ) ^ (-291 : ℤ) < dec m e := by
      have : (10 : ℚ) ^ (-290 : ℤ) = 10 ^ (-291 : ℤ) * 10 := by rw [← zpow_add_one₀ (by norm_num)]; norm_num
      rw [this] at h1
      have : (0 : ℚ) < 10 ^ (-291 : ℤ) := by positivity
      generalize (10 : ℚ) ^ (-291 : ℤ) = A at *
      norm_num at hc'
      linarith
    have g3 := ten_lt (g2.trans g1)
    have g4 := dec_low hm0 e
    have g5 : dec m e < 10 ^ (309 : ℤ) := by
      refine lt_of_le_of_lt hhigh ?_
      have : (10 : ℚ) ^ (309 : ℤ) = 10 ^ 308 * 10 := by rw [← pow_succ]; rfl
      rw [this]
      exact mul_lt_mul_of_pos_left (by norm_num) (by positivity)
    have g6 := ten_lt (g4.trans_lt g5)
    have := length_pos m
    rw [abs_le]
    push_cast at g3
    constructor <;> omega

/-- **C138.** Every JSON number between 10^-288 and 10^308 in magnitude, with any number of digits, is read as a double within one part in 2^50 of its value. -/
theorem C138_text (N : Floats) (hN : Real N) (t : Str) (neg : Bool) (m f : ℕ) (x : ℤ) (h : Written t neg m f x) (hl : t.length < 2 ^ 29)
    (h1 : (10 : ℚ) ^ (-288 : ℤ) ≤ dec m (x - f)) (h2 : dec m (x - f) ≤ 10 ^ 308) :
    ∃ r, N.read t = some (.fin r) ∧ |r - (if neg then -dec m (x - f) else dec m (x - f))| ≤ dec m (x - f) / 2 ^ 50 := by
  have ten0 : (0 : ℚ) < 10 ^ (-288 : ℤ) := by positivity
  have hV : 0 < dec m (x - f) := ten0.trans_le h1
  have hm0 : 0 < m := by
    rcases Nat.eq_zero_or_pos m with rfl | h
    · simp [dec] at hV
    · exact h
  -- the exponent is not far away from the number of digits
  have hdig : m < 10 ^ t.length ∧ f ≤ t.length := by
    obtain ⟨ds, fs, e, hi, hfs, he, hm, hf, ht⟩ := h
    have hb := natOf_bound (ds ++ fs) (by
      intro c hc
      rcases List.mem_append.1 hc with h | h
      · exact hi.1.2 c h
      · exact hfs c h)
    have hlen : (ds ++ fs).length ≤ t.length := by
      rw [ht]
      simp only [List.length_append]
      split
      · rename_i h0; subst h0; simp; omega
      · simp; omega
    refine ⟨hm ▸ hb.trans_le (Nat.pow_le_pow_right (by norm_num) hlen), ?_⟩
    rw [List.length_append] at hlen
    omega
  have hup : x - f ≤ 308 := by
    have : (10 : ℚ) ^ (x - f) ≤ 10 ^ (308 : ℤ) := by
      refine le_trans ?_ (h2.trans (by norm_num))
      have hmq : (1 : ℚ) ≤ m := by exact_mod_cast hm0
      exact le_mul_of_one_le_left (by positivity) hmq
    exact (zpow_le_zpow_iff_right₀ (by norm_num)).1 this
  have hdown : -288 < t.length + (x - f) := by
    have : (10 : ℚ) ^ (-288 : ℤ) < 10 ^ (t.length + (x - f) : ℤ) := by
      refine lt_of_le_of_lt h1 ?_
      rw [zpow_add₀ (by norm_num), zpow_natCast]
      refine mul_lt_mul_of_pos_right ?_ (by positivity)
      exact_mod_cast hdig.1
    exact (zpow_lt_zpow_iff_right₀ (by norm_num)).1 this
  obtain ⟨M, j, hM, hrd, hc⟩ := read_any h hl (by rw [abs_lt]; constructor <;> omega)
  set K := x - f + j with hK
  have hE : dec M K = M * 10 ^ j * 10 ^ (x - f) := by
    unfold dec
    rw [hK, add_comm, zpow_add₀ (by norm_num), zpow_natCast]
    ring
  have hcl : |dec M K - dec m (x - f)| * 2 ^ 60 ≤ dec m (x - f) := by
    have hp : (0 : ℚ) < 10 ^ (x - f) := by positivity
    have := mul_le_mul_of_nonneg_right hc hp.le
    rw [hE]
    unfold dec
    rw [← sub_mul, abs_mul, abs_of_pos hp]
    linarith
  have hM0 : 0 < M := by
    rcases Nat.eq_zero_or_pos M with h | h
    · rw [h] at hcl
      simp only [dec, Nat.cast_zero, zero_mul, zero_sub, abs_neg] at hcl
      change |dec m (x - f)| * 2 ^ 60 ≤ dec m (x - f) at hcl
      rw [abs_of_pos hV] at hcl
      norm_num at hcl
      linarith
    · exact h
  have hab : |dec M K - dec m (x - f)| ≤ dec m (x - f) / 2 ^ 60 := by
    rw [le_div_iff₀ (by positivity)]; exact hcl
  have hab' := abs_le.1 hab
  have hlow : (10 : ℚ) ^ (-289 : ℤ) ≤ dec M K := by
    have : (10 : ℚ) ^ (-288 : ℤ) = 10 ^ (-289 : ℤ) * 10 := by rw [← zpow_add_one₀ (by norm_num)]; norm_num
    rw [this] at h1
    have : (0 : ℚ) < 10 ^ (-289 : ℤ) := by positivity
    generalize (10 : ℚ) ^ (-289 : ℤ) = A at *
    norm_num at hab'
    linarith
  have hhigh : dec M K ≤ 10 ^ 308 * (5 / 4) := by
    generalize (10 : ℚ) ^ 308 = A at *
    norm_num at hab'
    linarith
  have hK308 : |K| ≤ 308 := by
    have a : (10 : ℚ) ^ (-289 : ℤ) < 10 ^ (20 + K) := by
      refine lt_of_le_of_lt hlow ?_
      rw [zpow_add₀ (by norm_num)]
      refine mul_lt_mul_of_pos_right ?_ (by positivity)
      have : (M : ℚ) < ((10 ^ 20 : ℕ) : ℚ) := by exact_mod_cast hM.trans (by norm_num)
      exact_mod_cast this
    have a' := (zpow_lt_zpow_iff_right₀ (by norm_num)).1 a
    have b : (10 : ℚ) ^ K < 10 ^ (309 : ℤ) := by
      have hMq : (1 : ℚ) ≤ M := by exact_mod_cast hM0
      refine lt_of_le_of_lt ((le_mul_of_one_le_left (by positivity) hMq).trans hhigh) ?_
      have : (10 : ℚ) ^ (309 : ℤ) = 10 ^ 308 * 10 := by rw [← pow_succ]; rfl
      rw [this]
      exact mul_lt_mul_of_pos_left (by norm_num) (by positivity)
    have b' := (zpow_lt_zpow_iff_right₀ (by norm_num)).1 b
    rw [abs_le]
    constructor <;> omega
  have htiny : (2 : ℚ) ^ (-1021 : ℤ) ≤ 10 ^ (-289 : ℤ) := by
    rw [zpow_neg, zpow_neg]
    apply inv_anti₀ (by positivity)
    have : (10 : ℚ) ^ (289 : ℕ) ≤ 2 ^ (1021 : ℕ) := by exact_mod_cast (show 10 ^ 289 ≤ 2 ^ 1021 by decide +kernel)
    exact_mod_cast this
  obtain ⟨g, hg, hgc⟩ := fromParts_close neg hM0 hM hK308 (htiny.trans hlow) hhigh
  refine ⟨_, (hN.read t).trans (hrd.trans hg), ?_⟩
  have hgc' := abs_le.1 hgc
  have key : |g - dec m (x - f)| ≤ dec m (x - f) / 2 ^ 50 := by
    generalize dec m (x - f) = V at *
    rw [abs_le]
    norm_num at hgc' hab' ⊢
    constructor <;> linarith
  cases neg with
  | false => exact key
  | true =>
    rw [if_pos rfl, if_pos rfl, show -g - -dec m (x - f) = -(g - dec m (x - f)) by ring, abs_neg]
    exact key

/-- A number with thirty digits. -/
example : ∃ m f x, Written c!"-123456789012345678901234567890.5e-3" true m f x ∧ (10 : ℚ) ^ (-288 : ℤ) ≤ dec m (x - f) ∧ dec m (x - f) ≤ 10 ^ 308 := by
  refine ⟨1234567890123456789012345678905, 1, -3, ⟨c!"123456789012345678901234567890", c!"5", c!"e-3", ⟨⟨by simp, by decide⟩, by decide⟩, by decide, .minus (.inl rfl) ⟨by simp, by decide⟩, by decide +kernel, rfl, rfl⟩, ?_, ?_⟩
  · refine le_trans (zpow_le_one_of_nonpos₀ (by norm_num) (by norm_num)) ?_
    norm_num [dec]
  · refine le_trans ?_ (pow_le_pow_right₀ (by norm_num) (show 40 ≤ 308 by norm_num))
    norm_num [dec]

/-! ### Objects -/

/-- What is read of a number that was put into an object (`{a: :v}.a`) is what the reader makes of its text. -/
theorem C138_object (X : Ext) (N : Floats) (hu : Uses X N) (hN : Real N) (x : F64) (hx : IsDouble x) (hf : x.isFinite = true) (y : F64)
    (hy : N.read (N.write x) = some y) : throughObject X (.num x) = .ok (.num y) := by
  have ht := number_text hN hx hf
  have hj : (Value.num x).toJson X = .ok (.num (.float x)) := by simp [Value.toJson, Json.ofF64, hf]
  have hpr : X.jsonPrint (.obj [(c!"a", .num (.float x))]) = print N (.obj [(c!"a", .num (.float x))]) := hu.print _
  rw [throughObject_eq, hj]
  have hq : quote c!"a" = c!"\"a\"" := by decide
  have shape : print N (.obj [(c!"a", .num (.float x))]) = '{' :: (([] ++ '"' :: (c!"a" ++ '"' :: ([] ++ ':' :: ([] ++ (N.write x ++ []))))) ++ ['}']) := by
    simp only [print, printMembers, hq]
    simp
  have hp : parse N (print N (.obj [(c!"a", .num (.float x))])) = some (.obj [(c!"a", .num (.float y))]) := by
    refine (C127_reads N _ _).2 ⟨.obj [(c!"a", .num (.float y))], ⟨[], print N (.obj [(c!"a", .num (.float x))]), [], by simp, by simp [JsonText.Spec.Blank], ?_, by simp [JsonText.Spec.Blank]⟩, ?_⟩
    · rw [shape]
      exact .obj (d := 126) (.one (by simp [JsonText.Spec.Blank]) (quoted_escape c!"a") (by simp [JsonText.Spec.Blank]) (by simp [JsonText.Spec.Blank])
        (.num _ (.float y _ ht.1 ht.2 hy)) (by simp [JsonText.Spec.Blank]))
    · exact norm_iff.1 rfl
  have := (hu.parse _ _).2 hp
  rw [← hpr] at this
  simp only [Except.bind, parseJson, this, Json.get, objGet, if_true, Json.toValue]
  rfl

/-- **C138.** Values with such numbers come out of an object, and out of `to_json`, as they went in. -/
theorem C138_documents (X : Ext) (N : Floats) (hu : Uses X N) (hN : Real N) (v : Value) (hv : Plain v) (hx : ∀ x ∈ JsonText.Spec.numbers v, Short x ∨ Whole x) :
    (JsonText.Spec.nesting v ≤ 126 → throughObject X v = .ok v) ∧ (v ≠ .null → JsonText.Spec.nesting v ≤ 127 → throughToJson X v = .ok v) := by
  have h : ∀ x ∈ JsonText.Spec.numbers v, JsonText.Spec.FloatBack N x := fun x h => (hx x h).elim (C138_short N hN x) (C138_whole N hN x)
  exact ⟨(C127_through_object X N hu v hv h).1, fun h0 => (C127_through_text X N hu v hv h0 h).1⟩

/-- **C138.** A document with such numbers is read as it was written: as variables, in a request and in a reply. -/
theorem C138_reread (N : Floats) (hN : Real N) (j : Json) (hi : ExactInts j) (hk : JsonText.Spec.Keeps j j) (hx : ∀ x ∈ JsonText.Spec.doubles j, Short x ∨ Whole x)
    (hd : JsonText.Spec.depth j ≤ 127) : parse N (print N j) = some j := by
  have hn : norm j = j := norm_iff.2 hk
  have hs : JsonText.Spec.Sound N (norm j) := sound_norm j hi (by
    rw [hn]
    exact fun x h => (hx x h).elim (C138_short N hN x) (C138_whole N hN x))
  rw [hn] at hs
  exact (C127_round_trip N j hs).1 hd

/-- **C138.** Any number between 10^-290 and 10^308 in magnitude comes out of an object within one part in 2^50 of what it was. -/
theorem C138_object_close (X : Ext) (N : Floats) (hu : Uses X N) (hN : Real N) (q : ℚ) (hb : IsBin64 q) (h1 : (10 : ℚ) ^ (-290 : ℤ) ≤ |q|) (h2 : |q| ≤ 10 ^ 308) :
    ∃ r, throughObject X (.num (.fin q)) = .ok (.num (.fin r)) ∧ |r - q| ≤ |q| / 2 ^ 50 := by
  obtain ⟨r, hr, hc⟩ := C138_close N hN q hb h1 h2
  have hq : q ≠ 0 := by
    rintro rfl
    rw [abs_zero] at h1
    exact absurd h1 (not_le.2 (by positivity))
  exact ⟨r, C138_object X N hu hN (.fin q) (show q ≠ 0 ∧ IsBin64 q from ⟨hq, hb⟩) rfl _ hr, hc⟩

/-! ### Numbers that do not survive -/

theorem write_only {N : Floats} (hN : Real N) {q : ℚ} {p : ℤ} {n m : ℕ} {e : ℤ} {lo : ℕ} (h0 : 0 < q) (hb : IsBin64 q) (ho : Only q p n m e lo) :
    N.write (.fin q) = if -5 < ((digits m).length : ℤ) + e ∧ ((digits m).length : ℤ) + e ≤ 16 then plain c!".0" m e else scientific m e := by
  obtain ⟨m', e', hs, he⟩ := hN.write (.fin q) (show q ≠ 0 ∧ IsBin64 q from ⟨h0.ne', hb⟩)
  rw [abs_of_pos h0] at hs
  obtain ⟨rfl, rfl⟩ := shortest_only h0 ho hs
  rw [he, decide_eq_false (not_lt.2 h0.le)]
  rfl

/-- **C138 fails** for numbers with more digits: `100 * 1.1` is not 110, but `{a: 100 * 1.1}.a` is. -/
theorem C138_changed (X : Ext) (N : Floats) (hu : Uses X N) (hN : Real N) :
    ∃ x, evaluate X c!"100 * 1.1" = .ok (.num x) ∧ x ≠ .fin 110 ∧ throughObject X (.num x) = .ok (.num (.fin 110)) := by
  have hb : IsBin64 (7740561859543041 / 70368744177664) := ⟨7740561859543041, -46, by norm_num, by norm_num, by norm_num, by norm_num⟩
  refine ⟨.fin (7740561859543041 / 70368744177664), by kernel_rfl, by decide +kernel, ?_⟩
  refine C138_object X N hu hN (.fin (7740561859543041 / 70368744177664)) (And.intro (by norm_num) hb) rfl _ ?_
  rw [write_only hN (p := 3) (n := 17) (m := 11000000000000001) (e := -14) (lo := 11000000000000001) (by norm_num) hb
    { pos := by norm_num
      place := by norm_num
      size := by norm_num
      back := by norm_num [dec]; decide +kernel
      grid := by norm_num [dec]
      fewer := by
        intro _
        refine ⟨1100000000000000, by norm_num [dec], by norm_num [dec]; decide +kernel, by norm_num [dec]; decide +kernel⟩ }, hN.read]
  exact (by kernel_rfl : Reader.read c!"110.00000000000001" = some (.fin 110))

/-- **C138 fails** for the first whole number beyond the bound of `C138_whole`: `{a: 1801439850948199}.a` is not a whole number. -/
theorem C138_whole_changed (X : Ext) (N : Floats) (hu : Uses X N) (hN : Real N) :
    throughObject X (.num (.fin 1801439850948199)) = .ok (.num (.fin (1801439850948199 + 1 / 4))) := by
  have hb : IsBin64 1801439850948199 := ⟨1801439850948199, 0, by norm_num, by norm_num, by norm_num, by norm_num⟩
  refine C138_object X N hu hN (.fin (1801439850948199)) (And.intro (by norm_num) hb) rfl _ ?_
  rw [write_only hN (p := 16) (n := 16) (m := 1801439850948199) (e := 0) (lo := 1801439850948199) (by norm_num) hb
    { pos := by norm_num
      place := by norm_num
      size := by norm_num
      back := by norm_num [dec]; decide +kernel
      grid := by norm_num [dec]
      fewer := by
        intro _
        refine ⟨180143985094819, by norm_num [dec], by norm_num [dec]; decide +kernel, by norm_num [dec]; decide +kernel⟩ }, hN.read]
  exact (by kernel_rfl : Reader.read c!"1801439850948199.0" = some (.fin (1801439850948199 + 1 / 4)))

/-- **C138.** A number in the variables of a caller is not always the number that the same digits stand for in an expression: `:x == 110.00000000000001` is
false for `{"x": 110.00000000000001}`. -/
theorem C138_variable (X : Ext) (N : Floats) (hu : Uses X N) (hN : Real N) :
    evaluateWithJson X c!":x == 110.00000000000001" c!"{\"x\": 110.00000000000001}" = .ok (.bool false) := by
  have hN' : N = ⟨N.write, Reader.read⟩ := by
    obtain ⟨w, r⟩ := N
    exact congrArg (Floats.mk w) (funext hN.read)
  have hp : parse N c!"{\"x\": 110.00000000000001}" = some (.obj [(c!"x", .num (.float (.fin 110)))]) := by
    rw [hN']
    generalize N.write = w
    kernel_rfl
  have := (hu.parse _ _).2 hp
  have hv : jsonVars X c!"{\"x\": 110.00000000000001}" =
      .ok (bindMembers X [(c!"x", .num (.float (.fin 110)))] (Env.empty.insert c!"arguments" (.json c!"{\"x\": 110.00000000000001}"))) := by
    simp only [jsonVars, parseJson, this]
    rfl
  rw [evaluateWithJson, hv]
  exact (by kernel_rfl : evaluateWith X c!":x == 110.00000000000001"
    (bindMembers X [(c!"x", .num (.float (.fin 110)))] (Env.empty.insert c!"arguments" (.json c!"{\"x\": 110.00000000000001}"))) = .ok (.bool false))

/-! ### The hypotheses can be met -/

/-- The assumption about the library can be met. -/
theorem C138_exists : ∃ N, Real N := by
  obtain ⟨N, hN⟩ := C137_json_exists
  exact ⟨⟨N.write, Reader.read⟩, ⟨hN.write, fun _ => rfl⟩⟩

/-- `0.1`, `-12.5` and `123456789012345` are short. -/
example : Short tenth ∧ Short (.fin (-25 / 2)) ∧ Short (.fin 123456789012345) := by
  refine ⟨⟨false, 1, 1, by norm_num, by norm_num, ?_⟩, ⟨true, 125, 1, by norm_num, by norm_num, ?_⟩, ⟨false, 123456789012345, 0, by norm_num, by norm_num, ?_⟩⟩
  · have : signed false (dec 1 (-(1 : ℕ))) = tenth := by norm_num [signed, dec]; decide +kernel
    exact this ▸ signed_nearest _ _ _
  · have : signed true (dec 125 (-(1 : ℕ))) = .fin (-25 / 2) := by norm_num [signed, dec]; decide +kernel
    exact this ▸ signed_nearest _ _ _
  · have : signed false (dec 123456789012345 (-(0 : ℕ))) = .fin 123456789012345 := by norm_num [signed, dec]; decide +kernel
    exact this ▸ signed_nearest _ _ _

example : Written c!"-12.50E+3" true 1250 2 3 :=
  ⟨c!"12", c!"50", c!"E+3", ⟨⟨by simp, by decide⟩, by decide⟩, by decide, .plus (.inr rfl) (.inr rfl) ⟨by simp, by decide⟩, rfl, rfl, rfl⟩

example : Whole (.fin (-1801439850948198)) := ⟨-1801439850948198, by norm_num, by decide +kernel⟩

end JsonRead
