import Verif.Spec.Binary64
import Mathlib.Data.Rat.Floor
import Mathlib.Tactic.Linarith
import Mathlib.Tactic.Ring
import Mathlib.Tactic.FieldSimp
import Mathlib.Tactic.Positivity
import Mathlib.Tactic.NormNum
/-! The model's rounding is correct rounding. -/

namespace F64
open Spec

theorem pow2_eq (e : ℤ) : pow2 e = 2 ^ e := by
  unfold pow2
  split
  · rename_i h
    obtain ⟨n, rfl⟩ := Int.eq_ofNat_of_zero_le h
    simp
  · rename_i h
    obtain ⟨n, hn⟩ := Int.eq_ofNat_of_zero_le (a := -e) (by omega)
    have : e = -(n : ℤ) := by omega
    subst this
    simp

theorem pow2_pos (e : ℤ) : (0 : ℚ) < 2 ^ e := by positivity

theorem log2_spec (q : ℚ) (hq : 0 < q) : (2 : ℚ) ^ (log2 q) ≤ q ∧ q < 2 ^ (log2 q + 1) := by
  have hn : 0 < q.num := Rat.num_pos.2 hq
  obtain ⟨n, hn'⟩ := Int.eq_ofNat_of_zero_le hn.le
  have hn0 : n ≠ 0 := by rintro rfl; simp [hn'] at hn
  have hd : 0 < q.den := q.den_pos
  have hqeq : q = (n : ℚ) / (q.den : ℚ) := by
    have := Rat.num_div_den q
    rw [hn'] at this
    rw [Int.cast_natCast] at this; exact this.symm
  have a1 : 2 ^ (Nat.log2 n) ≤ n := Nat.log2_self_le hn0
  have a2 : n < 2 ^ (Nat.log2 n + 1) := Nat.lt_log2_self
  have b1 : 2 ^ (Nat.log2 q.den) ≤ q.den := Nat.log2_self_le (by omega)
  have b2 : q.den < 2 ^ (Nat.log2 q.den + 1) := Nat.lt_log2_self
  have hlog : log2 q = if pow2 ((Nat.log2 n : ℤ) - (Nat.log2 q.den : ℤ)) ≤ q then (Nat.log2 n : ℤ) - (Nat.log2 q.den : ℤ)
      else (Nat.log2 n : ℤ) - (Nat.log2 q.den : ℤ) - 1 := by
    unfold log2
    rw [hn']; rfl
  generalize Nat.log2 n = a at *
  generalize Nat.log2 q.den = b at *
  have a1' : (2 : ℚ) ^ (a : ℤ) ≤ n := by exact_mod_cast a1
  have a2' : (n : ℚ) < 2 ^ ((a : ℤ) + 1) := by exact_mod_cast a2
  have b1' : (2 : ℚ) ^ (b : ℤ) ≤ q.den := by exact_mod_cast b1
  have b2' : (q.den : ℚ) < 2 ^ ((b : ℤ) + 1) := by exact_mod_cast b2
  have hdq : (0 : ℚ) < q.den := by exact_mod_cast hd
  have up : q < 2 ^ ((a : ℤ) - b + 1) := by
    rw [hqeq, div_lt_iff₀ hdq]
    calc (n : ℚ) < 2 ^ ((a : ℤ) + 1) := a2'
      _ = 2 ^ ((a : ℤ) - b + 1) * 2 ^ (b : ℤ) := by rw [← zpow_add₀ (by norm_num)]; congr 1; ring
      _ ≤ 2 ^ ((a : ℤ) - b + 1) * q.den := by apply mul_le_mul_of_nonneg_left b1'; positivity
  have lo : 2 ^ ((a : ℤ) - b - 1) ≤ q := by
    rw [hqeq, le_div_iff₀ hdq]
    calc (2 : ℚ) ^ ((a : ℤ) - b - 1) * q.den ≤ 2 ^ ((a : ℤ) - b - 1) * 2 ^ ((b : ℤ) + 1) := by
          apply mul_le_mul_of_nonneg_left b2'.le; positivity
      _ = 2 ^ (a : ℤ) := by rw [← zpow_add₀ (by norm_num)]; congr 1; ring
      _ ≤ n := a1'
  rw [hlog]
  split
  · rename_i h; rw [pow2_eq] at h; exact ⟨h, up⟩
  · rename_i h; rw [pow2_eq] at h
    refine ⟨lo, ?_⟩
    have : (a : ℤ) - b - 1 + 1 = a - b := by ring
    rw [this]; exact not_le.1 h

theorem roundEven_spec (x : ℚ) : |x - roundEven x| ≤ 1 / 2 ∧ (|x - roundEven x| = 1 / 2 → 2 ∣ roundEven x) := by
  have h1 : (x.floor : ℚ) ≤ x := Rat.floor_le x
  have h2 : x < x.floor + 1 := by exact_mod_cast Rat.lt_floor_add_one x
  unfold roundEven
  simp only
  split
  · rename_i h
    rw [abs_of_nonneg (by linarith)]
    exact ⟨by linarith, fun h' => by linarith⟩
  · split
    · rename_i h h'
      push_cast
      rw [abs_of_nonpos (by linarith)]
      exact ⟨by linarith, fun h' => by linarith⟩
    · rename_i h h'
      have he : x - x.floor = 1 / 2 := le_antisymm (not_lt.1 h') (not_lt.1 h)
      split
      · rename_i hm
        rw [he]
        exact ⟨by norm_num, fun _ => by omega⟩
      · rename_i hm
        push_cast
        have : x - (x.floor + 1) = -(1 / 2) := by linarith
        rw [this]
        exact ⟨by norm_num, fun _ => by omega⟩

/-- The rounded integer is at least as near as any other. -/
theorem roundEven_nearest (x : ℚ) (k : ℤ) : |x - roundEven x| ≤ |x - k| := by
  obtain ⟨h, _⟩ := roundEven_spec x
  by_cases hk : k = roundEven x
  · rw [hk]
  · have : (1 : ℚ) ≤ |(k : ℚ) - roundEven x| := by
      have : (1 : ℤ) ≤ |k - roundEven x| := Int.one_le_abs (by omega)
      exact_mod_cast this
    have h3 : |(k : ℚ) - roundEven x| ≤ |x - roundEven x| + |x - k| := by
      have := abs_sub_le (k : ℚ) x (roundEven x)
      rw [abs_sub_comm (k : ℚ) x] at this
      linarith
    linarith

theorem roundEven_unique (x : ℚ) (k : ℤ) (h : |x - k| = |x - roundEven x|) :
    k = roundEven x ∨ |x - roundEven x| = 1 / 2 := by
  obtain ⟨h1, _⟩ := roundEven_spec x
  by_cases hk : k = roundEven x
  · exact .inl hk
  · right
    have : (1 : ℚ) ≤ |(k : ℚ) - roundEven x| := by
      have : (1 : ℤ) ≤ |k - roundEven x| := Int.one_le_abs (by omega)
      exact_mod_cast this
    have h3 : |(k : ℚ) - roundEven x| ≤ |x - roundEven x| + |x - k| := by
      have := abs_sub_le (k : ℚ) x (roundEven x)
      rw [abs_sub_comm (k : ℚ) x] at this
      linarith
    linarith

theorem roundEven_mono_ge (x : ℚ) (k : ℤ) (h : (k : ℚ) ≤ x) : k ≤ roundEven x := by
  have h1 : k ≤ x.floor := Rat.le_floor_iff.2 h
  unfold roundEven
  simp only
  split
  · exact h1
  · split
    · omega
    · split <;> omega

theorem roundEven_le (x : ℚ) (k : ℤ) (h : x ≤ (k : ℚ)) : roundEven x ≤ k := by
  obtain ⟨h1, h2⟩ := roundEven_spec x
  by_contra hc
  have hc' : k + 1 ≤ roundEven x := by omega
  have hc'' : (k : ℚ) + 1 ≤ roundEven x := by exact_mod_cast hc'
  have := neg_le_of_abs_le h1
  linarith

/-- The data of one rounding of a positive rational. -/
structure Data (q : ℚ) where
  E : ℤ
  u : ℚ
  n : ℤ
  hu : u = 2 ^ (E - 52)
  hup : 0 < u
  hE : -1022 ≤ E
  hlt : q < 2 ^ (E + 1)
  hge : E ≠ -1022 → 2 ^ E ≤ q
  hn : n = roundEven (q / u)
  h0 : 0 ≤ n
  h53 : n ≤ 2 ^ 53
  h52 : E ≠ -1022 → 2 ^ 52 ≤ n
  heq : ∀ neg, roundPos neg q = if (n : ℚ) * u = 0 then zero neg
    else if overflowAt ≤ (n : ℚ) * u then inf neg else fin (if neg then -((n : ℚ) * u) else (n : ℚ) * u)

theorem two_zpow_mul (a b : ℤ) : (2 : ℚ) ^ a * 2 ^ b = 2 ^ (a + b) := (zpow_add₀ (by norm_num) a b).symm

theorem two53 : (2 : ℚ) ^ (53 : ℤ) = ((2 ^ 53 : ℤ) : ℚ) := by norm_num
theorem two52 : (2 : ℚ) ^ (52 : ℤ) = ((2 ^ 52 : ℤ) : ℚ) := by norm_num

def data (q : ℚ) (hq : 0 < q) : Data q := by
  have hl := log2_spec q hq
  refine ⟨max (log2 q) (-1022), ulp q, roundEven (q / ulp q), ?_, ?_, le_max_right _ _, ?_, ?_, rfl, ?_, ?_, ?_, ?_⟩
  · rw [ulp, pow2_eq]
  · rw [ulp, pow2_eq]; positivity
  · refine lt_of_lt_of_le hl.2 ?_
    apply zpow_le_zpow_right₀ (by norm_num)
    have := le_max_left (log2 q) (-1022)
    omega
  · intro h
    have : max (log2 q) (-1022) = log2 q := by
      rcases max_choice (log2 q) (-1022) with h' | h'
      · exact h'
      · exact absurd h' h
    rw [this]; exact hl.1
  · apply roundEven_mono_ge
    have : 0 < ulp q := by rw [ulp, pow2_eq]; positivity
    have := div_pos hq this
    push_cast; linarith
  · apply roundEven_le
    have h0 : 0 < ulp q := by rw [ulp, pow2_eq]; positivity
    rw [div_le_iff₀ h0]
    have h1 : q < 2 ^ (max (log2 q) (-1022) + 1) := by
      refine lt_of_lt_of_le hl.2 ?_
      apply zpow_le_zpow_right₀ (by norm_num)
      have := le_max_left (log2 q) (-1022)
      omega
    refine h1.le.trans (le_of_eq ?_)
    rw [ulp, pow2_eq, ← two53, two_zpow_mul]; congr 1; ring
  · intro h
    apply roundEven_mono_ge
    have h0 : 0 < ulp q := by rw [ulp, pow2_eq]; positivity
    rw [le_div_iff₀ h0]
    have : max (log2 q) (-1022) = log2 q := by
      rcases max_choice (log2 q) (-1022) with h' | h'
      · exact h'
      · exact absurd h' h
    rw [ulp, pow2_eq, this, ← two52, two_zpow_mul]
    have e : 52 + (log2 q - 52) = log2 q := by ring
    rw [e]; exact hl.1
  · intro neg; rfl

variable {q : ℚ}

theorem Data.q_mul (d : Data q) : q = (q / d.u) * d.u := by
  field_simp [d.hup.ne']

theorem Data.dist (d : Data q) (k : ℤ) : |q - k * d.u| = |q / d.u - k| * d.u := by
  have h : q - k * d.u = (q / d.u - k) * d.u := by
    rw [sub_mul, ← d.q_mul]
  rw [h, abs_mul, abs_of_pos d.hup]

theorem Data.near_int (d : Data q) (k : ℤ) : |q - d.n * d.u| ≤ |q - k * d.u| := by
  rw [d.dist, d.dist, d.hn]
  exact mul_le_mul_of_nonneg_right (roundEven_nearest _ k) d.hup.le

/-- A binary64 value is a multiple of the unit or lies below the binade. -/
theorem Data.split (d : Data q) (w : ℚ) (hw : IsBin64 w) :
    (∃ k : ℤ, w = k * d.u) ∨ (d.E ≠ -1022 ∧ w < (2 ^ 52 : ℤ) * d.u ∧ ((2 ^ 52 : ℤ) : ℚ) * d.u ≤ q) := by
  obtain ⟨m, e, hm, he1, he2, rfl⟩ := hw
  by_cases he : d.E - 52 ≤ e
  · left
    obtain ⟨j, hj⟩ := Int.eq_ofNat_of_zero_le (a := e - (d.E - 52)) (by omega)
    refine ⟨m * 2 ^ j, ?_⟩
    have : e = (d.E - 52) + j := by omega
    rw [this, zpow_add₀ (by norm_num), d.hu, zpow_natCast]
    push_cast
    ring
  · right
    have hE : d.E ≠ -1022 := by omega
    refine ⟨hE, ?_, ?_⟩
    · rw [d.hu, ← two52, two_zpow_mul]
      have h1 : (m : ℚ) < 2 ^ (53 : ℤ) := by
        rw [two53]; exact_mod_cast (lt_of_le_of_lt (le_abs_self m) hm)
      calc (m : ℚ) * 2 ^ e < 2 ^ (53 : ℤ) * 2 ^ e := by
            apply mul_lt_mul_of_pos_right h1; positivity
        _ = 2 ^ (53 + e) := two_zpow_mul _ _
        _ ≤ 2 ^ (52 + (d.E - 52)) := by apply zpow_le_zpow_right₀ (by norm_num); omega
    · rw [d.hu, ← two52, two_zpow_mul]
      have : 52 + (d.E - 52) = d.E := by ring
      rw [this]; exact d.hge hE

theorem Data.nearest (d : Data q) (w : ℚ) (hw : IsBin64 w) : |q - d.n * d.u| ≤ |q - w| := by
  rcases d.split w hw with ⟨k, rfl⟩ | ⟨_, h1, h2⟩
  · exact d.near_int k
  · refine (d.near_int (2 ^ 52)).trans ?_
    rw [abs_of_nonneg (by linarith), abs_of_nonneg (by linarith)]
    linarith

theorem Data.tie (d : Data q) (w : ℚ) (hw : IsBin64 w) (h : |q - w| = |q - d.n * d.u|) :
    w = d.n * d.u ∨ 2 ∣ d.n := by
  rcases d.split w hw with ⟨k, rfl⟩ | ⟨_, h1, h2⟩
  · rw [d.dist, d.dist] at h
    have h' := mul_right_cancel₀ d.hup.ne' h
    rw [d.hn] at h'
    rcases roundEven_unique _ _ h' with hk | hk
    · left; rw [d.hn, hk]
    · right; rw [d.hn]; exact (roundEven_spec _).2 hk
  · exfalso
    have h3 := d.near_int (2 ^ 52)
    rw [← h, abs_of_nonneg (by linarith), abs_of_nonneg (by linarith)] at h3
    linarith

theorem Data.mul_u (d : Data q) : (d.n : ℚ) * d.u = d.n * 2 ^ (d.E - 52) := by rw [d.hu]

theorem overflowAt_eq : overflowAt = 2 ^ (1024 : ℤ) := by
  unfold overflowAt
  push_cast
  exact (zpow_natCast (2 : ℚ) 1024).symm

theorem Data.exp_le (d : Data q) (h : ¬ overflowAt ≤ (d.n : ℚ) * d.u) : d.E ≤ 1023 ∧ (d.n = 2 ^ 53 → d.E ≤ 1022) := by
  rw [overflowAt_eq, not_le] at h
  constructor
  · by_contra hc
    have h52 := d.h52 (by omega)
    have h52' : (2 : ℚ) ^ (52 : ℤ) ≤ d.n := by rw [two52]; exact_mod_cast h52
    have : (2 : ℚ) ^ (1024 : ℤ) ≤ d.n * d.u := by
      calc (2 : ℚ) ^ (1024 : ℤ) ≤ 2 ^ (52 + (d.E - 52)) := by apply zpow_le_zpow_right₀ (by norm_num); omega
        _ = 2 ^ (52 : ℤ) * d.u := by rw [d.hu, two_zpow_mul]
        _ ≤ d.n * d.u := mul_le_mul_of_nonneg_right h52' d.hup.le
    linarith
  · intro hn
    by_contra hc
    have : (2 : ℚ) ^ (1024 : ℤ) ≤ d.n * d.u := by
      rw [hn, ← two53, d.hu, two_zpow_mul]
      apply zpow_le_zpow_right₀ (by norm_num); omega
    linarith

/-- The canonical representation of the rounded value. -/
theorem Data.canon (d : Data q) (h : ¬ overflowAt ≤ (d.n : ℚ) * d.u) :
    ∃ m e : ℤ, |m| < 2 ^ 53 ∧ -1074 ≤ e ∧ e ≤ 971 ∧ (d.n : ℚ) * d.u = m * 2 ^ e ∧
      (2 ^ 52 ≤ |m| ∨ e = -1074) ∧ (2 ∣ d.n → 2 ∣ m) := by
  obtain ⟨hE1, hE2⟩ := d.exp_le h
  have hE := d.hE
  have h0 := d.h0
  have h53 := d.h53
  by_cases hn : d.n = 2 ^ 53
  · refine ⟨2 ^ 52, d.E - 51, by norm_num, by omega, by have := hE2 hn; omega, ?_, .inl (by norm_num), fun _ => by norm_num⟩
    rw [hn, d.hu, ← two53, ← two52, two_zpow_mul, two_zpow_mul]; congr 1; ring
  · refine ⟨d.n, d.E - 52, ?_, by omega, by omega, d.mul_u, ?_, id⟩
    · rw [abs_of_nonneg h0]; omega
    · rw [abs_of_nonneg h0]
      by_cases hE' : d.E = -1022
      · right; omega
      · left; exact d.h52 hE'

theorem two1024 : (2 : ℚ) ^ (1024 : ℤ) = 2 ^ (1024 : ℕ) := zpow_natCast 2 1024
theorem two970 : (2 : ℚ) ^ (970 : ℤ) = 2 ^ (970 : ℕ) := zpow_natCast 2 970

/-- `linarith` with the large powers of two made opaque. -/
macro "linpow" : tactic => `(tactic| (
  try generalize (2 : ℚ) ^ (1024 : ℤ) = A1 at *
  try generalize (2 : ℚ) ^ (1023 : ℤ) = A2 at *
  try generalize (2 : ℚ) ^ (971 : ℤ) = A3 at *
  try generalize (2 : ℚ) ^ (970 : ℤ) = A4 at *
  try generalize (2 : ℚ) ^ (53 : ℤ) = A5 at *
  linarith))

/-- Overflow happens exactly from the halfway point on. -/
theorem Data.overflow_iff (d : Data q) : overflowAt ≤ (d.n : ℚ) * d.u ↔ 2 ^ (1024 : ℕ) - 2 ^ (970 : ℕ) ≤ q := by
  rw [← two1024, ← two970, overflowAt_eq]
  have half := (roundEven_spec (q / d.u))
  rw [← d.hn] at half
  constructor
  · intro h
    by_cases hE : 1024 ≤ d.E
    · have h1 := d.hge (by omega)
      have h2 : (2 : ℚ) ^ (1024 : ℤ) ≤ 2 ^ d.E := zpow_le_zpow_right₀ (by norm_num) hE
      have := pow2_pos 970
      linpow
    · have h53 : (d.n : ℚ) ≤ 2 ^ (53 : ℤ) := by rw [two53]; exact_mod_cast d.h53
      have hE' : d.E = 1023 := by
        by_contra hc
        have hh : d.n * d.u ≤ 2 ^ (53 : ℤ) * d.u := mul_le_mul_of_nonneg_right h53 d.hup.le
        rw [d.hu, two_zpow_mul] at hh
        have h3 : (2 : ℚ) ^ (53 + (d.E - 52)) < 2 ^ (1024 : ℤ) := zpow_lt_zpow_right₀ (by norm_num) (by omega)
        rw [d.hu] at h
        linpow
      have hu : d.u = 2 ^ (971 : ℤ) := by rw [d.hu, hE']; norm_num
      have hup := d.hup
      rw [hu] at h hup
      have h4 : (2 : ℚ) ^ (1024 : ℤ) = 2 ^ (53 : ℤ) * 2 ^ (971 : ℤ) := by rw [two_zpow_mul]; norm_num
      have h5 : (2 : ℚ) ^ (971 : ℤ) = 2 * 2 ^ (970 : ℤ) := by
        have := two_zpow_mul 1 970
        rw [zpow_one] at this; rw [this]; norm_num
      have hge : (2 : ℚ) ^ (53 : ℤ) ≤ d.n := by
        rw [h4] at h; exact le_of_mul_le_mul_right h hup
      have := neg_le_of_abs_le half.1
      have h6 : (2 : ℚ) ^ (53 : ℤ) - 1 / 2 ≤ q / d.u := by linpow
      rw [hu, le_div_iff₀ hup, sub_mul, ← h4] at h6
      rw [h5] at h6
      linpow
  · intro h
    by_contra hc
    obtain ⟨hE1, hE2⟩ := d.exp_le (by rw [overflowAt_eq]; exact hc)
    have h5 : (2 : ℚ) ^ (971 : ℤ) = 2 * 2 ^ (970 : ℤ) := by
      have := two_zpow_mul 1 970
      rw [zpow_one] at this; rw [this]; norm_num
    have h6 : (2 : ℚ) ^ (1024 : ℤ) = 2 * 2 ^ (1023 : ℤ) := by
      have := two_zpow_mul 1 1023
      rw [zpow_one] at this; rw [this]; norm_num
    have h7 : (2 : ℚ) ^ (970 : ℤ) < 2 ^ (1023 : ℤ) := zpow_lt_zpow_right₀ (by norm_num) (by norm_num)
    have hE : d.E = 1023 := by
      by_contra hne
      have h8 : (2 : ℚ) ^ (d.E + 1) ≤ 2 ^ (1023 : ℤ) := zpow_le_zpow_right₀ (by norm_num) (by omega)
      have := d.hlt
      linpow
    have hu : d.u = 2 ^ (971 : ℤ) := by rw [d.hu, hE]; norm_num
    have hup := d.hup
    rw [hu] at hup
    have h4 : (2 : ℚ) ^ (1024 : ℤ) = 2 ^ (53 : ℤ) * 2 ^ (971 : ℤ) := by rw [two_zpow_mul]; norm_num
    have h9 : (2 : ℚ) ^ (53 : ℤ) - 1 / 2 ≤ q / d.u := by
      rw [hu, le_div_iff₀ hup, sub_mul, ← h4]
      linpow
    have hne : d.n ≠ 2 ^ 53 := fun hn => by have := hE2 hn; omega
    have h53 := d.h53
    have hle : d.n ≤ 2 ^ 53 - 1 := by omega
    have hle' : (d.n : ℚ) ≤ 2 ^ (53 : ℤ) - 1 := by rw [two53]; exact_mod_cast hle
    have hab := le_of_abs_le half.1
    have heq : (d.n : ℚ) = 2 ^ (53 : ℤ) - 1 := by linpow
    have heq' : d.n = 2 ^ 53 - 1 := by
      have : (d.n : ℚ) = ((2 ^ 53 - 1 : ℤ) : ℚ) := by rw [heq]; norm_num
      exact_mod_cast this
    have htie : |q / d.u - d.n| = 1 / 2 := by
      apply le_antisymm half.1
      rw [heq]
      refine le_trans ?_ (le_abs_self _)
      linpow
    have := half.2 htie
    rw [heq'] at this
    norm_num at this

theorem isBin64_neg {v : ℚ} (h : IsBin64 v) : IsBin64 (-v) := by
  obtain ⟨m, e, h1, h2, h3, rfl⟩ := h
  exact ⟨-m, e, by rwa [abs_neg], h2, h3, by push_cast; ring⟩

theorem isEven_neg {v : ℚ} (h : IsEven v) : IsEven (-v) := by
  obtain ⟨m, e, h1, h2, h3, rfl, h4, h5⟩ := h
  exact ⟨-m, e, by rwa [abs_neg], h2, h3, by push_cast; ring, by rwa [abs_neg], by rwa [dvd_neg]⟩

theorem roundPos_pos {q : ℚ} (hq : 0 < q) : IsRounded q (roundPos false q) := by
  have d := data q hq
  rw [d.heq]
  have hnlt : ¬ q < 0 := by linarith
  split
  · rename_i h
    refine ⟨fun w hw => ?_, by simp [hnlt]⟩
    have := d.nearest w hw
    rw [h] at this; simpa using this
  · rename_i hne
    split
    · rename_i h
      refine ⟨?_, by simp [hnlt]⟩
      rw [abs_of_pos hq]; exact d.overflow_iff.1 h
    · rename_i h
      obtain ⟨m, e, h1, h2, h3, h4, h5, h6⟩ := d.canon h
      simp only [Bool.false_eq_true, if_false]
      refine ⟨hne, ⟨m, e, h1, h2, h3, h4⟩, ?_, d.nearest, ?_⟩
      · rw [abs_of_pos hq]; exact not_le.1 (fun hc => h (d.overflow_iff.2 hc))
      · intro w hw hd
        rcases d.tie w hw hd with h' | h'
        · exact .inl h'
        · exact .inr ⟨m, e, h1, h2, h3, h4, h5, h6 h'⟩

theorem roundPos_true (q : ℚ) : roundPos true q = neg (roundPos false q) := by
  unfold roundPos
  simp only
  split
  · rfl
  · split
    · rfl
    · simp [neg]

theorem isRounded_neg {q : ℚ} (hq : q ≠ 0) {x : F64} (h : IsRounded q x) : IsRounded (-q) (neg x) := by
  have hlt : -q < 0 ↔ ¬ q < 0 := by
    constructor
    · intro h; linarith
    · intro h
      rcases lt_trichotomy q 0 with h' | h' | h'
      · exact absurd h' h
      · exact absurd h' hq
      · linarith
  have hdist : ∀ w : ℚ, |-q - w| = |q - -w| := fun w => by
    rw [← abs_neg]; congr 1; ring
  cases x with
  | nan => exact h
  | inf s =>
    refine ⟨by rw [abs_neg]; exact h.1, ?_⟩
    rw [hlt, ← h.2]; cases s <;> simp
  | zero s =>
    refine ⟨fun w hw => ?_, ?_⟩
    · rw [abs_neg, hdist]; exact h.1 _ (isBin64_neg hw)
    · rw [hlt, ← h.2]; cases s <;> simp
  | fin v =>
    obtain ⟨h0, h1, h2, h3, h4⟩ := h
    refine ⟨neg_ne_zero.2 h0, isBin64_neg h1, by rw [abs_neg]; exact h2, fun w hw => ?_, fun w hw hd => ?_⟩
    · rw [hdist, hdist, neg_neg]; exact h3 _ (isBin64_neg hw)
    · rw [hdist, hdist, neg_neg] at hd
      rcases h4 _ (isBin64_neg hw) hd with h' | h'
      · left; rw [← h', neg_neg]
      · right; exact isEven_neg h'

/-- `F64.round` is correct rounding. -/
theorem round_isRounded {q : ℚ} (hq : q ≠ 0) (z : Bool) : IsRounded q (round q z) := by
  unfold round
  rw [if_neg hq]
  split
  · rename_i h
    rw [roundPos_true]
    have := isRounded_neg (by simpa using hq) (roundPos_pos (q := -q) (by linarith))
    rwa [neg_neg] at this
  · rename_i h
    exact roundPos_pos (lt_of_le_of_ne (not_lt.1 h) (Ne.symm hq))

/-- Between two even binary64 values with different exponents there is a third one. -/
theorem even_gap {m1 e1 m2 e2 : ℤ} (h1 : |m1| < 2 ^ 53) (he1 : -1074 ≤ e1) (h2 : |m2| < 2 ^ 53) (he2 : e2 ≤ 971)
    (hc2 : 2 ^ 52 ≤ |m2| ∨ e2 = -1074) (hm1 : 2 ∣ m1) (hlt : e1 < e2) :
    ∃ z : ℚ, IsBin64 z ∧ |(m1 : ℚ) * 2 ^ e1| < |z| ∧ |z| < |(m2 : ℚ) * 2 ^ e2| ∧ (0 < z ↔ 0 < (m2 : ℚ) * 2 ^ e2) := by
  have hc : 2 ^ 52 ≤ |m2| := by
    rcases hc2 with h | h
    · exact h
    · omega
  have hp1 := pow2_pos e1
  have hp2 := pow2_pos e2
  have hp3 := pow2_pos (e2 - 1)
  have hdbl : (2 : ℚ) ^ e2 = 2 * 2 ^ (e2 - 1) := by
    have := two_zpow_mul 1 (e2 - 1)
    rw [zpow_one] at this
    rw [this]; congr 1; ring
  have hm1' : |m1| ≤ 2 ^ 53 - 2 := by
    have : 2 ∣ |m1| := (dvd_abs _ _).2 hm1
    omega
  have hv : |(m1 : ℚ) * 2 ^ e1| ≤ (2 ^ 53 - 2) * 2 ^ (e2 - 1) := by
    rw [abs_mul, abs_of_pos hp1]
    have a : |(m1 : ℚ)| ≤ 2 ^ 53 - 2 := by exact_mod_cast hm1'
    have b : (2 : ℚ) ^ e1 ≤ 2 ^ (e2 - 1) := zpow_le_zpow_right₀ (by norm_num) (by omega)
    exact mul_le_mul a b hp1.le (by norm_num)
  -- the sign of w
  obtain ⟨sg, hsg, hsm⟩ : ∃ sg : ℤ, (sg = 1 ∨ sg = -1) ∧ m2 = sg * |m2| := by
    rcases abs_choice m2 with h | h
    · exact ⟨1, .inl rfl, by omega⟩
    · exact ⟨-1, .inr rfl, by omega⟩
  have hsabs : |sg| = 1 := by rcases hsg with rfl | rfl <;> norm_num
  have hsabs' : |(sg : ℚ)| = 1 := by rcases hsg with rfl | rfl <;> norm_num
  have hpos : ∀ k : ℤ, ∀ e : ℤ, 0 < k → (0 < ((sg * k : ℤ) : ℚ) * 2 ^ e ↔ sg = 1) := by
    intro k e hk
    have hk' : (0 : ℚ) < k := by exact_mod_cast hk
    have hpe := pow2_pos e
    rcases hsg with rfl | rfl
    · simp; positivity
    · simp; positivity
  have habs : ∀ k : ℤ, ∀ e : ℤ, 0 < k → |((sg * k : ℤ) : ℚ) * 2 ^ e| = k * 2 ^ e := by
    intro k e hk
    have hk' : (0 : ℚ) < k := by exact_mod_cast hk
    push_cast
    rw [abs_mul, abs_mul, hsabs', abs_of_pos hk', abs_of_pos (pow2_pos e), one_mul]
  by_cases hm : |m2| = 2 ^ 52
  · refine ⟨((sg * (2 ^ 53 - 1) : ℤ) : ℚ) * 2 ^ (e2 - 1), ⟨_, _, ?_, ?_, ?_, rfl⟩, ?_, ?_, ?_⟩
    · rw [abs_mul, hsabs]; norm_num
    · omega
    · omega
    · rw [habs _ _ (by norm_num)]
      refine lt_of_le_of_lt hv ?_
      apply mul_lt_mul_of_pos_right _ hp3
      norm_num
    · rw [habs _ _ (by norm_num), hsm, habs _ _ (by omega), hm, hdbl]
      push_cast
      nlinarith
    · rw [hpos _ _ (by norm_num), hsm, hpos _ _ (by omega)]
  · have hgt : 2 ^ 52 + 1 ≤ |m2| := by omega
    refine ⟨((sg * (|m2| - 1) : ℤ) : ℚ) * 2 ^ e2, ⟨_, _, ?_, ?_, he2, rfl⟩, ?_, ?_, ?_⟩
    · rw [abs_mul, hsabs, abs_of_nonneg (a := |m2| - 1) (by omega)]; omega
    · omega
    · rw [habs _ _ (by omega)]
      refine lt_of_le_of_lt hv ?_
      rw [hdbl]
      have : (2 ^ 52 : ℚ) ≤ ((|m2| - 1 : ℤ) : ℚ) := by
        have : (2 ^ 52 : ℤ) ≤ |m2| - 1 := by omega
        exact_mod_cast this
      nlinarith
    · rw [habs _ _ (by omega)]
      conv_rhs => rw [hsm]
      rw [habs _ _ (by omega)]
      apply mul_lt_mul_of_pos_right _ hp2
      push_cast; linarith
    · rw [hpos _ _ (by omega)]
      conv_rhs => rw [hsm]
      rw [hpos _ _ (by omega)]

theorem mid_of_tie {q v w : ℚ} (h : |q - v| = |q - w|) (hne : v ≠ w) : q = (v + w) / 2 := by
  rcases abs_eq_abs.1 h with h | h
  · exact absurd (by linarith) hne
  · linarith

/-- At most one of two even values is nearest. -/
theorem even_tie_aux {q v w : ℚ} {m1 e1 m2 e2 : ℤ} (h1 : |m1| < 2 ^ 53) (he1 : -1074 ≤ e1)
    (h2 : |m2| < 2 ^ 53) (he2 : e2 ≤ 971)
    (hc2 : 2 ^ 52 ≤ |m2| ∨ e2 = -1074) (hm1 : 2 ∣ m1) (hlt : e1 < e2)
    (hv : v = m1 * 2 ^ e1) (hw : w = m2 * 2 ^ e2) (hq : q = (v + w) / 2)
    (hn : ∀ z, IsBin64 z → |q - w| ≤ |q - z|) : False := by
  obtain ⟨z, hz, ha, hb, hs⟩ := even_gap h1 he1 h2 he2 hc2 hm1 hlt
  rw [← hv] at ha
  rw [← hw] at hb hs
  have := hn z hz
  by_cases hwp : 0 < w
  · have hzp := hs.2 hwp
    rw [abs_of_pos hzp] at ha hb
    rw [abs_of_pos hwp] at hb
    have hvz : v < z := lt_of_le_of_lt (le_abs_self v) ha
    rw [abs_of_nonpos (a := q - w) (by linarith)] at this
    rcases abs_cases (q - z) with ⟨h, _⟩ | ⟨h, _⟩ <;> linarith
  · have hzn : z ≤ 0 := by
      by_contra hc
      exact hwp (hs.1 (not_le.1 hc))
    have hwn : w ≤ 0 := not_lt.1 hwp
    rw [abs_of_nonpos hzn] at ha hb
    rw [abs_of_nonpos hwn] at hb
    have hvz : z < v := by
      have := neg_abs_le v
      linarith
    rw [abs_of_nonneg (a := q - w) (by linarith)] at this
    rcases abs_cases (q - z) with ⟨h, _⟩ | ⟨h, _⟩ <;> linarith

theorem even_tie {q v w : ℚ} (hv : IsEven v) (hw : IsEven w) (h : |q - v| = |q - w|)
    (hn : ∀ z, IsBin64 z → |q - v| ≤ |q - z|) : v = w := by
  by_contra hne
  have hq := mid_of_tie h hne
  obtain ⟨m1, e1, a1, a2, a3, a4, a5, a6⟩ := hv
  obtain ⟨m2, e2, b1, b2, b3, b4, b5, b6⟩ := hw
  rcases lt_trichotomy e1 e2 with hlt | rfl | hlt
  · exact even_tie_aux a1 a2 b1 b3 b5 a6 hlt a4 b4 hq (fun z hz => h ▸ hn z hz)
  · obtain ⟨k1, rfl⟩ := a6
    obtain ⟨k2, rfl⟩ := b6
    have hz : IsBin64 q := by
      refine ⟨k1 + k2, e1, ?_, a2, a3, ?_⟩
      · have := abs_add_le k1 k2
        rw [abs_mul] at a1 b1
        norm_num at a1 b1 ⊢
        omega
      · rw [hq, a4, b4]; push_cast; ring
    have := hn q hz
    simp at this
    have h' := h
    rw [show q - v = 0 from this] at h'
    simp at h'
    exact hne (by linarith [sub_eq_zero.1 this, sub_eq_zero.1 (abs_eq_zero.1 h'.symm)])
  · exact even_tie_aux b1 b2 a1 a3 a5 b6 hlt b4 a4 (by rw [hq]; ring) hn

/-- Correct rounding determines the result. -/
theorem isRounded_unique {q : ℚ} (hq : q ≠ 0) {x y : F64} (hx : IsRounded q x) (hy : IsRounded q y) : x = y := by
  have sgn : ∀ {s t : Bool}, (s = true ↔ q < 0) → (t = true ↔ q < 0) → s = t := by
    intro s t hs ht
    rw [← ht] at hs
    cases s <;> cases t <;> simp at hs ⊢
  have h0 : IsBin64 0 := ⟨0, 0, by norm_num, by norm_num, by norm_num, by norm_num⟩
  have infzero : ∀ {s t : Bool}, IsRounded q (.inf s) → IsRounded q (.zero t) → False := by
    intro s t hs ht
    have hbig : (1 : ℚ) < |q| := by
      refine lt_of_lt_of_le ?_ hs.1
      have h7 : (2 : ℚ) ^ (970 : ℤ) < 2 ^ (1023 : ℤ) := zpow_lt_zpow_right₀ (by norm_num) (by norm_num)
      have h6 : (2 : ℚ) ^ (1024 : ℤ) = 2 * 2 ^ (1023 : ℤ) := by
        have := two_zpow_mul 1 1023
        rw [zpow_one] at this; rw [this]; norm_num
      have h5 : (1 : ℚ) < 2 ^ (1023 : ℤ) := one_lt_zpow₀ (by norm_num) (by norm_num)
      rw [← two1024, ← two970]
      linpow
    have hone : IsBin64 1 := ⟨1, 0, by norm_num, by norm_num, by norm_num, by norm_num⟩
    rcases abs_cases q with ⟨h, hp⟩ | ⟨h, hp⟩
    · have := ht.1 1 hone
      rw [h] at this hbig
      rw [abs_of_nonneg (by linarith)] at this
      linarith
    · have := ht.1 (-1) (isBin64_neg hone)
      rw [h] at this hbig
      rw [abs_of_nonpos (by linarith)] at this
      linarith
  have zerofin : ∀ {s : Bool} {v : ℚ}, IsRounded q (.zero s) → IsRounded q (.fin v) → False := by
    intro s v hs hv
    obtain ⟨v0, v1, v2, v3, v4⟩ := hv
    have e1 := hs.1 v v1
    have e2 := v3 0 h0
    rw [sub_zero] at e2
    have e : |q - v| = |q| := le_antisymm e2 e1
    rcases v4 0 h0 (by rw [sub_zero]; exact e.symm) with h | h
    · exact v0 h.symm
    · obtain ⟨m, ee, a1, a2, a3, a4, a5, k, rfl⟩ := h
      have hmid := mid_of_tie (q := q) (v := v) (w := 0) (by rw [sub_zero]; exact e) v0
      have hz : IsBin64 q := by
        refine ⟨k, ee, ?_, a2, a3, ?_⟩
        · rw [abs_mul] at a1
          norm_num at a1 ⊢
          omega
        · rw [hmid, a4]; push_cast; ring
      have := hs.1 q hz
      simp at this
      exact hq this
  cases x with
  | nan => exact hx.elim
  | inf s =>
    cases y with
    | nan => exact hy.elim
    | inf t => rw [sgn hx.2 hy.2]
    | zero t => exact (infzero hx hy).elim
    | fin w => exact absurd hx.1 (not_le.2 hy.2.2.1)
  | zero s =>
    cases y with
    | nan => exact hy.elim
    | inf t => exact (infzero hy hx).elim
    | zero t => rw [sgn hx.2 hy.2]
    | fin w => exact (zerofin hx hy).elim
  | fin v =>
    cases y with
    | nan => exact hy.elim
    | inf t => exact absurd hy.1 (not_le.2 hx.2.2.1)
    | zero t => exact (zerofin hy hx).elim
    | fin w =>
      obtain ⟨v0, v1, v2, v3, v4⟩ := hx
      obtain ⟨w0, w1, w2, w3, w4⟩ := hy
      have e : |q - v| = |q - w| := le_antisymm (v3 w w1) (w3 v v1)
      rcases v4 w w1 e.symm with h | h
      · rw [h]
      · rcases w4 v v1 e with h' | h'
        · rw [h']
        · rw [even_tie h h' e v3]

/-- Representable values are not changed by rounding. -/
theorem round_exact {v : ℚ} (h : IsBin64 v) (h0 : v ≠ 0) (z : Bool) : round v z = fin v := by
  have hr := round_isRounded h0 z
  cases hx : round v z with
  | nan => rw [hx] at hr; exact hr.elim
  | inf s =>
    rw [hx] at hr
    exfalso
    obtain ⟨m, e, h1, h2, h3, rfl⟩ := h
    have hm : |(m : ℚ)| ≤ 2 ^ (53 : ℤ) - 1 := by
      rw [two53]
      have : |m| ≤ 2 ^ 53 - 1 := by omega
      exact_mod_cast this
    have he : (2 : ℚ) ^ e ≤ 2 ^ (971 : ℤ) := zpow_le_zpow_right₀ (by norm_num) h3
    have hb : |(m : ℚ) * 2 ^ e| ≤ (2 ^ (53 : ℤ) - 1) * 2 ^ (971 : ℤ) := by
      rw [abs_mul, abs_of_pos (pow2_pos e)]
      apply mul_le_mul hm he (pow2_pos e).le
      have := one_le_zpow₀ (a := (2 : ℚ)) (by norm_num) (n := 53) (by norm_num)
      linarith
    have h4 : (2 : ℚ) ^ (1024 : ℤ) = 2 ^ (53 : ℤ) * 2 ^ (971 : ℤ) := by rw [two_zpow_mul]; norm_num
    have h7 : (2 : ℚ) ^ (970 : ℤ) < 2 ^ (971 : ℤ) := zpow_lt_zpow_right₀ (by norm_num) (by norm_num)
    have h8 := hr.1
    rw [← two1024, ← two970] at h8
    rw [sub_mul, ← h4, one_mul] at hb
    generalize |(m : ℚ) * 2 ^ e| = t at *
    linpow
  | zero s =>
    rw [hx] at hr
    have := hr.1 v h
    simp at this
    exact absurd this h0
  | fin w =>
    rw [hx] at hr
    have := hr.2.2.2.1 v h
    simp at this
    have : v - w = 0 := this
    congr 1; linarith

/-- Integers up to `2^53` are representable. -/
theorem isBin64_int (i : ℤ) (h : |i| ≤ 2 ^ 53) : IsBin64 i := by
  by_cases h' : |i| = 2 ^ 53
  · rcases abs_eq (by norm_num : (0:ℤ) ≤ 2 ^ 53) |>.1 h' with h1 | h1
    · exact ⟨2 ^ 52, 1, by norm_num, by norm_num, by norm_num, by rw [h1]; norm_num⟩
    · exact ⟨-2 ^ 52, 1, by norm_num, by norm_num, by norm_num, by rw [h1]; norm_num⟩
  · exact ⟨i, 0, by omega, by norm_num, by norm_num, by simp⟩

/-- Integers of magnitude up to `2^53` convert exactly. -/
theorem ofInt_exact (i : ℤ) (h : |i| ≤ 2 ^ 53) : ofInt i = ofIntExact i := by
  unfold ofInt ofIntExact
  by_cases h0 : i = 0
  · subst h0; simp [round]
  · rw [if_neg h0]
    exact round_exact (isBin64_int i h) (by exact_mod_cast h0) _

end F64
