import Verif.Base.F64
import Mathlib.Algebra.Order.Ring.Rat
import Mathlib.Data.Prod.Lex
/-! The order on floats: apart from NaN it is a linear preorder. -/

namespace F64

/-- -1 for `-∞`, 1 for `+∞`, 0 for finite numbers. -/
def rank : F64 → ℤ
  | inf true => -1
  | inf false => 1
  | _ => 0

/-- Position of a number in the order. -/
def key (x : F64) : ℤ ×ₗ ℚ := toLex (rank x, toRat x)

theorem flt_iff (a b : F64) : flt a b = true ↔ a ≠ nan ∧ b ≠ nan ∧ key a < key b := by
  unfold key
  rw [Prod.Lex.toLex_lt_toLex]
  cases a with
  | nan => simp [flt]
  | inf s => cases b with
    | nan => simp [flt]
    | inf t => cases s <;> cases t <;> simp [flt, rank, toRat]
    | zero t => cases s <;> simp [flt, rank, toRat]
    | fin t => cases s <;> simp [flt, rank, toRat]
  | zero s => cases b with
    | nan => simp [flt]
    | inf t => cases t <;> simp [flt, rank, toRat]
    | zero t => simp [flt, rank, toRat]
    | fin t => simp [flt, rank, toRat] <;> exact decide_eq_true_iff
  | fin s => cases b with
    | nan => simp [flt]
    | inf t => cases t <;> simp [flt, rank, toRat]
    | zero t => simp [flt, rank, toRat] <;> exact decide_eq_true_iff
    | fin t => simp [flt, rank, toRat] <;> exact decide_eq_true_iff

theorem fle_iff (a b : F64) : fle a b = true ↔ a ≠ nan ∧ b ≠ nan ∧ key a ≤ key b := by
  unfold key
  rw [Prod.Lex.toLex_le_toLex]
  cases a with
  | nan => simp [fle]
  | inf s => cases b with
    | nan => simp [fle]
    | inf t => cases s <;> cases t <;> simp [fle, rank, toRat]
    | zero t => cases s <;> simp [fle, rank, toRat]
    | fin t => cases s <;> simp [fle, rank, toRat]
  | zero s => cases b with
    | nan => simp [fle]
    | inf t => cases t <;> simp [fle, rank, toRat]
    | zero t => simp [fle, rank, toRat]
    | fin t => simp [fle, rank, toRat] <;> exact decide_eq_true_iff
  | fin s => cases b with
    | nan => simp [fle]
    | inf t => cases t <;> simp [fle, rank, toRat]
    | zero t => simp [fle, rank, toRat] <;> exact decide_eq_true_iff
    | fin t => simp [fle, rank, toRat] <;> exact decide_eq_true_iff

theorem feq_iff (a b : F64) : feq a b = true ↔ a ≠ nan ∧ b ≠ nan ∧ key a = key b := by
  unfold key
  rw [toLex_inj, Prod.mk.injEq]
  cases a with
  | nan => simp [feq]
  | inf s => cases b with
    | nan => simp [feq]
    | inf t => cases s <;> cases t <;> simp [feq, rank, toRat]
    | zero t => cases s <;> simp [feq, rank, toRat]
    | fin t => cases s <;> simp [feq, rank, toRat]
  | zero s => cases b with
    | nan => simp [feq]
    | inf t => cases t <;> simp [feq, rank, toRat]
    | zero t => simp [feq, rank, toRat]
    | fin t => simp [feq, rank, toRat] <;> exact decide_eq_true_iff
  | fin s => cases b with
    | nan => simp [feq]
    | inf t => cases t <;> simp [feq, rank, toRat]
    | zero t => simp [feq, rank, toRat] <;> exact decide_eq_true_iff
    | fin t => simp [feq, rank, toRat] <;> exact decide_eq_true_iff

theorem fle_iff_flt_or_feq (a b : F64) : fle a b = (flt a b || feq a b) := by
  rw [Bool.eq_iff_iff, Bool.or_eq_true, fle_iff, flt_iff, feq_iff, le_iff_lt_or_eq]
  tauto

theorem flt_trans {a b c : F64} (h1 : flt a b = true) (h2 : flt b c = true) : flt a c = true := by
  rw [flt_iff] at *
  exact ⟨h1.1, h2.2.1, h1.2.2.trans h2.2.2⟩

theorem fle_trans {a b c : F64} (h1 : fle a b = true) (h2 : fle b c = true) : fle a c = true := by
  rw [fle_iff] at *
  exact ⟨h1.1, h2.2.1, h1.2.2.trans h2.2.2⟩

theorem fle_total {a b : F64} (ha : a ≠ nan) (hb : b ≠ nan) : fle a b = true ∨ fle b a = true := by
  rw [fle_iff, fle_iff]
  rcases le_total (key a) (key b) with h | h
  · exact .inl ⟨ha, hb, h⟩
  · exact .inr ⟨hb, ha, h⟩

theorem fle_refl {a : F64} (ha : a ≠ nan) : fle a a = true := by rw [fle_iff]; exact ⟨ha, ha, le_refl _⟩

theorem feq_refl {a : F64} (ha : a ≠ nan) : feq a a = true := by rw [feq_iff]; exact ⟨ha, ha, rfl⟩

theorem feq_comm (a b : F64) : feq a b = feq b a := by
  rw [Bool.eq_iff_iff, feq_iff, feq_iff]; constructor <;> rintro ⟨h1, h2, h3⟩ <;> exact ⟨h2, h1, h3.symm⟩

theorem not_flt {a b : F64} (ha : a ≠ nan) (hb : b ≠ nan) : flt a b = false ↔ fle b a = true := by
  rw [← Bool.not_eq_true, flt_iff, fle_iff, ← not_lt]; tauto

theorem fle_antisymm {a b : F64} (h1 : fle a b = true) (h2 : fle b a = true) : feq a b = true := by
  rw [fle_iff] at *; rw [feq_iff]; exact ⟨h1.1, h1.2.1, le_antisymm h1.2.2 h2.2.2⟩

end F64

namespace Str

theorem lt_irrefl (s : Str) : lt s s = false := by
  induction s with
  | nil => rfl
  | cons c s ih => simp [lt, ih]

theorem lt_trans : ∀ {a b c : Str}, lt a b = true → lt b c = true → lt a c = true
  | _, _, [], _, h => by simp [lt] at h
  | _, [], _ :: _, h, _ => by simp [lt] at h
  | [], _ :: _, _ :: _, _, _ => by simp [lt]
  | x :: xs, y :: ys, z :: zs, h1, h2 => by
    simp only [lt] at *
    by_cases hxy : x.val < y.val
    · by_cases hyz : y.val < z.val
      · have : x.val < z.val := UInt32.lt_trans hxy hyz
        simp [this]
      · by_cases hzy : z.val < y.val
        · simp [hyz, hzy] at h2
        · have : y.val = z.val := by
            rw [UInt32.lt_iff_toNat_lt] at hyz hzy
            apply UInt32.toNat_inj.1; omega
          rw [← this]; simp [hxy]
    · by_cases hyx : y.val < x.val
      · simp [hxy, hyx] at h1
      · have : x.val = y.val := by
          rw [UInt32.lt_iff_toNat_lt] at hxy hyx
          apply UInt32.toNat_inj.1; omega
        simp only [hxy, hyx, if_false] at h1
        rw [this]
        by_cases hyz : y.val < z.val
        · simp [hyz]
        · by_cases hzy : z.val < y.val
          · simp [hyz, hzy] at h2
          · simp only [hyz, hzy, if_false] at *
            exact lt_trans h1 h2

theorem lt_trichotomy : ∀ (a b : Str), lt a b = true ∨ a = b ∨ lt b a = true
  | [], [] => .inr (.inl rfl)
  | [], _ :: _ => .inl rfl
  | _ :: _, [] => .inr (.inr rfl)
  | x :: xs, y :: ys => by
    simp only [lt]
    by_cases hxy : x.val < y.val
    · simp [hxy]
    · by_cases hyx : y.val < x.val
      · simp [hxy, hyx]
      · have : x = y := by
          apply Char.ext
          rw [UInt32.lt_iff_toNat_lt] at hxy hyx
          apply UInt32.toNat_inj.1; omega
        subst this
        have hxx : ¬ x.val < x.val := hxy
        rcases lt_trichotomy xs ys with h | h | h
        · left; simp [h]
        · right; left; rw [h]
        · right; right; simp [h]

theorem le_iff (a b : Str) : le a b = (lt a b || a == b) := by
  unfold le
  rw [Bool.eq_iff_iff]
  rcases lt_trichotomy a b with h | h | h
  · have : lt b a = false := by
      cases hb : lt b a with
      | false => rfl
      | true => have := lt_trans h hb; rw [lt_irrefl] at this; simp at this
    simp [h, this]
  · subst h; simp [lt_irrefl]
  · have h1 : lt a b = false := by
      cases hb : lt a b with
      | false => rfl
      | true => have := lt_trans h hb; rw [lt_irrefl] at this; simp at this
    have h2 : a ≠ b := by rintro rfl; rw [lt_irrefl] at h; simp at h
    simp [h, h1, h2]

end Str
