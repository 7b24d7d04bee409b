import Verif.Spec.Call
import Mathlib.Tactic.Linarith
import Mathlib.Algebra.Order.Floor.Ring
import Mathlib.Data.Rat.Floor
/-! C24, C25: indexing and slicing. -/

open Lib

namespace Spec

/-- `t` is the rational `q` truncated towards zero. -/
def IsTrunc (q : ℚ) (t : ℤ) : Prop := |(t : ℚ)| ≤ |q| ∧ |q| < |(t : ℚ)| + 1 ∧ 0 ≤ t * q

/-- `t` is the truncation of the finite number `n`. -/
def TruncatesTo : F64 → ℤ → Prop
  | .zero _, t => t = 0
  | .fin q, t => IsTrunc q t
  | _, _ => False

/-- What indexing at position `t` should give: positions count from 0, or from -1 backwards from the end. -/
def elementAt (items : List Value) (t : ℤ) : Option Value :=
  if 0 ≤ t then items[t.toNat]?
  else if 0 ≤ items.length + t then items[(items.length + t).toNat]?
  else none

/-- The value of `:a[:i]`. -/
def index (X : Ext) (a i : Value) : Res Value :=
  evalVars X (.index (.var c!"a") (.var c!"i")) ((Env.empty.insert c!"a" a).insert c!"i" i)

/-- The value of `:a[:s::e]`, a missing bound being left out. -/
def slice (X : Ext) (a : Value) (s e : Option Value) : Res Value :=
  evalVars X (.slice (.var c!"a") (s.map fun _ => .var c!"s") (e.map fun _ => .var c!"e"))
    (((Env.empty.insert c!"a" a).insert c!"s" (s.getD .null)).insert c!"e" (e.getD .null))

end Spec

open Spec

theorem isTrunc_unique {q : ℚ} {t : ℤ} (h : IsTrunc q t) : F64.truncRat q = t := by
  obtain ⟨h1, h2, h3⟩ := h
  unfold F64.truncRat
  by_cases hq : 0 ≤ q
  · rw [if_pos hq]
    have ht : 0 ≤ t := by
      by_contra hc
      have hc' : (t : ℚ) ≤ -1 := by exact_mod_cast (by omega : t ≤ -1)
      rw [abs_of_neg (by linarith), abs_of_nonneg hq] at h1
      nlinarith
    have ht' : (0 : ℚ) ≤ t := by exact_mod_cast ht
    rw [abs_of_nonneg ht', abs_of_nonneg hq] at h1 h2
    show ⌊q⌋ = t; rw [Int.floor_eq_iff]; exact ⟨h1, h2⟩
  · rw [if_neg hq]
    have hq' : q < 0 := lt_of_not_ge hq
    have ht : t ≤ 0 := by
      by_contra hc
      have hc' : (1 : ℚ) ≤ t := by exact_mod_cast (by omega : 1 ≤ t)
      nlinarith
    have ht' : (t : ℚ) ≤ 0 := by exact_mod_cast ht
    rw [abs_of_nonpos ht', abs_of_neg hq'] at h1 h2
    have : (-q).floor = -t := by
      show ⌊-q⌋ = -t; rw [Int.floor_eq_iff]; push_cast; exact ⟨h1, h2⟩
    rw [this]; simp

theorem toI64_of {n : F64} {t : ℤ} (h : TruncatesTo n t) (hlo : F64.i64Min ≤ t) (hhi : t ≤ F64.i64Max) : n.toI64 = t := by
  cases n with
  | nan => exact h.elim
  | inf s => exact h.elim
  | zero s => simp only [TruncatesTo] at h; subst h; rfl
  | fin q =>
    have := isTrunc_unique h
    simp only [F64.toI64, F64.toIntSat, this]
    rw [if_neg (by omega), if_neg (by omega)]

theorem toI64_big {n : F64} {t : ℤ} (h : TruncatesTo n t) (hhi : F64.i64Max < t) : n.toI64 = F64.i64Max := by
  cases n with
  | nan => exact h.elim
  | inf s => exact h.elim
  | zero s => simp only [TruncatesTo] at h; subst h; simp [F64.i64Max] at hhi
  | fin q =>
    have := isTrunc_unique h
    simp only [F64.toI64, F64.toIntSat, this]
    rw [if_neg (by unfold F64.i64Min F64.i64Max at *; omega), if_pos hhi]

theorem index_eq (X : Ext) (items : List Value) (n : F64) : index X (.arr items) (.num n) = indexArray items n.toI64 := by
  simp only [index, evalVars, Eval.eval]; rfl

/-- C24 fails: an index of -2^63 or below panics (a debug build negates the smallest 64-bit integer), and NaN reads
the first element. -/
theorem C24_index_wrong (X : Ext) :
    evaluate X c!"[5][(0-1)*(9999999999999999999999)]" = panics "attempt to negate with overflow" ∧
    evaluate X c!"[5][\"nan\"::Float]" = .ok (.num (F64.ofNat 5)) :=
  ⟨by kernel_rfl, by kernel_rfl⟩

/-- C24, partial: for an index whose truncation `t` is above -2^63, `a[i]` is the element at `t`, or an "index out of
bounds" error when there is none. Missing: truncations of -2^63 and below, -∞ and NaN, where it is false. -/
theorem C24_index_partial (X : Ext) (items : List Value) (hlen : items.length < 2 ^ 63) (n : F64) (t : ℤ) (h : TruncatesTo n t)
    (hmin : -2 ^ 63 < t) :
    index X (.arr items) (.num n) = (match elementAt items t with | some v => .ok v | none => fail "Index out of bounds") := by
  rw [index_eq]
  have e1 : F64.i64Min = -2 ^ 63 := rfl
  have e2 : F64.i64Max = 2 ^ 63 - 1 := rfl
  have key : ∀ k : ℤ, -2 ^ 63 < k → indexArray items k =
      (match elementAt items k with | some v => .ok v | none => fail "Index out of bounds") := by
    intro k hk
    unfold indexArray clampIndex elementAt
    by_cases h0 : 0 ≤ k
    · simp only [if_pos h0]
      by_cases h1 : k.toNat < items.length
      · simp [h1, bind, Except.bind]
      · rw [List.getElem?_eq_none (by omega)]; simp [h1, bind, Except.bind]
    · simp only [if_neg h0]
      rw [if_neg (by omega)]
      by_cases h1 : (-k).toNat ≤ items.length
      · have : (↑items.length + k).toNat = items.length - (-k).toNat := by omega
        rw [if_pos h1, if_pos (by omega), this]
        have : items.length - (-k).toNat < items.length := by omega
        simp [bind, Except.bind, this]
      · rw [if_neg h1, if_neg (by omega)]; rfl
  by_cases hbig : t ≤ F64.i64Max
  · rw [toI64_of h (by omega) hbig]; exact key t hmin
  · have hlt : F64.i64Max < t := by omega
    rw [toI64_big h hlt, key _ (by omega)]
    have : ∀ k : ℤ, F64.i64Max ≤ k → elementAt items k = none := by
      intro k hk
      unfold elementAt
      rw [if_pos (by omega), List.getElem?_eq_none (by omega)]
    rw [this _ (le_refl _), this t (by omega)]

/-- C24, partial: +∞ is out of bounds. -/
theorem C24_infinity_partial (X : Ext) (items : List Value) (hlen : items.length < 2 ^ 63) :
    index X (.arr items) (.num (.inf false)) = fail "Index out of bounds" := by
  rw [index_eq]
  have : (F64.inf false).toI64 = 2 ^ 63 - 1 := rfl
  rw [this]
  unfold indexArray clampIndex
  rw [if_pos (by omega), if_neg (by omega)]; rfl

example : TruncatesTo (.fin (-5 / 2)) (-2) := by
  simp only [TruncatesTo, IsTrunc]; norm_num [abs_of_pos, abs_of_neg]

example (X : Ext) : evaluate X c!"[5, 6, 7][0 - 2.5]" = .ok (.num (F64.ofNat 6)) := by kernel_rfl

/-! ### C25 -/

namespace Spec

/-- A bound counted from the end when negative, then clamped to the array. -/
def clampBound (len : ℕ) (t : ℤ) : ℕ := (min (max (if t < 0 then len + t else t) 0) len).toNat

/-- The positions a bound stands for: absent, or a number (NaN counts as 0, infinities are beyond every array). -/
inductive Bound (len dflt : ℕ) : Option Value → ℕ → Prop
  | absent : Bound len dflt none dflt
  | finite {n : F64} {t : ℤ} : TruncatesTo n t → Bound len dflt (some (.num n)) (clampBound len t)
  | nan : Bound len dflt (some (.num .nan)) 0
  | posInf : Bound len dflt (some (.num (.inf false))) len
  | negInf : Bound len dflt (some (.num (.inf true))) 0

end Spec

theorem slice_eq (X : Ext) (items : List Value) (s e : Option Value) : slice X (.arr items) s e = sliceArray items s e := by
  cases s <;> cases e <;> (simp only [slice, evalVars, Eval.eval, Option.map, Eval.optOf]; rfl)

theorem trunc_exists (n : F64) : (∃ t, TruncatesTo n t) ∨ n = .nan ∨ n = .inf true ∨ n = .inf false := by
  cases n with
  | nan => simp
  | inf s => cases s <;> simp
  | zero s => exact .inl ⟨0, rfl⟩
  | fin q =>
    refine .inl ⟨if 0 ≤ q then ⌊q⌋ else -⌊-q⌋, ?_⟩
    by_cases hq : 0 ≤ q
    · simp only [hq, if_true, TruncatesTo, IsTrunc]
      have h0 : (0 : ℤ) ≤ ⌊q⌋ := Int.floor_nonneg.2 hq
      have h0' : (0 : ℚ) ≤ ⌊q⌋ := by exact_mod_cast h0
      rw [abs_of_nonneg h0', abs_of_nonneg hq]
      exact ⟨Int.floor_le q, Int.lt_floor_add_one q, by positivity⟩
    · simp only [hq, if_false, TruncatesTo, IsTrunc]
      have hq' : q < 0 := lt_of_not_ge hq
      have h0 : (0 : ℤ) ≤ ⌊-q⌋ := Int.floor_nonneg.2 (by linarith)
      have h0' : (0 : ℚ) ≤ ⌊-q⌋ := by exact_mod_cast h0
      push_cast
      rw [abs_neg, abs_of_nonneg h0', abs_of_neg hq']
      refine ⟨Int.floor_le _, Int.lt_floor_add_one _, ?_⟩
      nlinarith

theorem bound_sat (len : ℕ) (hlen : len < 2 ^ 63) (n : F64) (t : ℤ) (h : TruncatesTo n t) :
    (min (max (if n.toI64 < 0 then (len : ℤ) + n.toI64 else n.toI64) 0) len).toNat = clampBound len t := by
  have e1 : F64.i64Min = -2 ^ 63 := rfl
  have e2 : F64.i64Max = 2 ^ 63 - 1 := rfl
  unfold clampBound
  by_cases h1 : F64.i64Max < t
  · rw [toI64_big h h1, if_neg (by omega), if_neg (by omega)]; omega
  by_cases h2 : t < F64.i64Min
  · have : n.toI64 = F64.i64Min := by
      cases n with
      | nan => exact h.elim
      | inf s => exact h.elim
      | zero s => simp only [TruncatesTo] at h; subst h; omega
      | fin q => simp only [F64.toI64, F64.toIntSat, isTrunc_unique h]; rw [if_pos h2]
    rw [this, if_pos (by omega), if_pos (by omega)]; omega
  · rw [toI64_of h (by omega) (by omega)]

theorem sliceBound_spec (len : ℕ) (hlen : len < 2 ^ 63) (dflt : ℕ) (hd : dflt ≤ len) (b : Option Value) (p : ℕ) (h : Bound len dflt b p) :
    ∃ i : ℤ, sliceBound dflt b = .ok i ∧ (min (max (if i < 0 then (len : ℤ) + i else i) 0) len).toNat = p := by
  cases h with
  | absent => exact ⟨dflt, rfl, by rw [if_neg (by omega)]; omega⟩
  | finite ht => exact ⟨_, rfl, bound_sat len hlen _ _ ht⟩
  | nan => exact ⟨0, rfl, by simp⟩
  | posInf => exact ⟨2 ^ 63 - 1, rfl, by rw [if_neg (by omega)]; omega⟩
  | negInf => exact ⟨-2 ^ 63, rfl, by rw [if_pos (by omega)]; omega⟩

/-- C25: `a[s::e]` holds exactly the elements at positions `s' ≤ i < e'`, in order. -/
theorem C25_slice (X : Ext) (items : List Value) (hlen : items.length < 2 ^ 63) (s e : Option Value) (s' e' : ℕ)
    (hs : Bound items.length 0 s s') (he : Bound items.length items.length e e') :
    ∃ r, slice X (.arr items) s e = .ok (.arr r) ∧ r.length = e' - s' ∧ ∀ i, r[i]? = if s' + i < e' then items[s' + i]? else none := by
  have he'le : e' ≤ items.length := by
    cases he with
    | absent => exact le_refl _
    | finite _ => unfold clampBound; omega
    | nan => omega
    | posInf => exact le_refl _
    | negInf => omega
  obtain ⟨i, hi, hi'⟩ := sliceBound_spec items.length hlen 0 (by omega) s s' hs
  obtain ⟨j, hj, hj'⟩ := sliceBound_spec items.length hlen items.length (le_refl _) e e' he
  rw [slice_eq]
  unfold sliceArray
  simp only [Nat.cast_zero] at hi
  simp only [hi, hj, bind, Except.bind, hi', hj']
  by_cases hlt : e' < s'
  · rw [if_pos hlt]
    refine ⟨[], rfl, by simp; omega, ?_⟩
    intro i; rw [if_neg (by omega)]; rfl
  · rw [if_neg hlt]
    refine ⟨_, rfl, by simp; omega, ?_⟩
    intro i
    rw [List.getElem?_drop, List.getElem?_take]

/-- C25: every bound that is a number stands for some position, so slicing by numbers never fails. -/
theorem C25_numbers_always_slice (len dflt : ℕ) (n : F64) : ∃ p, Bound len dflt (some (.num n)) p := by
  rcases trunc_exists n with ⟨t, ht⟩ | rfl | rfl | rfl
  · exact ⟨_, .finite ht⟩
  · exact ⟨_, .nan⟩
  · exact ⟨_, .negInf⟩
  · exact ⟨_, .posInf⟩

/-- C25: cutting at any number and putting the two parts together gives the array back. -/
theorem C25_split (X : Ext) (items : List Value) (hlen : items.length < 2 ^ 63) (n : F64) :
    ∃ l r, slice X (.arr items) none (some (.num n)) = .ok (.arr l) ∧ slice X (.arr items) (some (.num n)) none = .ok (.arr r) ∧ l ++ r = items := by
  rw [slice_eq, slice_eq]
  unfold sliceArray
  simp only [sliceBound, bind, Except.bind]
  generalize hk : (min (max (if n.toI64 < 0 then (items.length : ℤ) + n.toI64 else n.toI64) 0) items.length).toNat = k
  have hk' : k ≤ items.length := by rw [← hk]; omega
  have h0 : (min (max (if (0 : ℤ) < 0 then (items.length : ℤ) + 0 else 0) 0) items.length).toNat = 0 := by simp
  have h1 : (min (max (if (items.length : ℤ) < 0 then (items.length : ℤ) + items.length else items.length) 0) items.length).toNat = items.length := by
    rw [if_neg (by omega)]; omega
  rw [h0, h1, if_neg (by omega), if_neg (by omega)]
  exact ⟨_, _, rfl, rfl, by simp⟩

example (X : Ext) : evaluate X c!"[1, 2, 3, 4][1:-1]" = .ok (.arr [.num (F64.ofNat 2), .num (F64.ofNat 3)]) := by kernel_rfl
example : Bound 4 4 (some (.num (.fin (-3 / 2)))) 3 :=
  .finite (t := -1) (by simp only [TruncatesTo, IsTrunc]; norm_num [abs_of_pos, abs_of_neg])
