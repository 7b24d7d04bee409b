import Verif.Props.Arrays
import Verif.Props.Indexing
import Verif.Lemmas.Double
/-! C35: casts. -/

open Lib Spec

namespace Spec

/-- The value of `:v::T`. -/
def castTo (X : Ext) (v : Value) (ty : CastTy) : Res Value := evalVars X (.cast (.var c!"v") ty) (Env.empty.insert c!"v" v)

/-- `x` is an integer. -/
def IsInteger (x : F64) : Prop := ∃ i : ℤ, x.isFinite = true ∧ x.toRat = i

/-- The values of each type. -/
def HasType : CastTy → Value → Prop
  | .integer, .num x => IsInteger x
  | .float, .num _ => True
  | .string, .str _ => True
  | .boolean, .bool _ => True
  | .array, .arr _ => True
  | .currency, .cur _ => True
  | .dateTime, .dt _ => True
  | .json, .json _ => True
  | _, _ => False

end Spec

theorem castTo_eq (X : Ext) (v : Value) (ty : CastTy) : castTo X v ty = castValue X v ty := by
  unfold castTo; rw [show ∀ env, evalVars X (.cast (.var c!"v") ty) env = Eval.eval X (.cast (.var c!"v") ty) none env from fun _ => rfl]; simp only [Eval.eval]; rfl

theorem ofRounded_integer (s : Bool) (i : ℤ) : IsInteger (F64.ofRounded s i) := by
  unfold F64.ofRounded
  split
  · exact ⟨0, rfl, by simp [F64.toRat]⟩
  · exact ⟨i, rfl, rfl⟩

/-- Rounding an integer of moderate size gives an integer. -/
theorem ofInt_integer (i : ℤ) (h : |i| ≤ 2 ^ 63) : IsInteger (F64.ofInt i) := by
  by_cases hs : |i| ≤ 2 ^ 53
  · rw [F64.ofInt_exact i hs]
    unfold F64.ofIntExact
    split
    · exact ⟨0, rfl, by simp [F64.toRat]⟩
    · exact ⟨i, rfl, rfl⟩
  have b63 : IsBin64 (2 ^ 63) := ⟨1, 63, by norm_num, by norm_num, by norm_num, by norm_num⟩
  have b53 : IsBin64 (2 ^ 53) := ⟨1, 53, by norm_num, by norm_num, by norm_num, by norm_num⟩
  have hi : |(i : ℚ)| ≤ 2 ^ 63 := by exact_mod_cast h
  have hi2 : (2 : ℚ) ^ 53 ≤ |(i : ℚ)| := by exact_mod_cast (not_le.1 hs).le
  have hi0 : (i : ℚ) ≠ 0 := by intro h0; rw [h0] at hi2; norm_num at hi2
  have hr := F64.round_isRounded hi0 false
  have big : ∀ v : ℚ, IsBin64 v → 2 ^ 53 ≤ |v| → ∃ k : ℤ, v = k := by
    rintro v ⟨m, e, h1, h2, h3, rfl⟩ hv
    have he : 0 < e := by
      by_contra hc
      have hpow : (2 : ℚ) ^ e ≤ 1 := zpow_le_one_of_nonpos₀ (by norm_num) (by omega)
      rw [abs_mul, abs_of_pos (F64.pow2_pos e)] at hv
      have hm : |(m : ℚ)| < 2 ^ 53 := by exact_mod_cast h1
      have : |(m : ℚ)| * 2 ^ e ≤ |(m : ℚ)| * 1 := mul_le_mul_of_nonneg_left hpow (abs_nonneg _)
      linarith
    obtain ⟨n, rfl⟩ := Int.eq_ofNat_of_zero_le he.le
    exact ⟨m * 2 ^ n, by push_cast; rw [zpow_natCast]⟩
  unfold F64.ofInt
  have up : (i : ℚ) ≤ 2 ^ 63 := (le_abs_self _).trans hi
  have lo : -(2 : ℚ) ^ 63 ≤ (i : ℚ) := by linarith [neg_abs_le (i : ℚ)]
  have k1 := F64.key_round_le b63 up false
  have k2 := F64.le_key_round (F64.isBin64_neg b63) lo false
  cases hx : F64.round (i : ℚ) false with
  | nan => rw [hx] at hr; exact hr.elim
  | zero s => exact ⟨0, rfl, by simp [F64.toRat]⟩
  | inf s =>
    rw [hx] at k1 k2
    unfold F64.key at k1 k2
    rw [Prod.Lex.toLex_le_toLex] at k1 k2
    cases s <;> simp [F64.rank] at k1 k2
  | fin v =>
    rw [hx] at hr
    obtain ⟨k, hk⟩ : ∃ k : ℤ, v = k := by
      refine big v hr.2.1 ?_
      rcases abs_cases (i : ℚ) with ⟨ha, -⟩ | ⟨ha, -⟩
      · have := F64.le_key_round b53 (by linarith : (2 : ℚ) ^ 53 ≤ (i : ℚ)) false
        rw [hx] at this
        unfold F64.key at this
        rw [Prod.Lex.toLex_le_toLex] at this
        have hv : (2 : ℚ) ^ 53 ≤ v := by simpa [F64.rank, F64.toRat] using this
        exact hv.trans (le_abs_self v)
      · have := F64.key_round_le (F64.isBin64_neg b53) (by linarith : (i : ℚ) ≤ -2 ^ 53) false
        rw [hx] at this
        unfold F64.key at this
        rw [Prod.Lex.toLex_le_toLex] at this
        have hv : v ≤ -(2 : ℚ) ^ 53 := by simpa [F64.rank, F64.toRat] using this
        linarith [neg_abs_le v]
    exact ⟨k, rfl, hk⟩

theorem toI64_range (x : F64) : -2 ^ 63 ≤ x.toI64 ∧ x.toI64 ≤ 2 ^ 63 - 1 := by
  have e1 : F64.i64Min = -2 ^ 63 := rfl
  have e2 : F64.i64Max = 2 ^ 63 - 1 := rfl
  unfold F64.toI64
  cases x with
  | nan => simp [F64.toIntSat]
  | inf s => cases s <;> simp [F64.toIntSat, e1, e2]
  | zero s => simp [F64.toIntSat]
  | fin q => simp only [F64.toIntSat]; split_ifs <;> omega

/-- C35 fails: digits beyond the range of a double become an infinity, which is no integer; and a cast to an integer
beyond 64 bits changes when it is repeated. -/
theorem C35_cast_wrong (X : Ext) :
    castTo X (.str (List.replicate 400 '9')) .integer = .ok (.num (.inf false)) ∧
    (∃ w w', castTo X (.str (List.replicate 20 '9')) .integer = .ok w ∧ castTo X w .integer = .ok w' ∧ ¬ Equal w w') := by
  refine ⟨by kernel_rfl, .num (.fin (10 ^ 20)), .num (.fin (2 ^ 63)), by kernel_rfl, by kernel_rfl, ?_⟩
  intro h
  cases h with
  | num h =>
    rcases h.2 with h | ⟨s, t, h, -⟩
    · injection h with h; norm_num at h
    · cases h

/-- C35, partial: a cast that succeeds gives a value of the type asked for, provided the result is finite where an
integer was asked for. Missing: texts of digits beyond the range of a double. -/
theorem C35_type_partial (X : Ext) (v w : Value) (ty : CastTy) (h : castTo X v ty = .ok w)
    (hfin : ty = .integer → ∀ x, w = .num x → x.isFinite = true) : HasType ty w := by
  rw [castTo_eq] at h
  have abs63 : ∀ x : F64, |x.toI64| ≤ 2 ^ 63 := by
    intro x; have := toI64_range x; rw [abs_le]; omega
  have ob : ∀ b, IsInteger (F64.ofBool b) := by
    intro b; cases b
    · exact ⟨0, rfl, by simp [F64.ofBool, F64.toRat]⟩
    · exact ⟨1, rfl, by simp [F64.ofBool, F64.toRat]⟩
  cases ty <;> simp only [castValue] at h
  case integer =>
    cases v <;> simp only at h <;> (try cases h)
    · exact ofInt_integer _ (abs63 _)
    · exact ob _
    · rename_i s
      have hf := hfin rfl _ rfl
      simp only [HasType]
      generalize (F64.parse (cleanInt s)).getD (.zero false) = y at *
      cases y with
      | fin q => exact ofRounded_integer _ _
      | zero b => exact ⟨0, rfl, by simp [F64.trunc, F64.toRat]⟩
      | nan => simp [F64.trunc, F64.isFinite] at hf
      | inf b => simp [F64.trunc, F64.isFinite] at hf
    · exact ⟨0, rfl, by simp [F64.toRat]⟩
    · exact ofInt_integer _ (abs63 _)
  case string => cases h; trivial
  case boolean => cases h; trivial
  case json => cases h; trivial
  case array => cases v <;> simp only at h <;> cases h <;> trivial
  case float =>
    cases v <;> simp only at h <;> (first | (cases h; trivial) | (split at h <;> cases h; trivial) | cases h)
  case currency =>
    cases v <;> simp only at h <;> (first | (cases h; trivial) | (split at h <;> cases h; trivial) | cases h)
  case dateTime =>
    cases v <;> simp only at h <;> (first | (cases h; trivial) | (split at h <;> cases h; trivial) | cases h)

theorem truncRat_int (i : ℤ) : F64.truncRat (i : ℚ) = i := by
  unfold F64.truncRat
  split
  · exact Rat.floor_intCast i
  · rw [show (-(i : ℚ)).floor = -i by rw [← Rat.floor_intCast (-i)]; push_cast; rfl]; omega

/-- Casting an integer within 64 bits to an integer changes nothing but the sign of zero. -/
theorem integer_stable (x : F64) (hd : IsDouble x) (hi : IsInteger x) (hlo : -2 ^ 63 ≤ x.toRat) (hhi : x.toRat ≤ 2 ^ 63) :
    SameNumber x (F64.ofInt x.toI64) := by
  obtain ⟨i, hf, hx⟩ := hi
  cases x with
  | nan => simp [F64.isFinite] at hf
  | inf s => simp [F64.isFinite] at hf
  | zero s => exact ⟨by simp, .inr ⟨s, false, rfl, rfl⟩⟩
  | fin q =>
    have hq : q = i := hx
    subst hq
    refine ⟨by simp, .inl ?_⟩
    have h1 : -2 ^ 63 ≤ i := by
      have : -(2 : ℚ) ^ 63 ≤ (i : ℚ) := hlo
      exact_mod_cast this
    have h2 : i ≤ 2 ^ 63 := by
      have : (i : ℚ) ≤ 2 ^ 63 := hhi
      exact_mod_cast this
    have e1 : F64.i64Min = -2 ^ 63 := rfl
    have e2 : F64.i64Max = 2 ^ 63 - 1 := rfl
    simp only [F64.toI64, F64.toIntSat, truncRat_int]
    rw [if_neg (by omega)]
    split
    · have : i = 2 ^ 63 := by omega
      subst this
      decide +kernel
    · exact (F64.round_exact hd.2 hd.1 _).symm

/-- C35, partial: casting again gives the same value (up to the sign of zero), provided the integer lies within 64
bits where one was asked for. Missing: integers beyond 64 bits. -/
theorem C35_twice_partial (X : Ext) (v w : Value) (ty : CastTy) (h : castTo X v ty = .ok w)
    (hint : ty = .integer → ∀ x, w = .num x → x.isFinite = true ∧ -2 ^ 63 ≤ x.toRat ∧ x.toRat ≤ 2 ^ 63) :
    ∃ w', castTo X w ty = .ok w' ∧ (w' = w ∨ ∃ x y, ty = .integer ∧ w = .num x ∧ w' = .num y ∧ SameNumber x y) := by
  have hty := C35_type_partial X v w ty h (fun ht x hx => (hint ht x hx).1)
  cases ty
  case integer =>
    cases w <;> simp only [HasType] at hty <;> try exact hty.elim
    rename_i x
    have hd : IsDouble x := by
      rw [castTo_eq] at h
      simp only [castValue] at h
      cases v <;> simp only at h <;> (try cases h)
      · exact F64.ofInt_isDouble _
      · rename_i b; cases b
        · trivial
        · exact ⟨by norm_num, 1, 0, by norm_num, by norm_num, by norm_num, by norm_num⟩
      · rename_i s
        have hdy : IsDouble ((F64.parse (cleanInt s)).getD (.zero false)) := by
          cases hp : F64.parse (cleanInt s) with
          | none => trivial
          | some y => exact F64.parse_isDouble hp
        generalize (F64.parse (cleanInt s)).getD (.zero false) = y at *
        cases y with
        | fin q =>
          simp only [F64.trunc, F64.ofRounded]
          split
          · trivial
          · rename_i h0
            exact ⟨by exact_mod_cast h0, F64.isBin64_trunc hdy.2⟩
        | _ => trivial
      · trivial
      · exact F64.ofInt_isDouble _
    obtain ⟨-, hlo, hhi⟩ := hint rfl x rfl
    refine ⟨_, by rw [castTo_eq]; rfl, .inr ⟨x, _, rfl, rfl, rfl, integer_stable x hd hty hlo hhi⟩⟩
  all_goals
    cases w <;> simp only [HasType] at hty <;> first | exact hty.elim | exact ⟨_, by rw [castTo_eq]; rfl, .inl rfl⟩

/-- C35: casting a value to the type it already has gives the value itself (integers within 64 bits, up to the sign
of zero). -/
theorem C35_same_type (X : Ext) (v : Value) (ty : CastTy) (h : HasType ty v) :
    (ty ≠ .integer → castTo X v ty = .ok v) ∧
    (ty = .integer → ∀ x, v = .num x → IsDouble x → -2 ^ 63 ≤ x.toRat → x.toRat ≤ 2 ^ 63 →
      ∃ y, castTo X v ty = .ok (.num y) ∧ SameNumber x y) := by
  refine ⟨?_, ?_⟩
  · intro hty
    rw [castTo_eq]
    cases ty <;> cases v <;> simp only [HasType] at h <;> first | exact h.elim | exact absurd rfl hty | rfl
  · rintro rfl x rfl hd hlo hhi
    exact ⟨_, by rw [castTo_eq]; rfl, integer_stable x hd h hlo hhi⟩

example (X : Ext) : evaluate X c!"\"-12.7kg\"::Integer" = .ok (.num (.fin (-12))) := by kernel_rfl
example : IsDouble (.fin (-12)) ∧ IsInteger (.fin (-12)) :=
  ⟨⟨by norm_num, -12, 0, by norm_num, by norm_num, by norm_num, by norm_num⟩, -12, rfl, by simp [F64.toRat]⟩
