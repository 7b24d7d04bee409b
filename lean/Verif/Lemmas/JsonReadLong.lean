import Verif.Lemmas.JsonRead
/-! Reading of JSON numbers with more digits than fit into 64 bits. -/

namespace JsonRead

open Spec JsonText NumText Reader

/-- `M` are the leading digits of `A`, without the last `j`; digits are left out only when there are 64 bits of others. -/
structure Leading (A M j : ℕ) : Prop where
  low : M * 10 ^ j ≤ A
  high : A < (M + 1) * 10 ^ j
  all : j = 0 ∨ 2 ^ 64 ≤ M * 10 + 9
  fits : M < 2 ^ 64

theorem leading_all {A : ℕ} (h : A < 2 ^ 64) : Leading A A 0 := ⟨by simp, by simp, .inl rfl, h⟩

theorem natOf_bound : ∀ ds : Str, (∀ c ∈ ds, '0' ≤ c ∧ c ≤ '9') → natOf ds < 10 ^ ds.length
  | [], _ => by simp [natOf]
  | c :: ds, h => by
    have ih := natOf_bound ds fun x hx => h x (by simp [hx])
    have hc : digit c ≤ 9 := by
      have h1 := (h c (by simp)).2
      have : c.toNat ≤ ('9' : Char).toNat := h1
      have : ('9' : Char).toNat = 57 := rfl
      unfold digit
      omega
    rw [natOf_cons, List.length_cons, pow_succ]
    have : digit c * 10 ^ ds.length ≤ 9 * 10 ^ ds.length := Nat.mul_le_mul_right _ hc
    omega

theorem natOf_append : ∀ a b : Str, natOf (a ++ b) = natOf a * 10 ^ b.length + natOf b
  | [], b => by simp [natOf]
  | c :: a, b => by
    rw [List.cons_append, natOf_cons, natOf_cons, natOf_append a b, List.length_append, pow_add]
    ring

theorem dropWhile_digits : ∀ (fs r : Str), (∀ c ∈ fs, '0' ≤ c ∧ c ≤ '9') → (∀ c, r.head? = some c → JsonText.isDigit c = false) →
    (fs ++ r).dropWhile JsonText.isDigit = r
  | [], r, _, hr => by
    cases r with
    | nil => rfl
    | cons c r => simp [hr c rfl]
  | c :: fs, r, hd, hr => by
    rw [List.cons_append, List.dropWhile_cons, if_pos (isDigit_true (hd c (by simp)))]
    exact dropWhile_digits fs r (fun x hx => hd x (by simp [hx])) hr

theorem decimals_any (neg : Bool) : ∀ (fs : Str) (sig : ℕ) (e : ℤ) (r : Str), (∀ c ∈ fs, '0' ≤ c ∧ c ≤ '9') → sig < 2 ^ 64 →
    (∀ c, r.head? = some c → JsonText.isDigit c = false) →
    ∃ M j, j ≤ fs.length ∧ decimals neg sig e (fs ++ r) = afterDigits neg M (e - fs.length + j) r ∧ Leading (sig * 10 ^ fs.length + natOf fs) M j
  | [], sig, e, r, _, hs, hr => by
    refine ⟨sig, 0, le_rfl, ?_, by simpa [natOf] using leading_all hs⟩
    cases r with
    | nil => simp [decimals]
    | cons c r => simp [decimals, hr c rfl]
  | c :: fs, sig, e, r, hd, hs, hr => by
    have hc := isDigit_true (hd c (by simp))
    have heq : sig * 10 ^ (c :: fs).length + natOf (c :: fs) = (sig * 10 + digit c) * 10 ^ fs.length + natOf fs := by
      rw [natOf_cons, List.length_cons, pow_succ]; ring
    have hd' : ∀ x ∈ fs, '0' ≤ x ∧ x ≤ '9' := fun x hx => hd x (by simp [hx])
    by_cases hlt : sig * 10 + digit c < 2 ^ 64
    · obtain ⟨M, j, hj, hrun, hl⟩ := decimals_any neg fs (sig * 10 + digit c) (e - 1) r hd' hlt hr
      refine ⟨M, j, by simp only [List.length_cons]; omega, ?_, heq ▸ hl⟩
      rw [List.cons_append, decimals, if_pos hc, if_pos hlt, hrun]
      congr 1
      simp only [List.length_cons]; push_cast; ring
    · refine ⟨sig, fs.length + 1, by simp, ?_, ⟨?_, ?_, .inr ?_, hs⟩⟩
      · rw [List.cons_append, decimals, if_pos hc, if_neg hlt, dropWhile_digits fs r hd' hr]
        congr 1
        simp only [List.length_cons]; push_cast; ring
      · simp only [List.length_cons]; omega
      · have := natOf_bound (c :: fs) hd
        simp only [List.length_cons] at this ⊢
        rw [Nat.add_mul]
        omega
      · have : digit c ≤ 9 := by
          have h1 : c.toNat ≤ ('9' : Char).toNat := (hd c (by simp)).2
          have : ('9' : Char).toNat = 57 := rfl
          unfold digit
          omega
        omega

theorem longInteger_run (neg : Bool) (sig : ℕ) : ∀ (ds : Str) (e : ℤ) (r : Str), (∀ c ∈ ds, '0' ≤ c ∧ c ≤ '9') →
    (∀ c, r.head? = some c → JsonText.isDigit c = false) → longInteger neg sig e (ds ++ r) = afterInt neg sig (e + ds.length) r
  | [], e, r, _, hr => by
    cases r with
    | nil => simp [longInteger]
    | cons c r => simp [longInteger, hr c rfl]
  | c :: ds, e, r, hd, hr => by
    rw [List.cons_append, longInteger, if_pos (isDigit_true (hd c (by simp))), longInteger_run neg sig ds (e + 1) r (fun x hx => hd x (by simp [hx])) hr]
    congr 1
    simp only [List.length_cons]; push_cast; ring

theorem integer_any (neg : Bool) : ∀ (ds : Str) (sig : ℕ) (r : Str), (∀ c ∈ ds, '0' ≤ c ∧ c ≤ '9') → sig < 2 ^ 64 →
    (∀ c, r.head? = some c → JsonText.isDigit c = false) →
    ∃ M j : ℕ, j ≤ ds.length ∧ integer neg sig (ds ++ r) = afterInt neg M j r ∧ Leading (sig * 10 ^ ds.length + natOf ds) M j
  | [], sig, r, _, hs, hr => by
    refine ⟨sig, 0, le_rfl, ?_, by simpa [natOf] using leading_all hs⟩
    cases r with
    | nil => simp [integer]
    | cons c r => simp [integer, hr c rfl]
  | c :: ds, sig, r, hd, hs, hr => by
    have hc := isDigit_true (hd c (by simp))
    have heq : sig * 10 ^ (c :: ds).length + natOf (c :: ds) = (sig * 10 + digit c) * 10 ^ ds.length + natOf ds := by
      rw [natOf_cons, List.length_cons, pow_succ]; ring
    have hd' : ∀ x ∈ ds, '0' ≤ x ∧ x ≤ '9' := fun x hx => hd x (by simp [hx])
    by_cases hlt : sig * 10 + digit c < 2 ^ 64
    · obtain ⟨M, j, hj, hrun, hl⟩ := integer_any neg ds (sig * 10 + digit c) r hd' hlt hr
      refine ⟨M, j, by simp only [List.length_cons]; omega, ?_, heq ▸ hl⟩
      rw [List.cons_append, integer, if_pos hc, if_pos hlt, hrun]
    · refine ⟨sig, ds.length + 1, by simp, ?_, ⟨?_, ?_, .inr ?_, hs⟩⟩
      · rw [List.cons_append, integer, if_pos hc, if_neg hlt, ← List.cons_append, longInteger_run neg sig (c :: ds) 0 r hd hr]
        congr 1
        simp
      · simp only [List.length_cons]; omega
      · have := natOf_bound (c :: ds) hd
        simp only [List.length_cons] at this ⊢
        rw [Nat.add_mul]
        omega
      · have : digit c ≤ 9 := by
          have h1 : c.toNat ≤ ('9' : Char).toNat := (hd c (by simp)).2
          have : ('9' : Char).toNat = 57 := rfl
          unfold digit
          omega
        omega

/-- The digits after 64 bits are worth less than one part in 2^60. -/
theorem leading_close {A M j : ℕ} (h : Leading A M j) : |(M * 10 ^ j : ℚ) - A| * 2 ^ 60 ≤ A := by
  have hl : ((M * 10 ^ j : ℕ) : ℚ) ≤ A := by exact_mod_cast h.low
  have hh : (A : ℚ) < ((M + 1) * 10 ^ j : ℕ) := by exact_mod_cast h.high
  push_cast at hl hh
  rw [abs_of_nonpos (by linarith)]
  rcases h.all with rfl | hb
  · have h2 := h.high
    have h1 := h.low
    simp only [pow_zero, mul_one] at h1 h2
    have : A = M := by omega
    subst this
    simp
  · have : 2 ^ 60 ≤ M := by omega
    have hM : ((2 ^ 60 : ℕ) : ℚ) ≤ M := by exact_mod_cast this
    push_cast at hM
    have hp : (0 : ℚ) < 10 ^ j := by positivity
    have := mul_le_mul_of_nonneg_right hM hp.le
    generalize (10 : ℚ) ^ j = P at *
    norm_num at *
    linarith

theorem leading_twice {A F f M₁ j₁ M j : ℕ} (hF : F < 10 ^ f) (hj : j ≤ f) (h₁ : Leading A M₁ j₁) (h : Leading (M₁ * 10 ^ f + F) M j) :
    |(M * 10 ^ (j + j₁) : ℚ) - (A * 10 ^ f + F : ℕ)| * 2 ^ 60 ≤ (A * 10 ^ f + F : ℕ) := by
  rcases h₁.all with rfl | hb
  · have h2 := h₁.high
    have h1 := h₁.low
    simp only [pow_zero, mul_one] at h1 h2
    have : A = M₁ := by omega
    subst this
    exact leading_close h
  · have hM₁ : 2 ^ 60 ≤ M₁ := by omega
    have hp : 0 < 10 ^ f := by positivity
    have hp1 : 0 < 10 ^ j₁ := by positivity
    have hpj : 0 < 10 ^ j := by positivity
    -- both lie between `M₁` and `M₁ + 1`, scaled
    have a1 : M₁ * 10 ^ j₁ * 10 ^ f ≤ A * 10 ^ f := Nat.mul_le_mul_right _ h₁.low
    have a2 : (A + 1) * 10 ^ f ≤ (M₁ + 1) * 10 ^ j₁ * 10 ^ f := Nat.mul_le_mul_right _ h₁.high
    have b2 : M * 10 ^ j * 10 ^ j₁ ≤ (M₁ * 10 ^ f + F) * 10 ^ j₁ := Nat.mul_le_mul_right _ h.low
    have b3 : (M₁ * 10 ^ f + F) * 10 ^ j₁ ≤ (M₁ + 1) * 10 ^ f * 10 ^ j₁ := Nat.mul_le_mul_right _ (by rw [Nat.add_mul]; omega)
    have b1 : M₁ * 10 ^ f * 10 ^ j₁ ≤ M * 10 ^ j * 10 ^ j₁ := by
      refine Nat.mul_le_mul_right _ ?_
      have e : 10 ^ f = 10 ^ (f - j) * 10 ^ j := by rw [← pow_add]; congr 1; omega
      have hh := h.high
      have : M₁ * 10 ^ (f - j) * 10 ^ j < (M + 1) * 10 ^ j := by
        refine lt_of_le_of_lt ?_ hh
        rw [e]; nlinarith
      have := Nat.lt_of_mul_lt_mul_right this
      rw [e, ← mul_assoc]
      exact Nat.mul_le_mul_right _ (by omega)
    have q1 : (M₁ : ℚ) * 10 ^ j₁ * 10 ^ f ≤ A * 10 ^ f := by exact_mod_cast a1
    have q2 : ((A : ℚ) + 1) * 10 ^ f ≤ (M₁ + 1) * 10 ^ j₁ * 10 ^ f := by exact_mod_cast a2
    have q3 : (M : ℚ) * 10 ^ j * 10 ^ j₁ ≤ (M₁ + 1) * 10 ^ f * 10 ^ j₁ := by exact_mod_cast b2.trans b3
    have q4 : (M₁ : ℚ) * 10 ^ f * 10 ^ j₁ ≤ M * 10 ^ j * 10 ^ j₁ := by exact_mod_cast b1
    have q5 : (F : ℚ) ≤ 10 ^ f := by exact_mod_cast hF.le
    have q6 : (0 : ℚ) ≤ F := by positivity
    have q7 : ((2 ^ 60 : ℕ) : ℚ) ≤ M₁ := by exact_mod_cast hM₁
    have q8 : (0 : ℚ) < 10 ^ f * 10 ^ j₁ := by positivity
    have q9 := mul_le_mul_of_nonneg_right q7 q8.le
    push_cast at q9 ⊢
    rw [pow_add]
    generalize (10 : ℚ) ^ f = P at *
    generalize (10 : ℚ) ^ j₁ = Q at *
    generalize (10 : ℚ) ^ j = R at *
    have e1 : (M₁ + 1 : ℚ) * Q * P = M₁ * (P * Q) + P * Q := by ring
    have e2 : (M₁ + 1 : ℚ) * P * Q = M₁ * (P * Q) + P * Q := by ring
    have e3 : (M₁ : ℚ) * Q * P = M₁ * (P * Q) := by ring
    have e4 : (M₁ : ℚ) * P * Q = M₁ * (P * Q) := by ring
    have e5 : ((A : ℚ) + 1) * P = A * P + P := by ring
    have e6 : (M : ℚ) * R * Q = M * (R * Q) := by ring
    rw [e1, e5] at q2
    rw [e2, e6] at q3
    rw [e3] at q1
    rw [e4, e6] at q4
    have key : |(M : ℚ) * (R * Q) - (A * P + F)| ≤ P * Q := by
      rw [abs_le]
      constructor <;> linarith
    norm_num at q9 ⊢
    linarith

/-- Any number is read as `fromParts` of at most 64 bits, which are within one part in 2^60 of all its digits. -/
theorem read_any {t : Str} {neg : Bool} {m f : ℕ} {x : ℤ} (h : Written t neg m f x) (hl : t.length < 2 ^ 29) (hx : |x| < 2 ^ 30) :
    ∃ M j : ℕ, M < 2 ^ 64 ∧ Reader.read t = fromParts neg M (x - f + j) ∧ |(M * 10 ^ j : ℚ) - m| * 2 ^ 60 ≤ m := by
  obtain ⟨ds, fs, e, hi, hfs, he, rfl, rfl, rfl⟩ := h
  have hd : JsonText.Spec.Digits ds := hi.1
  have hx' := abs_lt.1 hx
  have hehead : ∀ c, e.head? = some c → JsonText.isDigit c = false := fun c hc => (expText_head he c hc).1
  have hlen : ds.length + fs.length < 2 ^ 29 := by
    simp only [List.length_append] at hl
    split at hl
    · rename_i h0; subst h0; simp at hl ⊢; omega
    · simp at hl; omega
  unfold Reader.read
  rw [minus_sign neg hd]
  have hF := natOf_bound fs hfs
  by_cases hf0 : fs = []
  · subst hf0
    obtain ⟨M, j, hj, hrun, hlead⟩ := integer_any neg ds 0 e hd.2 (by norm_num) hehead
    rw [Nat.zero_mul, Nat.zero_add] at hlead
    refine ⟨M, j, hlead.fits, ?_, ?_⟩
    · rw [if_pos rfl, List.nil_append]
      show integer neg 0 (ds ++ e) = _
      rw [hrun, after_int neg M j (fun c hc => (expText_head he c hc).2), after_exp neg M j he (by omega) (by simp at hlen; rw [abs_lt]; constructor <;> omega)]
      congr 1
      simp [add_comm]
    · rw [List.append_nil]
      exact leading_close hlead
  · obtain ⟨M₁, j₁, hj₁, hrun₁, hlead₁⟩ := integer_any neg ds 0 ('.' :: (fs ++ e)) hd.2 (by norm_num) (by intro c hc; simp at hc; subst hc; decide)
    rw [Nat.zero_mul, Nat.zero_add] at hlead₁
    obtain ⟨M, j, hj, hrun, hlead⟩ := decimals_any neg fs M₁ j₁ e hfs hlead₁.fits hehead
    refine ⟨M, j + j₁, hlead.fits, ?_, ?_⟩
    · rw [if_neg hf0]
      show integer neg 0 (ds ++ ('.' :: (fs ++ e))) = _
      rw [hrun₁]
      show decimals neg M₁ j₁ (fs ++ e) = _
      rw [hrun, after_exp neg M _ he (by omega) (by rw [abs_lt]; constructor <;> omega)]
      congr 1
      push_cast; ring
    · rw [natOf_append]
      exact leading_twice hF hj hlead₁ hlead

end JsonRead
