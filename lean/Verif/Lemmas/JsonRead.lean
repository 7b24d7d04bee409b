import Verif.Spec.JsonRead
import Verif.Lemmas.NumText
import Verif.Lemmas.LexText
import Verif.Props.SumError
import Mathlib.Data.Nat.Log
/-! Reading of JSON numbers, digit by digit. -/

namespace JsonRead

open Spec JsonText NumText Reader

/-! ### Digits -/

theorem isDigit_true {c : Char} (h : '0' ≤ c ∧ c ≤ '9') : JsonText.isDigit c = true := by
  simp [JsonText.isDigit, h.1, h.2]

theorem natOf_cons (c : Char) (r : Str) : natOf (c :: r) = digit c * 10 ^ r.length + natOf r := rfl

theorem integer_run (neg : Bool) : ∀ (ds : Str) (sig : ℕ) (r : Str), (∀ c ∈ ds, '0' ≤ c ∧ c ≤ '9') → sig * 10 ^ ds.length + natOf ds < 2 ^ 64 →
    (∀ c, r.head? = some c → JsonText.isDigit c = false) → integer neg sig (ds ++ r) = afterInt neg (sig * 10 ^ ds.length + natOf ds) 0 r
  | [], sig, r, _, _, hr => by
    cases r with
    | nil => simp [integer, natOf]
    | cons c r => simp [integer, natOf, hr c rfl]
  | c :: ds, sig, r, hd, hm, hr => by
    have hc := isDigit_true (hd c (by simp))
    have hp : 0 < 10 ^ ds.length := by positivity
    have heq : sig * 10 ^ (c :: ds).length + natOf (c :: ds) = (sig * 10 + digit c) * 10 ^ ds.length + natOf ds := by
      rw [natOf_cons, List.length_cons, pow_succ]; ring
    rw [heq] at hm ⊢
    have hlt : sig * 10 + digit c < 2 ^ 64 := by
      have : sig * 10 + digit c ≤ (sig * 10 + digit c) * 10 ^ ds.length := Nat.le_mul_of_pos_right _ hp
      omega
    rw [List.cons_append, integer, if_pos hc, if_pos hlt]
    exact integer_run neg ds _ r (fun x hx => hd x (by simp [hx])) hm hr

theorem decimals_run (neg : Bool) : ∀ (ds : Str) (sig : ℕ) (e : ℤ) (r : Str), (∀ c ∈ ds, '0' ≤ c ∧ c ≤ '9') → sig * 10 ^ ds.length + natOf ds < 2 ^ 64 →
    (∀ c, r.head? = some c → JsonText.isDigit c = false) → decimals neg sig e (ds ++ r) = afterDigits neg (sig * 10 ^ ds.length + natOf ds) (e - ds.length) r
  | [], sig, e, r, _, _, hr => by
    cases r with
    | nil => simp [decimals, natOf]
    | cons c r => simp [decimals, natOf, hr c rfl]
  | c :: ds, sig, e, r, hd, hm, hr => by
    have hc := isDigit_true (hd c (by simp))
    have hp : 0 < 10 ^ ds.length := by positivity
    have heq : sig * 10 ^ (c :: ds).length + natOf (c :: ds) = (sig * 10 + digit c) * 10 ^ ds.length + natOf ds := by
      rw [natOf_cons, List.length_cons, pow_succ]; ring
    rw [heq] at hm ⊢
    have hlt : sig * 10 + digit c < 2 ^ 64 := by
      have : sig * 10 + digit c ≤ (sig * 10 + digit c) * 10 ^ ds.length := Nat.le_mul_of_pos_right _ hp
      omega
    rw [List.cons_append, decimals, if_pos hc, if_pos hlt, decimals_run neg ds _ (e - 1) r (fun x hx => hd x (by simp [hx])) hm hr]
    congr 1
    simp only [List.length_cons]; push_cast; ring

theorem expDigits_run : ∀ (ds : Str) (e : ℕ), (∀ c ∈ ds, '0' ≤ c ∧ c ≤ '9') → e * 10 ^ ds.length + natOf ds ≤ 2 ^ 31 - 1 →
    expDigits e ds = some (e * 10 ^ ds.length + natOf ds)
  | [], e, _, _ => by simp [expDigits, natOf]
  | c :: ds, e, hd, hm => by
    have hc := isDigit_true (hd c (by simp))
    have hp : 0 < 10 ^ ds.length := by positivity
    have heq : e * 10 ^ (c :: ds).length + natOf (c :: ds) = (e * 10 + digit c) * 10 ^ ds.length + natOf ds := by
      rw [natOf_cons, List.length_cons, pow_succ]; ring
    rw [heq] at hm ⊢
    have hlt : e * 10 + digit c ≤ 2 ^ 31 - 1 := by
      have : e * 10 + digit c ≤ (e * 10 + digit c) * 10 ^ ds.length := Nat.le_mul_of_pos_right _ hp
      omega
    rw [expDigits, if_pos hc, if_pos hlt]
    exact expDigits_run ds _ (fun x hx => hd x (by simp [hx])) hm

theorem saturate_eq {e : ℤ} (h : |e| < 2 ^ 31) : saturate e = e := by
  have := abs_lt.1 h
  unfold saturate
  omega

theorem expSign_digits {ds : Str} (h : JsonText.Spec.Digits ds) : expSign ds = ([], ds) := by
  obtain ⟨c, r, rfl⟩ := List.exists_cons_of_ne_nil h.1
  have hc := h.2 c (by simp)
  unfold expSign
  split
  · rename_i he; injection he with he _; rw [he] at hc; exact absurd hc (by decide)
  · rename_i he; injection he with he _; rw [he] at hc; exact absurd hc (by decide)
  · rfl

theorem after_exp (neg : Bool) (sig : ℕ) (start : ℤ) {e : Str} {x : ℤ} (h : ExpText e x) (hx : |x| < 2 ^ 31) (hs : |start + x| < 2 ^ 31) :
    afterDigits neg sig start e = fromParts neg sig (start + x) := by
  have hnat : ∀ n : ℕ, |(n : ℤ)| < 2 ^ 31 → n ≤ 2 ^ 31 - 1 := fun n hn => by have := (abs_lt.1 hn).2; omega
  cases h with
  | none => simp [afterDigits]
  | plus hc hsg hd =>
    rename_i c s ds
    have hc' : (c = 'e' || c = 'E') = true := by simpa using hc
    have hrun := expDigits_run ds 0 hd.2 (by simpa using hnat _ hx)
    have hsign : expSign (s ++ ds) = (s, ds) := by
      rcases hsg with rfl | rfl
      · exact expSign_digits hd
      · rfl
    have hne : s ≠ c!"-" := by rcases hsg with rfl | rfl <;> decide
    simp only [afterDigits, hc', if_true, exponentPart, hsign, hrun]
    rw [if_neg hne]
    simp only [Nat.zero_mul, Nat.zero_add]
    rw [saturate_eq hs]
  | minus hc hd =>
    rename_i c ds
    have hc' : (c = 'e' || c = 'E') = true := by simpa using hc
    have hrun := expDigits_run ds 0 hd.2 (by rw [abs_neg] at hx; simpa using hnat _ hx)
    simp only [afterDigits, hc', if_true, exponentPart, expSign, hrun]
    simp only [Nat.zero_mul, Nat.zero_add]
    rw [← sub_eq_add_neg] at hs ⊢
    rw [saturate_eq hs]

theorem expText_head {e : Str} {x : ℤ} (h : ExpText e x) : ∀ c, e.head? = some c → JsonText.isDigit c = false ∧ c ≠ '.' := by
  intro c hc
  cases h with
  | none => cases hc
  | plus h _ _ => simp at hc; subst hc; rcases h with rfl | rfl <;> decide
  | minus h _ => simp at hc; subst hc; rcases h with rfl | rfl <;> decide

theorem after_int (neg : Bool) (sig : ℕ) (e : ℤ) {r : Str} (h : ∀ c, r.head? = some c → c ≠ '.') : afterInt neg sig e r = afterDigits neg sig e r := by
  unfold afterInt
  split
  · exact absurd rfl (h '.' rfl)
  · rfl

theorem minus_sign (neg : Bool) {ds r : Str} (h : JsonText.Spec.Digits ds) : minus (sign neg ++ (ds ++ r)) = (neg, ds ++ r) := by
  cases neg with
  | true => rfl
  | false =>
    obtain ⟨c, r', rfl⟩ := List.exists_cons_of_ne_nil h.1
    have hc := h.2 c (by simp)
    show minus (c :: (r' ++ r)) = _
    unfold minus
    split
    · rename_i he; injection he with he _; rw [he] at hc; exact absurd hc (by decide)
    · rfl

/-- A number whose digits fit into 64 bits is read as `fromParts` of its digits and its exponent. -/
theorem read_written {t : Str} {neg : Bool} {m f : ℕ} {x : ℤ} (h : Written t neg m f x) (hm : m < 2 ^ 64) (hx : |x| < 2 ^ 31) (hf : |x - f| < 2 ^ 31) :
    Reader.read t = fromParts neg m (x - f) := by
  obtain ⟨ds, fs, e, hi, hfs, he, rfl, rfl, rfl⟩ := h
  rw [Lx.natOf_append] at hm ⊢
  have hp : 0 < 10 ^ fs.length := by positivity
  have hds : natOf ds < 2 ^ 64 := by
    have : natOf ds ≤ natOf ds * 10 ^ fs.length := Nat.le_mul_of_pos_right _ hp
    omega
  unfold Reader.read
  rw [minus_sign neg hi.1]
  have hhead : ∀ c, ((if fs = [] then [] else '.' :: fs) ++ e).head? = some c → JsonText.isDigit c = false := by
    intro c hc
    split at hc
    · exact (expText_head he c hc).1
    · simp at hc; subst hc; decide
  dsimp only
  rw [integer_run neg ds 0 _ hi.1.2 (by simpa using hds) hhead]
  simp only [Nat.zero_mul, Nat.zero_add]
  split
  · rename_i h0
    subst h0
    rw [List.nil_append, after_int _ _ _ (fun c hc => (expText_head he c hc).2), after_exp neg _ 0 he hx (by simpa using hf)]
    simp [natOf]
  · rw [List.cons_append, afterInt, decimals_run neg fs _ 0 e hfs hm (fun c hc => (expText_head he c hc).1), after_exp neg _ _ he hx (by rw [show (0 : ℤ) - fs.length + x = x - fs.length by ring]; exact hf)]
    congr 1
    ring

/-! ### Exact powers of ten -/

theorem isBin64_pow10 {k : ℕ} (hk : k ≤ 22) : IsBin64 ((10 : ℚ) ^ k) := by
  refine ⟨5 ^ k, k, ?_, by omega, by omega, ?_⟩
  · rw [abs_of_pos (by positivity)]
    calc (5 : ℤ) ^ k ≤ 5 ^ 22 := pow_le_pow_right₀ (by norm_num) hk
      _ < 2 ^ 53 := by norm_num
  · push_cast
    rw [zpow_natCast, ← mul_pow]
    norm_num

theorem pow10_exact {k : ℕ} (hk : k ≤ 22) : pow10 k = .fin (10 ^ k) := by
  have := F64.round_exact (isBin64_pow10 hk) (by positivity) false
  unfold pow10 F64.ofNat F64.ofInt
  push_cast
  exact this

theorem ofNat_exact {m : ℕ} (hm : 0 < m) (h : IsBin64 (m : ℚ)) : F64.ofNat m = .fin m := by
  have := F64.round_exact h (by positivity) false
  unfold F64.ofNat F64.ofInt
  push_cast
  exact this

theorem neg_round {q : ℚ} (hq : 0 < q) (neg : Bool) : (if neg then F64.neg (F64.round q) else F64.round q) = F64.roundPos neg q := by
  have : F64.round q = F64.roundPos false q := by
    unfold F64.round
    rw [if_neg hq.ne', if_neg (not_lt.2 hq.le)]
  rw [this]
  cases neg with
  | false => rfl
  | true => exact (F64.roundPos_true q).symm

/-- Digits and a power of ten that are both doubles: one rounding. -/
theorem fromParts_exact (neg : Bool) {m : ℕ} (h : IsBin64 (m : ℚ)) (hlt : m < 2 ^ 64) {k : ℤ} (hk : |k| ≤ 22) : fromParts neg m k = some (signed neg (dec m k)) := by
  have hk' := abs_le.1 hk
  have h308 : k.natAbs ≤ 308 := by omega
  have h22 : k.natAbs ≤ 22 := by omega
  rcases Nat.eq_zero_or_pos m with rfl | hm
  · have h0 : F64.ofNat 0 = .zero false := rfl
    have hp : F64.mul (.zero false) (.fin (10 ^ k.natAbs)) = .zero false := by
      show F64.zero (false != decide ((10 : ℚ) ^ k.natAbs < 0)) = _
      rw [decide_eq_false (not_lt.2 (by positivity))]; rfl
    have hq : F64.div (.zero false) (.fin (10 ^ k.natAbs)) = .zero false := by
      show F64.zero (false != decide ((10 : ℚ) ^ k.natAbs < 0)) = _
      rw [decide_eq_false (not_lt.2 (by positivity))]; rfl
    unfold fromParts
    rw [scale, if_pos h308, h0, pow10_exact h22, hp, hq]
    have hs : signed neg (dec 0 k) = .zero neg := by simp [signed, dec]
    rw [hs]
    by_cases hk0 : 0 ≤ k
    · rw [if_pos hk0]; cases neg <;> rfl
    · rw [if_neg hk0]; cases neg <;> rfl
  · have hmq : (0 : ℚ) < m := by exact_mod_cast hm
    have hd : 0 < dec m k := by unfold dec; positivity
    unfold fromParts
    rw [scale, if_pos h308, ofNat_exact hm h, pow10_exact h22]
    have hsg : signed neg (dec m k) = F64.roundPos neg (dec m k) := by simp [signed, hd.ne']
    rw [hsg, ← neg_round hd]
    by_cases h0 : 0 ≤ k
    · rw [if_pos h0]
      have hv : (m : ℚ) * 10 ^ k.natAbs = dec m k := by
        unfold dec
        rw [← zpow_natCast, Int.natAbs_of_nonneg h0]
      have hmul : F64.mul (.fin m) (.fin (10 ^ k.natAbs)) = F64.round (dec m k) := by rw [← hv]; rfl
      rw [hmul]
      have hfin : ∀ b, F64.round (dec m k) ≠ .inf b := by
        intro b hb
        have hr := F64.round_isRounded hd.ne' false
        rw [hb] at hr
        have h1 := hr.1
        rw [abs_of_pos hd, ← hv] at h1
        have h2 : (m : ℚ) * 10 ^ k.natAbs ≤ 2 ^ 64 * 10 ^ 22 :=
          mul_le_mul (by exact_mod_cast hlt.le) (pow_le_pow_right₀ (by norm_num) h22) (by positivity) (by positivity)
        have h3 := h1.trans h2
        have h4 : (2 : ℚ) ^ 1024 = 2 ^ 970 * 2 ^ 54 := by rw [← pow_add]
        have h5 : (2 : ℚ) ^ 200 ≤ 2 ^ 970 := pow_le_pow_right₀ (by norm_num) (by norm_num)
        rw [h4] at h3
        generalize (2 : ℚ) ^ 970 = T at h3 h5
        have h6 : (2 : ℚ) ^ 200 * (2 ^ 54 - 1) ≤ T * (2 ^ 54 - 1) := mul_le_mul_of_nonneg_right h5 (by norm_num)
        rw [mul_sub T, mul_one] at h6
        have h7 := h6.trans h3
        norm_num at h7
      cases hr : F64.round (dec m k) with
      | inf b => exact absurd hr (hfin b)
      | _ => rfl
    · rw [if_neg h0]
      have hv : (m : ℚ) / 10 ^ k.natAbs = dec m k := by
        unfold dec
        have : k = -(k.natAbs : ℤ) := by omega
        conv_rhs => rw [this, zpow_neg, zpow_natCast]
        rfl
      have hdiv : F64.div (.fin m) (.fin (10 ^ k.natAbs)) = F64.round (dec m k) := by rw [← hv]; rfl
      rw [hdiv]

/-- What `signed` is. -/
theorem signed_nearest (neg : Bool) (m : ℕ) (k : ℤ) : Nearest neg m k (signed neg (dec m k)) := by
  unfold Nearest signed
  have hz : dec m k = 0 ↔ m = 0 := by
    unfold dec
    constructor
    · intro h
      rcases mul_eq_zero.1 h with h | h
      · exact_mod_cast h
      · exact absurd h (by positivity)
    · rintro rfl; simp
  by_cases h0 : m = 0
  · rw [if_pos h0, if_pos (hz.2 h0)]
  · have hne : dec m k ≠ 0 := fun h => h0 (hz.1 h)
    have hpos : 0 < dec m k := lt_of_le_of_ne (by unfold dec; positivity) (Ne.symm hne)
    rw [if_neg h0, if_neg hne]
    have hr := F64.roundPos_pos hpos
    cases neg with
    | false => exact hr
    | true =>
      rw [F64.roundPos_true]
      exact F64.isRounded_neg hne hr

theorem nearest_signed {neg : Bool} {m : ℕ} {k : ℤ} {x : F64} (h : Nearest neg m k x) : x = signed neg (dec m k) := by
  have hs := signed_nearest neg m k
  unfold Nearest at h hs
  by_cases h0 : m = 0
  · rw [if_pos h0] at h hs; rw [h, hs]
  · rw [if_neg h0] at h hs
    have hpos : 0 < dec m k := by
      have : (0 : ℚ) < m := by exact_mod_cast Nat.pos_of_ne_zero h0
      unfold dec; positivity
    refine F64.isRounded_unique ?_ h hs
    split
    · exact neg_ne_zero.2 hpos.ne'
    · exact hpos.ne'

/-! ### The texts that are written -/

theorem natOf_digits (m : ℕ) : natOf (digits m) = m := by rw [← Lx.digitsVal_eq]; exact digitsVal_digits m

theorem natOf_zeros (n : ℕ) : natOf (zeros n) = 0 := by rw [← Lx.digitsVal_eq]; exact digitsVal_zeros n

theorem length_pos (m : ℕ) : 0 < (digits m).length := List.length_pos_iff.2 (digits_ok m).1

theorem written_whole (neg : Bool) {m : ℕ} (hm : 0 < m) (n : ℕ) : Written (sign neg ++ plain c!".0" m n) neg (m * 10 ^ n * 10) 1 0 := by
  have hd := digits_ok m
  refine ⟨digits m ++ zeros n, c!"0", [], ⟨⟨by simp [hd.1], fun c hc => (List.mem_append.1 hc).elim (hd.2 c) (zeros_digits n c)⟩, fun h => absurd (by
      rw [List.head?_append_of_ne_nil _ hd.1] at h; exact h) (digits_pos hm)⟩, by intro c hc; simp at hc; subst hc; decide, .none, ?_, rfl, ?_⟩
  · rw [Lx.natOf_append, Lx.natOf_append, natOf_digits, natOf_zeros]
    simp [zeros, natOf]
  · simp [plain]

theorem written_point (neg : Bool) {m : ℕ} (hm : 0 < m) {e : ℤ} (he : e < 0) : Written (sign neg ++ plain c!".0" m e) neg m (-e).toNat 0 := by
  have hd := digits_ok m
  have hz := digits_pos hm
  have hl := length_pos m
  unfold plain
  rw [if_neg (by omega)]
  split
  · rename_i h2
    obtain ⟨p, hp⟩ := Int.eq_ofNat_of_zero_le (show 0 ≤ ((digits m).length : ℤ) + e by omega)
    rw [hp, Int.toNat_natCast]
    have hpl : p < (digits m).length := by omega
    have hdr : ∀ c ∈ (digits m).drop p, '0' ≤ c ∧ c ≤ '9' := fun c hc => hd.2 c (List.mem_of_mem_drop hc)
    have hne : (digits m).drop p ≠ [] := by simp; omega
    refine ⟨(digits m).take p, (digits m).drop p, [], ⟨⟨by
        intro hn
        have := congrArg List.length hn
        simp only [List.length_take, List.length_nil] at this
        omega, fun c hc => hd.2 c (List.mem_of_mem_take hc)⟩, fun h => absurd (by
        rw [List.head?_take, if_neg (by omega)] at h; exact h) hz⟩, hdr, .none, ?_, ?_, ?_⟩
    · rw [List.take_append_drop, natOf_digits]
    · rw [List.length_drop]; omega
    · rw [if_neg hne, List.append_nil]
  · rename_i h2
    obtain ⟨p, hp⟩ := Int.eq_ofNat_of_zero_le (show 0 ≤ -(((digits m).length : ℤ) + e) by omega)
    rw [hp, Int.toNat_natCast]
    have hall : ∀ c ∈ zeros p ++ digits m, '0' ≤ c ∧ c ≤ '9' := fun c hc => (List.mem_append.1 hc).elim (zeros_digits p c) (hd.2 c)
    refine ⟨c!"0", zeros p ++ digits m, [], ⟨⟨by simp, by intro c hc; simp at hc; subst hc; decide⟩, fun _ => rfl⟩, hall, .none, ?_, ?_, ?_⟩
    · rw [Lx.natOf_append, Lx.natOf_append, natOf_zeros, natOf_digits]; simp [natOf]
    · simp only [List.length_append, zeros, List.length_replicate]; omega
    · rw [if_neg (by simp [hd.1])]; simp

theorem expText_show (k : ℤ) : ExpText ('e' :: Str.showInt k) k := by
  cases k with
  | ofNat n =>
    rw [showInt_of_nat]
    have := ExpText.plus (c := 'e') (s := []) (.inl rfl) (.inl rfl) (toDigits_digits n)
    have hv : natOf (Nat.toDigits 10 n) = n := natOf_digits n
    rw [hv] at this
    exact this
  | negSucc n =>
    rw [showInt_of_neg]
    have := ExpText.minus (c := 'e') (.inl rfl) (toDigits_digits (n + 1))
    have hv : natOf (Nat.toDigits 10 (n + 1)) = n + 1 := natOf_digits _
    rw [hv] at this
    exact this

theorem written_scientific (neg : Bool) {m : ℕ} (hm : 0 < m) (e : ℤ) :
    Written (sign neg ++ scientific m e) neg m ((digits m).length - 1) ((digits m).length + e - 1) := by
  have hd := digits_ok m
  have hz := digits_pos hm
  have hl := length_pos m
  unfold scientific
  refine ⟨(digits m).take 1, (digits m).drop 1, _, ⟨⟨by
    intro hn
    have := congrArg List.length hn
    simp only [List.length_take, List.length_nil] at this
    omega, fun c hc => hd.2 c (List.mem_of_mem_take hc)⟩, fun h => absurd (by
        rw [List.head?_take, if_neg (by omega)] at h; exact h) hz⟩, fun c hc => hd.2 c (List.mem_of_mem_drop hc), expText_show _, ?_, ?_, ?_⟩
  · rw [List.take_append_drop, natOf_digits]
  · rw [List.length_drop]
  · congr 3
    by_cases h1 : (digits m).length = 1
    · rw [if_pos h1, if_pos (by rw [List.drop_eq_nil_iff]; omega)]
    · rw [if_neg h1, if_neg (by rw [List.drop_eq_nil_iff]; omega)]

/-! ### Fifteen digits -/

theorem shortest_not_ten {q : ℚ} (hq : 0 < q) {m : ℕ} {e : ℤ} (h : Shortest q m e) : ¬ 10 ∣ m := by
  rintro ⟨n, rfl⟩
  have hp := rounded_pos hq h.back
  have hn : 0 < n := by
    rcases Nat.eq_zero_or_pos n with h0 | h0
    · subst h0; simp [dec] at hp
    · exact h0
  have hb : dec (10 * n) e = dec n (e + 1) := by
    have := dec_zeros n 1 e
    rw [pow_one, mul_comm n 10] at this
    simpa using this
  have := h.short n (e + 1) (Nat.log 10 n + 1) (hb ▸ h.back) (Nat.lt_pow_succ_log_self (by norm_num) n)
  have h2 := Nat.pow_log_le_self 10 hn.ne'
  rw [pow_succ] at this
  omega

/-- Decimals with at most 15 digits that are read as the same double are equal. -/
theorem fifteen_aux {q : ℚ} {m m' : ℕ} {e e' : ℤ} (hm : m < 10 ^ 15) (hm' : m' < 10 ^ 15) (ha : (2 : ℚ) ^ (-1022 : ℤ) ≤ dec m e) (hb : (2 : ℚ) ^ (-1022 : ℤ) ≤ dec m' e')
    (h : IsRounded (dec m e) (.fin q)) (h' : IsRounded (dec m' e') (.fin q)) : ¬ dec m e < dec m' e' := by
  intro hlt
  have hpa : 0 < dec m e := (F64.pow2_pos _).trans_le ha
  have hpb : 0 < dec m' e' := (F64.pow2_pos _).trans_le hb
  have c1 := F64.rounded_close h (by rwa [abs_of_pos hpa])
  have c2 := F64.rounded_close h' (by rwa [abs_of_pos hpb])
  rw [abs_of_pos hpa] at c1
  rw [abs_of_pos hpb] at c2
  obtain ⟨p', hp1, hp2⟩ := exists_mem_Ico_zpow hpa (by norm_num : (1 : ℚ) < 10)
  obtain ⟨lo, _, l1, l2, l3⟩ := neighbours hpa (p := p' + 1) (by simpa using hp1) hp2 (n := 15) (by norm_num)
  have h1 := (l3 m e hm hpa).1 le_rfl
  have h2 := (l3 m' e' hm' hpb).2 hlt
  have hs : dec (lo + 1) (p' + 1 - (15 : ℕ)) = dec lo (p' + 1 - (15 : ℕ)) + 10 ^ (p' + 1 - ((15 : ℕ) : ℤ)) := by unfold dec; push_cast; ring
  have hu : (10 : ℚ) ^ (p' + 1 - ((15 : ℕ) : ℤ)) = 10 ^ (p' + 1) / 10 ^ 15 := by
    rw [zpow_sub₀ (by norm_num), zpow_natCast]
  rw [hs, hu] at h2
  have k1 := abs_le.1 c1
  have k2 := abs_le.1 c2
  generalize (10 : ℚ) ^ (p' + 1) = u at *
  generalize dec lo (p' + 1 - ((15 : ℕ) : ℤ)) = l at *
  generalize dec m e = a at *
  generalize dec m' e' = b at *
  have n1 := k1.2
  have n2 := k2.1
  norm_num at n1 n2 h2
  linarith

theorem fifteen {q : ℚ} {m m' : ℕ} {e e' : ℤ} (hm : m < 10 ^ 15) (hm' : m' < 10 ^ 15) (ha : (2 : ℚ) ^ (-1022 : ℤ) ≤ dec m e) (hb : (2 : ℚ) ^ (-1022 : ℤ) ≤ dec m' e')
    (h : IsRounded (dec m e) (.fin q)) (h' : IsRounded (dec m' e') (.fin q)) : dec m e = dec m' e' :=
  le_antisymm (not_lt.1 (fifteen_aux hm' hm hb ha h' h)) (not_lt.1 (fifteen_aux hm hm' ha hb h h'))

/-! ### Seventeen digits -/

/-- Doubles outside the subnormal range are at least one part in 2^53 apart. -/
theorem spacing {a b : ℚ} (ha : IsBin64 a) (hb : IsBin64 b) (h0 : (2 : ℚ) ^ (-1022 : ℤ) ≤ b) (hab : a < b) : b / 2 ^ 53 ≤ b - a := by
  have hpos : 0 < b := (F64.pow2_pos _).trans_le h0
  have d := F64.data b hpos
  have hbn : b = d.n * d.u := by
    have := d.nearest b hb
    rw [sub_self, abs_zero] at this
    have := abs_nonpos_iff.1 this
    linarith
  have hge : (2 : ℚ) ^ d.E ≤ b := by
    by_cases hE : d.E = -1022
    · rw [hE]; exact h0
    · exact d.hge hE
  have hu : d.u = 2 ^ d.E / 2 ^ 52 := by rw [d.hu, zpow_sub₀ (by norm_num)]; norm_num
  have hlt : b < 2 ^ d.E * 2 := by
    have := d.hlt
    rwa [zpow_add_one₀ (by norm_num)] at this
  have hE0 : (0 : ℚ) < 2 ^ d.E := F64.pow2_pos _
  obtain ⟨m, e, hm, he1, he2, hae⟩ := ha
  by_cases he : d.E - 52 ≤ e
  · -- a multiple of the unit
    obtain ⟨j, hj⟩ := Int.eq_ofNat_of_zero_le (a := e - (d.E - 52)) (by omega)
    have hau : a = ((m * 2 ^ j : ℤ) : ℚ) * d.u := by
      have : e = (d.E - 52) + j := by omega
      rw [hae, this, zpow_add₀ (by norm_num), d.hu, zpow_natCast]
      push_cast
      ring
    have hk : (m * 2 ^ j : ℤ) + 1 ≤ d.n := by
      have : ((m * 2 ^ j : ℤ) : ℚ) < d.n := by
        have h1 := hab.trans_le hbn.le
        rw [hau] at h1
        exact lt_of_mul_lt_mul_right h1 d.hup.le
      exact_mod_cast this
    have hk' : ((m * 2 ^ j : ℤ) : ℚ) + 1 ≤ d.n := by exact_mod_cast hk
    have h1 : d.u ≤ b - a := by
      have h2 : (((m * 2 ^ j : ℤ) : ℚ) + 1) * d.u ≤ d.n * d.u := mul_le_mul_of_nonneg_right hk' d.hup.le
      rw [add_mul, one_mul, ← hau] at h2
      have h3 := hbn.ge
      linarith
    refine le_trans ?_ h1
    rw [hu]
    norm_num
    linarith
  · -- below the binade
    have h1 : a ≤ 2 ^ d.E - 2 ^ d.E / 2 ^ 53 := by
      have hm' : (m : ℚ) ≤ 2 ^ 53 - 1 := by
        have := (abs_lt.1 hm).2
        have : m ≤ 2 ^ 53 - 1 := by omega
        exact_mod_cast this
      have hp : (0 : ℚ) < 2 ^ e := F64.pow2_pos _
      have hle : (2 : ℚ) ^ e ≤ 2 ^ d.E / 2 ^ 53 := by
        have h2 : (2 : ℚ) ^ d.E / 2 ^ 53 = 2 ^ (d.E - 53) := by rw [zpow_sub₀ (by norm_num)]; norm_num
        rw [h2]
        exact zpow_le_zpow_right₀ (by norm_num) (by omega)
      rw [hae]
      calc (m : ℚ) * 2 ^ e ≤ (2 ^ 53 - 1) * 2 ^ e := mul_le_mul_of_nonneg_right hm' hp.le
        _ ≤ (2 ^ 53 - 1) * (2 ^ d.E / 2 ^ 53) := mul_le_mul_of_nonneg_left hle (by norm_num)
        _ = _ := by ring
    norm_num at h1 ⊢
    linarith

theorem isBin64_le {q : ℚ} (h : IsBin64 q) : q ≤ 2 ^ 970 * (2 ^ 54 - 2) := by
  obtain ⟨m, e, hm, _, he2, rfl⟩ := h
  have hm' : (m : ℚ) ≤ 2 ^ 53 - 1 := by
    have := (abs_lt.1 hm).2
    have : m ≤ 2 ^ 53 - 1 := by omega
    exact_mod_cast this
  have hle : (2 : ℚ) ^ e ≤ 2 ^ 970 * 2 := by
    have h2 : (2 : ℚ) ^ 970 * 2 = 2 ^ (971 : ℤ) := by rw [← pow_succ]; rfl
    rw [h2]
    exact zpow_le_zpow_right₀ (by norm_num) he2
  calc (m : ℚ) * 2 ^ e ≤ (2 ^ 53 - 1) * 2 ^ e := mul_le_mul_of_nonneg_right hm' (F64.pow2_pos _).le
    _ ≤ (2 ^ 53 - 1) * (2 ^ 970 * 2) := mul_le_mul_of_nonneg_left hle (by norm_num)
    _ = _ := by ring

theorem two1024_eq : (2 : ℚ) ^ 1024 - 2 ^ 970 = 2 ^ 970 * (2 ^ 54 - 1) := by
  have : (2 : ℚ) ^ 1024 = 2 ^ 970 * 2 ^ 54 := by rw [← pow_add]
  rw [this]; ring

/-- What is near a double is rounded to it. -/
theorem near_rounds {q v : ℚ} (hb : IsBin64 q) (h0 : (2 : ℚ) ^ (-1022 : ℤ) < q) (h : |v - q| ≤ q / (2 * 10 ^ 16)) : IsRounded v (.fin q) := by
  have hq : 0 < q := (F64.pow2_pos _).trans h0
  have habs := abs_le.1 h
  have hv : 0 < v := by norm_num at habs; linarith
  have hr := F64.roundPos_pos hv
  cases hx : F64.roundPos false v with
  | nan => rw [hx] at hr; exact hr.elim
  | inf b =>
    exfalso
    rw [hx] at hr
    have h1 := hr.1
    rw [abs_of_pos hv, two1024_eq] at h1
    have h2 := isBin64_le hb
    have hT : (0 : ℚ) < 2 ^ 970 := by positivity
    generalize (2 : ℚ) ^ 970 = T at h1 h2 hT
    norm_num at h1 h2 habs
    linarith
  | zero b =>
    exfalso
    rw [hx] at hr
    have h1 := hr.1 q hb
    rw [abs_of_pos hv] at h1
    norm_num at habs h
    linarith
  | fin r =>
    rw [hx] at hr
    have h1 := hr.2.2.2.1 q hb
    have h2 := abs_le.1 (h1.trans h)
    have hrq : r = q := by
      rcases lt_trichotomy r q with hlt | heq | hgt
      · have := spacing hr.2.1 hb h0.le hlt
        norm_num at this habs h2
        linarith
      · exact heq
      · have := spacing hb hr.2.1 (h0.le.trans hgt.le) hgt
        norm_num at this habs h2
        linarith
    exact hrq ▸ hr

theorem seventeen {q : ℚ} (hb : IsBin64 q) (h0 : (2 : ℚ) ^ (-1022 : ℤ) < q) {m : ℕ} {e : ℤ} (h : Shortest q m e) : m < 10 ^ 17 := by
  have hq : 0 < q := (F64.pow2_pos _).trans h0
  obtain ⟨p', hp1, hp2⟩ := exists_mem_Ico_zpow hq (by norm_num : (1 : ℚ) < 10)
  obtain ⟨lo, hlo, l1, l2, _⟩ := neighbours hq (p := p' + 1) (by simpa using hp1) hp2 (n := 17) (by norm_num)
  have hs : dec (lo + 1) (p' + 1 - (17 : ℕ)) = dec lo (p' + 1 - (17 : ℕ)) + 10 ^ (p' + 1 - ((17 : ℕ) : ℤ)) := by unfold dec; push_cast; ring
  have hu : (10 : ℚ) ^ (p' + 1 - ((17 : ℕ) : ℤ)) = 10 ^ p' / 10 ^ 16 := by
    rw [show p' + 1 - ((17 : ℕ) : ℤ) = p' - 16 by push_cast; ring, zpow_sub₀ (by norm_num)]; norm_num
  have hup : (10 : ℚ) ^ (p' + 1 - ((17 : ℕ) : ℤ)) ≤ q / 10 ^ 16 := by
    rw [hu]
    exact div_le_div_of_nonneg_right hp1 (by norm_num)
  rcases le_or_gt (q - dec lo (p' + 1 - (17 : ℕ))) (q / (2 * 10 ^ 16)) with hc | hc
  · exact h.short lo (p' + 1 - (17 : ℕ)) 17 (near_rounds hb h0 (by rw [abs_of_nonpos (by linarith)]; linarith)) hlo
  · have hn : IsRounded (dec (lo + 1) (p' + 1 - (17 : ℕ))) (.fin q) := by
      refine near_rounds hb h0 ?_
      rw [abs_of_nonneg (by linarith), hs]
      have : q / 10 ^ 16 = q / (2 * 10 ^ 16) + q / (2 * 10 ^ 16) := by ring
      linarith
    rcases Nat.lt_or_ge (lo + 1) (10 ^ 17) with hl | hl
    · exact h.short _ _ 17 hn hl
    · have : lo + 1 = 1 * 10 ^ 17 := by omega
      rw [this, dec_zeros] at hn
      exact h.short _ _ 17 hn (by norm_num)

end JsonRead
