import Verif.Spec.NumText
import Verif.Lemmas.JsonNumbers
import Verif.Lemmas.DebugText
import Verif.Lemmas.Double
import Mathlib.Algebra.Order.Archimedean.Basic
/-! Decimal texts of doubles and what they are read as. -/

namespace NumText

open Spec JsonText JsonText.Spec

/-! ### Values of digits -/

theorem digitsVal_append (a b : Str) : F64.digitsVal (a ++ b) = F64.digitsVal a * 10 ^ b.length + F64.digitsVal b := by
  induction b using List.reverseRecOn with
  | nil => simp [F64.digitsVal]
  | append_singleton b c ih =>
    rw [← List.append_assoc]
    have h : ∀ s : Str, F64.digitsVal (s ++ [c]) = F64.digitsVal s * 10 + F64.digitVal c := fun s => by simp [F64.digitsVal]
    rw [h, h, ih, List.length_append, List.length_singleton, pow_succ]
    ring

theorem digitsVal_zeros (n : ℕ) : F64.digitsVal (zeros n) = 0 := by
  induction n with
  | zero => rfl
  | succ n ih =>
    rw [zeros, List.replicate_succ']
    have h : ∀ s : Str, F64.digitsVal (s ++ ['0']) = F64.digitsVal s * 10 := fun s => by simp [F64.digitsVal, F64.digitVal]
    rw [h]
    exact Nat.mul_eq_zero.2 (.inl ih)

theorem digitsVal_digits (m : ℕ) : F64.digitsVal (digits m) = m := digitsVal_toDigits m

theorem decimalVal_dec (int frac : Str) (e : ℤ) : F64.decimalVal int frac e = dec (F64.digitsVal (int ++ frac)) (e - frac.length) := by
  unfold F64.decimalVal dec
  simp only
  split
  · rename_i h
    obtain ⟨n, hn⟩ := Int.eq_ofNat_of_zero_le h
    rw [hn]; simp
  · rename_i h
    obtain ⟨n, hn⟩ := Int.eq_ofNat_of_zero_le (show 0 ≤ -(e - frac.length) by omega)
    have : e - (frac.length : ℤ) = -(n : ℤ) := by omega
    rw [this]; simp [div_eq_mul_inv]

theorem dec_zeros (m n : ℕ) (e : ℤ) : dec (m * 10 ^ n) e = dec m (e + n) := by
  unfold dec
  rw [zpow_add₀ (by norm_num), zpow_natCast]
  push_cast
  ring

/-! ### Reading -/

/-- The double read from the sign and the magnitude. -/
def signed (neg : Bool) (v : ℚ) : F64 := if v = 0 then .zero neg else F64.roundPos neg v

theorem digit_isDigit {c : Char} (h : '0' ≤ c ∧ c ≤ '9') : F64.isDigit c = true := by
  simp only [F64.isDigit, Bool.and_eq_true, decide_eq_true_eq]; exact h

theorem f_span {ds : Str} (h : ∀ c ∈ ds, '0' ≤ c ∧ c ≤ '9') {r : Str} (hr : ∀ c, r.head? = some c → F64.isDigit c = false) :
    (ds ++ r).takeWhile F64.isDigit = ds ∧ (ds ++ r).dropWhile F64.isDigit = r := by
  have h0 : r.takeWhile F64.isDigit = [] ∧ r.dropWhile F64.isDigit = r := by
    cases r with
    | nil => exact ⟨rfl, rfl⟩
    | cons c r => have := hr c rfl; simp [this]
  have h1 : ∀ c ∈ ds, F64.isDigit c = true := fun c hc => digit_isDigit (h c hc)
  rw [List.takeWhile_append_of_pos h1, List.dropWhile_append_of_pos h1, h0.1, h0.2, List.append_nil]
  exact ⟨rfl, rfl⟩

theorem not_word {c : Char} {r : Str} (h : '0' ≤ c ∧ c ≤ '9') : (Str.eqIgnoreCase (c :: r) c!"inf" || Str.eqIgnoreCase (c :: r) c!"infinity") = false ∧
    Str.eqIgnoreCase (c :: r) c!"nan" = false := by
  obtain ⟨b, e⟩ := digit_char h
  have key : ∀ n : Fin 10, Str.asciiLowC (Nat.digitChar n) ≠ 'i' ∧ Str.asciiLowC (Nat.digitChar n) ≠ 'n' := by decide
  have := key ⟨_, b⟩
  rw [e] at this
  have h1 : Str.asciiLowC 'i' = 'i' := by decide
  have h2 : Str.asciiLowC 'n' = 'n' := by decide
  simp [Str.eqIgnoreCase, h1, h2, this.1, this.2]

theorem sign_take (neg : Bool) {ds r : Str} (h : Digits ds) : F64.takeSign (sign neg ++ (ds ++ r)) = (neg, ds ++ r) := by
  cases neg with
  | true => rfl
  | false =>
    obtain ⟨c, ds, rfl⟩ := List.exists_cons_of_ne_nil h.1
    have hc := h.2 c (by simp)
    show F64.takeSign (c :: (ds ++ r)) = _
    unfold F64.takeSign
    split
    · rename_i he; injection he with he _; rw [he] at hc; exact absurd hc (by decide)
    · rename_i he; injection he with he _; rw [he] at hc; exact absurd hc (by decide)
    · rfl

/-- The two forms of a fraction. -/
inductive Frac : Str → Str → Prop
  | none : Frac [] []
  | some {fs : Str} : (∀ c ∈ fs, '0' ≤ c ∧ c ≤ '9') → Frac ('.' :: fs) fs

theorem parse_parts (neg : Bool) {ds f fs e : Str} {k : ℤ} (hd : Digits ds) (hf : Frac f fs) (he : F64.parseExp e = some k)
    (hs : ∀ c, e.head? = some c → F64.isDigit c = false ∧ c ≠ '.') :
    F64.parse (sign neg ++ (ds ++ (f ++ e))) = some (signed neg (dec (F64.digitsVal (ds ++ fs)) (k - fs.length))) := by
  unfold F64.parse
  rw [sign_take neg hd]
  have hfd : ∀ c, (f ++ e).head? = some c → F64.isDigit c = false := by
    intro c hc
    cases hf with
    | none => exact (hs c hc).1
    | some _ => simp at hc; rw [← hc]; decide
  obtain ⟨t1, t2⟩ := f_span hd.2 hfd
  have hw : (Str.eqIgnoreCase (ds ++ (f ++ e)) c!"inf" || Str.eqIgnoreCase (ds ++ (f ++ e)) c!"infinity") = false ∧ Str.eqIgnoreCase (ds ++ (f ++ e)) c!"nan" = false := by
    obtain ⟨c, ds', rfl⟩ := List.exists_cons_of_ne_nil hd.1
    exact not_word (hd.2 c (by simp))
  have hne : ds.isEmpty = false := by simpa using hd.1
  simp only [hw.1, hw.2, t1, t2, Bool.false_eq_true, if_false]
  cases hf with
  | none =>
    cases e with
    | nil =>
      simp only [F64.parseExp, Option.some.injEq] at he
      subst he
      simp [hne, F64.parseExp, decimalVal_dec, signed]
    | cons c e =>
      have hc : c ≠ '.' := (hs c rfl).2
      simp [hne, he, decimalVal_dec, signed, hc]
  | some h =>
    obtain ⟨u1, u2⟩ := f_span h (fun c hc => (hs c hc).1)
    simp only [List.cons_append, u1, u2, hne, Bool.false_and, Bool.false_eq_true, if_false, he, decimalVal_dec]
    rfl

theorem parseExp_show (k : ℤ) : F64.parseExp ('e' :: Str.showInt k) = some k := by
  have hall : ∀ n, (Nat.toDigits 10 n).all F64.isDigit = true := fun n => List.all_eq_true.2 fun c hc => digit_isDigit ((toDigits_digits n).2 c hc)
  have hne : ∀ n, (Nat.toDigits 10 n).isEmpty = false := fun n => List.isEmpty_eq_false_iff.2 (toDigits_digits n).1
  have hv : ∀ n, F64.digitsVal (Nat.toDigits 10 n) = n := digitsVal_digits
  cases k with
  | ofNat n =>
    rw [showInt_of_nat]
    have ht : F64.takeSign (Nat.toDigits 10 n) = (false, Nat.toDigits 10 n) := by
      have := sign_take false (r := []) (toDigits_digits n)
      simp only [sign, List.append_nil] at this
      exact this
    simp [F64.parseExp, ht, hall, hne, hv]
  | negSucc n =>
    rw [showInt_of_neg]
    have ht : F64.takeSign ('-' :: Nat.toDigits 10 (n + 1)) = (true, Nat.toDigits 10 (n + 1)) := rfl
    simp only [F64.parseExp, ht, hall, hne, hv]
    simp [Int.negSucc_eq]

theorem digits_ok (m : ℕ) : Digits (digits m) := toDigits_digits m

theorem zeros_digits (n : ℕ) : ∀ c ∈ zeros n, '0' ≤ c ∧ c ≤ '9' := by
  intro c hc
  rw [List.eq_of_mem_replicate hc]
  decide

theorem parse_plain (neg : Bool) {whole : Str} (hw : whole = [] ∨ whole = c!".0") (m : ℕ) (e : ℤ) :
    F64.parse (sign neg ++ plain whole m e) = some (signed neg (dec m e)) := by
  have hd := digits_ok m
  unfold plain
  split
  · rename_i h
    obtain ⟨n, rfl⟩ := Int.eq_ofNat_of_zero_le h
    have h1 : Digits (digits m ++ zeros n) := ⟨by simp [hd.1], fun c hc => (List.mem_append.1 hc).elim (hd.2 c) (zeros_digits n c)⟩
    have hv : F64.digitsVal (digits m ++ zeros n) = m * 10 ^ n := by
      rw [digitsVal_append, digitsVal_zeros, digitsVal_digits]; simp [zeros]
    rcases hw with rfl | rfl
    · have := parse_parts neg h1 .none (e := []) (k := 0) rfl (by intro c hc; cases hc)
      rw [List.append_nil] at this
      simp only [Int.toNat_natCast, List.append_nil] at this ⊢
      rw [this, hv, dec_zeros]
      simp
    · have := parse_parts neg h1 (.some (fs := c!"0") (by intro c hc; simp at hc; subst hc; decide)) (e := []) (k := 0) rfl (by intro c hc; cases hc)
      simp only [List.append_nil, List.append_assoc] at this
      simp only [Int.toNat_natCast]
      rw [this, ← List.append_assoc, digitsVal_append, hv]
      have h0 : F64.digitsVal ['0'] = 0 := by decide
      rw [h0, Nat.add_zero, dec_zeros, dec_zeros]
      simp
  · split
    · rename_i h1 h2
      obtain ⟨p, hp⟩ := Int.eq_ofNat_of_zero_le (show 0 ≤ ((digits m).length : ℤ) + e by omega)
      rw [hp, Int.toNat_natCast]
      have hpl : p < (digits m).length := by omega
      have h1 : Digits ((digits m).take p) := ⟨by
        intro hn
        have := congrArg List.length hn
        simp only [List.length_take, List.length_nil] at this
        omega, fun c hc => hd.2 c (List.mem_of_mem_take hc)⟩
      have := parse_parts neg h1 (.some (fs := (digits m).drop p) fun c hc => hd.2 c (List.mem_of_mem_drop hc)) (e := []) (k := 0) rfl (by intro c hc; cases hc)
      rw [List.append_nil] at this
      rw [this, List.take_append_drop, digitsVal_digits, List.length_drop]
      congr 3
      omega
    · rename_i h1 h2
      obtain ⟨p, hp⟩ := Int.eq_ofNat_of_zero_le (show 0 ≤ -(((digits m).length : ℤ) + e) by omega)
      rw [hp, Int.toNat_natCast]
      have := parse_parts neg (ds := c!"0") ⟨by simp, by intro c hc; simp at hc; subst hc; decide⟩
        (.some (fs := zeros p ++ digits m) fun c hc => (List.mem_append.1 hc).elim (zeros_digits p c) (hd.2 c)) (e := []) (k := 0) rfl (by intro c hc; cases hc)
      rw [List.append_nil] at this
      refine this.trans ?_
      rw [digitsVal_append, digitsVal_append, digitsVal_zeros, digitsVal_digits]
      have h0 : F64.digitsVal ['0'] = 0 := by decide
      rw [h0]
      simp only [Nat.zero_mul, Nat.zero_add, List.length_append, zeros, List.length_replicate]
      congr 3
      push_cast
      omega

theorem parse_scientific (neg : Bool) (m : ℕ) (e : ℤ) : F64.parse (sign neg ++ scientific m e) = some (signed neg (dec m e)) := by
  have hd := digits_ok m
  have hl : 1 ≤ (digits m).length := List.length_pos_iff.2 hd.1
  have h1 : Digits ((digits m).take 1) := ⟨by
    intro hn
    have := congrArg List.length hn
    simp only [List.length_take, List.length_nil] at this
    omega, fun c hc => hd.2 c (List.mem_of_mem_take hc)⟩
  have hs : ∀ k : ℤ, ∀ c, ('e' :: Str.showInt k).head? = some c → F64.isDigit c = false ∧ c ≠ '.' := by
    intro k c hc; simp at hc; subst hc; decide
  unfold scientific
  split
  · rename_i h
    rw [parse_parts neg h1 .none (parseExp_show _) (hs _), List.append_nil, List.take_of_length_le (by omega), digitsVal_digits]
    congr 3
    simp; omega
  · rename_i h
    rw [parse_parts neg h1 (.some (fs := (digits m).drop 1) fun c hc => hd.2 c (List.mem_of_mem_drop hc)) (parseExp_show _) (hs _), List.take_append_drop,
      digitsVal_digits, List.length_drop]
    congr 3
    omega

/-! ### Shortest decimals -/

theorem rounded_pos {q : ℚ} (hq : 0 < q) {m : ℕ} {e : ℤ} (h : IsRounded (dec m e) (.fin q)) : 0 < dec m e := by
  have h0 : 0 ≤ dec m e := by unfold dec; positivity
  rcases h0.lt_or_eq with h1 | h1
  · exact h1
  · obtain ⟨_, _, _, h4, _⟩ := h
    have := h4 0 F64.isBin64_zero
    rw [← h1] at this
    simp at this
    exact absurd this hq.ne'

theorem signed_back {q : ℚ} (hq : q ≠ 0) {m : ℕ} {e : ℤ} (h : IsRounded (dec m e) (.fin |q|)) : signed (decide (q < 0)) (dec m e) = .fin q := by
  have hp := rounded_pos (abs_pos.2 hq) h
  have hr : F64.roundPos false (dec m e) = .fin |q| := F64.isRounded_unique hp.ne' (F64.roundPos_pos hp) h
  rw [signed, if_neg hp.ne']
  by_cases hn : q < 0
  · rw [decide_eq_true hn, F64.roundPos_true, hr, F64.neg, abs_of_neg hn, neg_neg]
  · rw [decide_eq_false hn, hr, abs_of_nonneg (not_lt.1 hn)]

theorem rounded_between {a b q : ℚ} (ha : 0 < a) (h : IsRounded a (.fin q)) (hb : a ≤ b ∧ b ≤ q ∨ q ≤ b ∧ b ≤ a) (hq : 0 < q) : IsRounded b (.fin q) := by
  obtain ⟨h1, h2, h3, h4, h5⟩ := h
  have hbound : |b| < 2 ^ 1024 - 2 ^ 970 := by
    rcases hb with ⟨b1, b2⟩ | ⟨b1, b2⟩
    · have := F64.isBin64_bound h2
      have h9 := F64.pow970_lt
      rw [abs_of_pos hq] at this
      rw [abs_of_pos (ha.trans_le b1)]
      exact b2.trans_lt (this.trans_lt h9)
    · rw [abs_of_pos ha] at h3
      rw [abs_of_pos (hq.trans_le b1)]
      exact b2.trans_lt h3
  have hd : |b - q| = |a - q| - |b - a| := by
    rcases hb with ⟨b1, b2⟩ | ⟨b1, b2⟩
    · rw [abs_of_nonpos (by linarith), abs_of_nonpos (by linarith), abs_of_nonneg (by linarith)]; ring
    · rw [abs_of_nonneg (by linarith), abs_of_nonneg (by linarith), abs_of_nonpos (by linarith)]; ring
  have ht : ∀ w, |a - w| ≤ |b - a| + |b - w| := fun w => by
    have := abs_sub_le a b w
    rwa [abs_sub_comm a b] at this
  refine ⟨h1, h2, hbound, fun w hw => ?_, fun w hw he => ?_⟩
  · have := h4 w hw
    have := ht w
    linarith
  · refine h5 w hw (le_antisymm ?_ (h4 w hw))
    have := ht w
    linarith

theorem rounded_exact {q : ℚ} (hq : 0 < q) (h : IsBin64 q) : IsRounded q (.fin q) := by
  refine ⟨hq.ne', h, ?_, fun w _ => by simp, fun w _ he => .inl ?_⟩
  · exact (F64.isBin64_bound h).trans_lt F64.pow970_lt
  · rw [sub_self, abs_zero, abs_eq_zero] at he
    linarith

/-- Some decimal number is read as `q`. -/
theorem exists_dec {q : ℚ} (hq : 0 < q) (h : IsBin64 q) : ∃ m e, IsRounded (dec m e) (.fin q) := by
  obtain ⟨M, k, _, _, _, rfl⟩ := h.imp fun _ => id
  have hM : 0 < M := by
    have h2 : (0 : ℚ) < 2 ^ k := by positivity
    have : (0 : ℚ) < M := by
      by_contra hc
      have := mul_nonpos_of_nonpos_of_nonneg (not_lt.1 hc) h2.le
      linarith
    exact_mod_cast this
  obtain ⟨N, rfl⟩ := Int.eq_ofNat_of_zero_le hM.le
  have key : ∃ m e, dec m e = ((N : ℕ) : ℤ) * (2 : ℚ) ^ k := by
    rcases le_total 0 k with hk | hk
    · obtain ⟨n, rfl⟩ := Int.eq_ofNat_of_zero_le hk
      exact ⟨N * 2 ^ n, 0, by simp [dec]⟩
    · obtain ⟨n, hn⟩ := Int.eq_ofNat_of_zero_le (show 0 ≤ -k by omega)
      have hk : k = -(n : ℤ) := by omega
      refine ⟨N * 5 ^ n, k, ?_⟩
      rw [hk]
      simp only [dec, zpow_neg, zpow_natCast]
      push_cast
      rw [show (10 : ℚ) = 5 * 2 by norm_num, mul_pow]
      field_simp
  obtain ⟨m, e, hme⟩ := key
  exact ⟨m, e, by rw [hme]; exact rounded_exact hq h⟩

/-- The decimals with `n` digits next to `q`, when `q` has `p` digits before the point: one below or equal, one above. -/
theorem neighbours {q : ℚ} (hq : 0 < q) {p : ℤ} (h1 : (10 : ℚ) ^ (p - 1) ≤ q) (h2 : q < 10 ^ p) {n : ℕ} (hn : 1 ≤ n) :
    ∃ lo : ℕ, lo < 10 ^ n ∧ dec lo (p - n) ≤ q ∧ q < dec (lo + 1) (p - n) ∧
      ∀ m e, m < 10 ^ n → 0 < dec m e → (dec m e ≤ q → dec m e ≤ dec lo (p - n)) ∧ (q < dec m e → dec (lo + 1) (p - n) ≤ dec m e) := by
  have hu : (0 : ℚ) < 10 ^ (p - n) := by positivity
  have hz : ∀ (a b : ℤ), (10 : ℚ) ^ a * 10 ^ b = 10 ^ (a + b) := fun a b => (zpow_add₀ (by norm_num) a b).symm
  have hpn : (10 : ℚ) ^ (n : ℤ) * 10 ^ (p - n) = 10 ^ p := by rw [hz]; congr 1; ring
  refine ⟨⌊q / 10 ^ (p - n)⌋₊, ?_, ?_, ?_, ?_⟩
  · rw [Nat.floor_lt (by positivity), div_lt_iff₀ hu]
    push_cast
    rw [← zpow_natCast, hpn]; exact h2
  · have := Nat.floor_le (show 0 ≤ q / 10 ^ (p - n) by positivity)
    rw [le_div_iff₀ hu] at this
    exact this
  · have := Nat.lt_floor_add_one (q / 10 ^ (p - n))
    rw [div_lt_iff₀ hu] at this
    simpa [dec] using this
  · intro m e hm hp
    have hm0 : 0 < m := by
      rcases Nat.eq_zero_or_pos m with h | h
      · rw [h] at hp; simp [dec] at hp
      · exact h
    -- a decimal of n digits not below the first power is a multiple of the unit
    have grid : (10 : ℚ) ^ (p - 1) ≤ dec m e → ∃ k : ℕ, dec m e = dec k (p - n) := by
      intro hge
      have hlt : dec m e < 10 ^ ((n : ℤ) + e) := by
        rw [← hz, zpow_natCast, dec]
        have : (m : ℚ) < 10 ^ n := by exact_mod_cast hm
        exact mul_lt_mul_of_pos_right this (by positivity)
      have he : p - 1 < n + e := (zpow_lt_zpow_iff_right₀ (by norm_num : (1 : ℚ) < 10)).1 (lt_of_le_of_lt hge hlt)
      obtain ⟨j, hj⟩ := Int.eq_ofNat_of_zero_le (show 0 ≤ e - (p - n) by omega)
      refine ⟨m * 10 ^ j, ?_⟩
      rw [dec_zeros]
      congr 1
      omega
    have mono : ∀ a b : ℕ, a ≤ b → dec a (p - n) ≤ dec b (p - n) := fun a b hab => by
      unfold dec
      exact mul_le_mul_of_nonneg_right (by exact_mod_cast hab) hu.le
    have one : (10 : ℚ) ^ (p - 1) = dec (10 ^ (n - 1)) (p - n) := by
      have := dec_zeros 1 (n - 1) (p - n)
      rw [one_mul] at this
      rw [this]
      simp only [dec, Nat.cast_one, one_mul]
      congr 1
      omega
    have top : (10 : ℚ) ^ p = dec (10 ^ n) (p - n) := by
      unfold dec
      push_cast
      rw [← zpow_natCast, hpn]
    have below : ∀ k : ℕ, dec k (p - n) ≤ q → dec k (p - n) ≤ dec ⌊q / 10 ^ (p - n)⌋₊ (p - n) := by
      intro k hk
      refine mono _ _ (Nat.le_floor ?_)
      rw [le_div_iff₀ hu]
      exact hk
    have above : ∀ k : ℕ, q < dec k (p - n) → dec (⌊q / 10 ^ (p - n)⌋₊ + 1) (p - n) ≤ dec k (p - n) := by
      intro k hk
      refine mono _ _ ?_
      rw [Nat.succ_le_iff, Nat.floor_lt (by positivity), div_lt_iff₀ hu]
      exact hk
    constructor
    · intro hle
      rcases lt_or_ge (dec m e) (10 ^ (p - 1)) with h | h
      · refine h.le.trans ?_
        rw [one]
        exact below _ (by rw [← one]; exact h1)
      · obtain ⟨k, hk⟩ := grid h
        rw [hk] at hle ⊢
        exact below k hle
    · intro hgt
      obtain ⟨k, hk⟩ := grid (h1.trans hgt.le)
      rw [hk] at hgt ⊢
      exact above k hgt

theorem exists_shortest {q : ℚ} (hq : 0 < q) (h : IsBin64 q) : ∃ m e, Shortest q m e := by
  classical
  have hex : ∃ n, ∃ m e, m < 10 ^ n ∧ IsRounded (dec m e) (.fin q) := by
    obtain ⟨m, e, hme⟩ := exists_dec hq h
    exact ⟨m, m, e, Nat.lt_pow_self (by norm_num), hme⟩
  obtain ⟨m0, e0, hm0, hr0⟩ := Nat.find_spec hex
  have hmin : ∀ n m e, IsRounded (dec m e) (.fin q) → m < 10 ^ n → Nat.find hex ≤ n := fun n m e hr hm => Nat.find_min' hex ⟨m, e, hm, hr⟩
  generalize Nat.find hex = n at *
  have hn : 1 ≤ n := by
    rcases Nat.eq_zero_or_pos n with h0 | h0
    · rw [h0] at hm0
      have : m0 = 0 := by simpa using hm0
      have hp := rounded_pos hq hr0
      rw [this] at hp
      simp [dec] at hp
    · exact h0
  obtain ⟨p', hp1, hp2⟩ := exists_mem_Ico_zpow hq (by norm_num : (1 : ℚ) < 10)
  obtain ⟨lo, hlo, l1, l2, hall⟩ := neighbours hq (p := p' + 1) (by simpa using hp1) hp2 hn
  -- it is enough to find a best one
  suffices hbest : ∃ m e, m < 10 ^ n ∧ IsRounded (dec m e) (.fin q) ∧ ∀ m' e', m' < 10 ^ n → IsRounded (dec m' e') (.fin q) → |dec m e - q| ≤ |dec m' e' - q| by
    obtain ⟨m, e, hm, hr, hb⟩ := hbest
    refine ⟨m, e, hr, fun m' e' k hr' hk => lt_of_lt_of_le hm (Nat.pow_le_pow_right (by norm_num) (hmin k m' e' hr' hk)), fun m' e' hr' hd => hb m' e' (hd n hm) hr'⟩
  have hhi : ∃ m e, m < 10 ^ n ∧ dec m e = dec (lo + 1) (p' + 1 - n) := by
    rcases Nat.lt_or_ge (lo + 1) (10 ^ n) with hl | hl
    · exact ⟨lo + 1, _, hl, rfl⟩
    · have : lo + 1 = 1 * 10 ^ n := by omega
      exact ⟨1, p' + 1 - n + n, Nat.one_lt_pow (by omega) (by norm_num), by rw [this, dec_zeros]⟩
  obtain ⟨mh, eh, hmh, hdh⟩ := hhi
  have lo_ok : ∀ m e, m < 10 ^ n → IsRounded (dec m e) (.fin q) → dec m e ≤ q →
      IsRounded (dec lo (p' + 1 - n)) (.fin q) ∧ |dec lo (p' + 1 - n) - q| ≤ |dec m e - q| := by
    intro m e hm hr hle
    have hp := rounded_pos hq hr
    have := (hall m e hm hp).1 hle
    refine ⟨rounded_between hp hr (.inl ⟨this, l1⟩) hq, ?_⟩
    rw [abs_of_nonpos (by linarith), abs_of_nonpos (by linarith)]
    linarith
  have hi_ok : ∀ m e, m < 10 ^ n → IsRounded (dec m e) (.fin q) → q < dec m e →
      IsRounded (dec mh eh) (.fin q) ∧ |dec mh eh - q| ≤ |dec m e - q| := by
    intro m e hm hr hgt
    have hp := rounded_pos hq hr
    have := (hall m e hm hp).2 hgt
    rw [hdh]
    refine ⟨rounded_between hp hr (.inr ⟨l2.le, this⟩) hq, ?_⟩
    rw [abs_of_nonneg (by linarith), abs_of_nonneg (by linarith)]
    linarith
  by_cases c1 : IsRounded (dec lo (p' + 1 - n)) (.fin q)
  · by_cases c2 : IsRounded (dec mh eh) (.fin q)
    · rcases le_total |dec lo (p' + 1 - n) - q| |dec mh eh - q| with hc | hc
      · refine ⟨lo, _, hlo, c1, fun m e hm hr => ?_⟩
        rcases le_or_gt (dec m e) q with hle | hgt
        · exact (lo_ok m e hm hr hle).2
        · exact hc.trans (hi_ok m e hm hr hgt).2
      · refine ⟨mh, eh, hmh, c2, fun m e hm hr => ?_⟩
        rcases le_or_gt (dec m e) q with hle | hgt
        · exact hc.trans (lo_ok m e hm hr hle).2
        · exact (hi_ok m e hm hr hgt).2
    · refine ⟨lo, _, hlo, c1, fun m e hm hr => ?_⟩
      rcases le_or_gt (dec m e) q with hle | hgt
      · exact (lo_ok m e hm hr hle).2
      · exact absurd (hi_ok m e hm hr hgt).1 c2
  · by_cases c2 : IsRounded (dec mh eh) (.fin q)
    · refine ⟨mh, eh, hmh, c2, fun m e hm hr => ?_⟩
      rcases le_or_gt (dec m e) q with hle | hgt
      · exact absurd (lo_ok m e hm hr hle).1 c1
      · exact (hi_ok m e hm hr hgt).2
    · rcases le_or_gt (dec m0 e0) q with hle | hgt
      · exact absurd (lo_ok m0 e0 hm0 hr0 hle).1 c1
      · exact absurd (hi_ok m0 e0 hm0 hr0 hgt).1 c2

/-! ### The forms of the texts -/

theorem digits_pos {m : ℕ} (hm : 0 < m) : (digits m).head? ≠ some '0' := by
  intro h
  have h0 := (intPart_toDigits m).2 h
  have := digitsVal_digits m
  unfold digits at this
  rw [h0] at this
  exact absurd this (by simp [F64.digitsVal, F64.digitVal]; omega)

/-- A number without exponent: digits without leading zeros, and perhaps a fraction. -/
theorem plain_form {whole : Str} (hw : whole = [] ∨ whole = c!".0") {m : ℕ} (hm : 0 < m) (e : ℤ) :
    ∃ ds f fs, plain whole m e = ds ++ f ∧ IntPart ds ∧ Frac f fs ∧ Fraction f ∧ (whole ≠ [] → f ≠ []) ∧
      dec m e = dec (F64.digitsVal (ds ++ fs)) (-fs.length) := by
  have hd := digits_ok m
  have hz := digits_pos hm
  have hl : 0 < (digits m).length := List.length_pos_iff.2 hd.1
  unfold plain
  split
  · rename_i h
    obtain ⟨n, rfl⟩ := Int.eq_ofNat_of_zero_le h
    have h1 : Digits (digits m ++ zeros n) := ⟨by simp [hd.1], fun c hc => (List.mem_append.1 hc).elim (hd.2 c) (zeros_digits n c)⟩
    have hi : IntPart (digits m ++ zeros n) := ⟨h1, fun h => absurd (by
      rw [List.head?_append_of_ne_nil _ hd.1] at h; exact h) hz⟩
    have hv : F64.digitsVal (digits m ++ zeros n) = m * 10 ^ n := by
      rw [digitsVal_append, digitsVal_zeros, digitsVal_digits]; simp [zeros]
    rcases hw with rfl | rfl
    · refine ⟨digits m ++ zeros n, [], [], by simp, hi, .none, .none, by simp, ?_⟩
      rw [List.append_nil, hv, dec_zeros]; simp
    · refine ⟨digits m ++ zeros n, c!".0", c!"0", by simp, hi, .some (by intro c hc; simp at hc; subst hc; decide),
        .some ⟨by simp, by intro c hc; simp at hc; subst hc; decide⟩, by simp, ?_⟩
      rw [digitsVal_append, hv]
      have h0 : F64.digitsVal ['0'] = 0 := by decide
      rw [h0, Nat.add_zero, dec_zeros, dec_zeros]
      simp
  · split
    · rename_i h1 h2
      obtain ⟨p, hp⟩ := Int.eq_ofNat_of_zero_le (show 0 ≤ ((digits m).length : ℤ) + e by omega)
      rw [hp, Int.toNat_natCast]
      have hpl : p < (digits m).length := by omega
      have h1 : Digits ((digits m).take p) := ⟨by
        intro hn
        have := congrArg List.length hn
        simp only [List.length_take, List.length_nil] at this
        omega, fun c hc => hd.2 c (List.mem_of_mem_take hc)⟩
      have hdr : ∀ c ∈ (digits m).drop p, '0' ≤ c ∧ c ≤ '9' := fun c hc => hd.2 c (List.mem_of_mem_drop hc)
      refine ⟨_, _, (digits m).drop p, rfl, ⟨h1, fun h => absurd (by
        rw [List.head?_take, if_neg (by omega)] at h; exact h) hz⟩, .some hdr, .some ⟨by simp; omega, hdr⟩, by simp, ?_⟩
      rw [List.take_append_drop, digitsVal_digits, List.length_drop]
      congr 1
      omega
    · rename_i h1 h2
      obtain ⟨p, hp⟩ := Int.eq_ofNat_of_zero_le (show 0 ≤ -(((digits m).length : ℤ) + e) by omega)
      rw [hp, Int.toNat_natCast]
      have hall : ∀ c ∈ zeros p ++ digits m, '0' ≤ c ∧ c ≤ '9' := fun c hc => (List.mem_append.1 hc).elim (zeros_digits p c) (hd.2 c)
      refine ⟨c!"0", _, zeros p ++ digits m, rfl, ⟨⟨by simp, by intro c hc; simp at hc; subst hc; decide⟩, fun _ => rfl⟩, .some hall,
        .some ⟨by simp [hd.1], hall⟩, by simp, ?_⟩
      rw [digitsVal_append, digitsVal_append, digitsVal_zeros, digitsVal_digits]
      have h0 : F64.digitsVal ['0'] = 0 := by decide
      rw [h0]
      simp only [Nat.zero_mul, Nat.zero_add, List.length_append, zeros, List.length_replicate]
      congr 1
      push_cast
      omega

/-- A number with an exponent: one digit that is not zero, perhaps a fraction, and the exponent. -/
theorem scientific_form {m : ℕ} (hm : 0 < m) (e : ℤ) :
    ∃ ds f ex, scientific m e = ds ++ (f ++ ex) ∧ IntPart ds ∧ Fraction f ∧ Exponent ex ∧ ex ≠ [] := by
  have hd := digits_ok m
  have hz := digits_pos hm
  have hl : 0 < (digits m).length := List.length_pos_iff.2 hd.1
  have h1 : IntPart ((digits m).take 1) := ⟨⟨by
    intro hn
    have := congrArg List.length hn
    simp only [List.length_take, List.length_nil] at this
    omega, fun c hc => hd.2 c (List.mem_of_mem_take hc)⟩, fun h => absurd (by
        rw [List.head?_take, if_neg (by omega)] at h; exact h) hz⟩
  have hex : ∀ k : ℤ, Exponent ('e' :: Str.showInt k) := by
    intro k
    cases k with
    | ofNat n => rw [showInt_of_nat]; exact .some (sign := []) (.inl rfl) (.inl rfl) (toDigits_digits n)
    | negSucc n => rw [showInt_of_neg]; exact .some (sign := c!"-") (.inl rfl) (.inr (.inr rfl)) (toDigits_digits _)
  unfold scientific
  refine ⟨_, _, _, rfl, h1, ?_, hex _, by simp⟩
  split
  · exact .none
  · rename_i h
    exact .some ⟨fun h' => by
      have := congrArg List.length h'
      rw [List.length_drop, List.length_nil] at this
      omega, fun c hc => hd.2 c (List.mem_of_mem_drop hc)⟩

/-- The characters of number texts. -/
def NumChar (c : Char) : Prop := ('0' ≤ c ∧ c ≤ '9') ∨ c ∈ c!"-+.eENainf"

theorem sign_chars (neg : Bool) : ∀ c ∈ sign neg, NumChar c := by
  cases neg <;> intro c hc <;> simp [sign] at hc
  subst hc; right; decide

theorem fraction_chars {f : Str} (h : Fraction f) : ∀ c ∈ f, NumChar c := by
  cases h with
  | none => simp
  | some hd => intro c hc; rcases List.mem_cons.1 hc with rfl | hc
               · right; decide
               · exact .inl (hd.2 c hc)

theorem exponent_chars {f : Str} (h : Exponent f) : ∀ c ∈ f, NumChar c := by
  cases h with
  | none => simp
  | some h1 h2 hd =>
    intro c hc
    rcases List.mem_cons.1 hc with rfl | hc
    · rcases h1 with rfl | rfl <;> right <;> decide
    · rcases List.mem_append.1 hc with hc | hc
      · rcases h2 with rfl | rfl | rfl
        · simp at hc
        · simp at hc; subst hc; right; decide
        · simp at hc; subst hc; right; decide
      · exact .inl (hd.2 c hc)

theorem plain_chars {whole : Str} (hw : whole = [] ∨ whole = c!".0") {m : ℕ} (hm : 0 < m) (e : ℤ) : ∀ c ∈ plain whole m e, NumChar c := by
  obtain ⟨ds, f, fs, h, hi, _, hf, _, _⟩ := plain_form hw hm e
  rw [h]
  intro c hc
  exact (List.mem_append.1 hc).elim (fun h => .inl (hi.1.2 c h)) (fraction_chars hf c)

theorem scientific_chars {m : ℕ} (hm : 0 < m) (e : ℤ) : ∀ c ∈ scientific m e, NumChar c := by
  obtain ⟨ds, f, ex, h, hi, hf, hx, _⟩ := scientific_form hm e
  rw [h]
  intro c hc
  rcases List.mem_append.1 hc with h | hc
  · exact .inl (hi.1.2 c h)
  · exact (List.mem_append.1 hc).elim (fraction_chars hf c) (exponent_chars hx c)

theorem shortest_pos {q : ℚ} (hq : q ≠ 0) {m : ℕ} {e : ℤ} (h : Shortest |q| m e) : 0 < m := by
  have := rounded_pos (abs_pos.2 hq) h.back
  rcases Nat.eq_zero_or_pos m with h0 | h0
  · rw [h0] at this; simp [dec] at this
  · exact h0

theorem isBin64_abs {q : ℚ} (h : IsBin64 q) : IsBin64 |q| := by
  rcases abs_choice q with h1 | h1
  · rwa [h1]
  · rw [h1]
    obtain ⟨m, e, a, b, c, rfl⟩ := h
    exact ⟨-m, e, by rwa [abs_neg], b, c, by push_cast; ring⟩

/-! ### Fixed numbers of digits -/

theorem fixed_form (k n : ℕ) : ∃ ds fs, fixed k n = ds ++ (if k = 0 then [] else '.' :: fs) ∧ Digits ds ∧ (∀ c ∈ fs, '0' ≤ c ∧ c ≤ '9') ∧ fs.length = k ∧
    F64.digitsVal (ds ++ fs) = n := by
  have hd := digits_ok n
  have hl : 0 < (digits n).length := List.length_pos_iff.2 hd.1
  unfold fixed
  split
  · rename_i h
    exact ⟨digits n, [], by simp, hd, by simp, h.symm, by rw [List.append_nil, digitsVal_digits]⟩
  · have hall : ∀ c ∈ zeros (k + 1 - (digits n).length) ++ digits n, '0' ≤ c ∧ c ≤ '9' := fun c hc =>
      (List.mem_append.1 hc).elim (zeros_digits _ c) (hd.2 c)
    have hlen : k < (zeros (k + 1 - (digits n).length) ++ digits n).length := by
      rw [List.length_append, zeros, List.length_replicate]; omega
    have hv : F64.digitsVal (zeros (k + 1 - (digits n).length) ++ digits n) = n := by
      rw [digitsVal_append, digitsVal_zeros, digitsVal_digits]; simp
    generalize zeros (k + 1 - (digits n).length) ++ digits n = ds at *
    refine ⟨ds.take (ds.length - k), ds.drop (ds.length - k), rfl, ⟨?_, fun c hc => hall c (List.mem_of_mem_take hc)⟩,
      fun c hc => hall c (List.mem_of_mem_drop hc), ?_, by rw [List.take_append_drop, hv]⟩
    · intro h
      have := congrArg List.length h
      simp only [List.length_take, List.length_nil] at this
      omega
    · rw [List.length_drop]; omega

theorem parse_fixed (neg : Bool) (k n : ℕ) : F64.parse (sign neg ++ fixed k n) = some (signed neg (dec n (-k))) := by
  obtain ⟨ds, fs, h, hd, hf, hl, hv⟩ := fixed_form k n
  rw [h]
  rcases Nat.eq_zero_or_pos k with rfl | hk
  · have hfs : fs = [] := List.length_eq_zero_iff.1 hl
    subst hfs
    have := parse_parts neg hd .none (e := []) (k := 0) rfl (by intro c hc; cases hc)
    simp only [List.append_nil, List.length_nil, if_true] at this hv ⊢
    rw [this, hv]; simp
  · have := parse_parts neg hd (.some hf) (e := []) (k := 0) rfl (by intro c hc; cases hc)
    simp only [List.append_nil, hv, hl] at this
    rw [if_neg (by omega), this]; simp

theorem fixed_chars (k n : ℕ) : ∀ c ∈ fixed k n, NumChar c := by
  obtain ⟨ds, fs, h, hd, hf, _, _⟩ := fixed_form k n
  rw [h]
  intro c hc
  rcases List.mem_append.1 hc with hc | hc
  · exact .inl (hd.2 c hc)
  · split at hc
    · simp at hc
    · rcases List.mem_cons.1 hc with rfl | hc
      · right; decide
      · exact .inl (hf c hc)

/-! ### All the texts -/

theorem display_chars {x : F64} (hx : IsDouble x) {t : Str} (h : IsDisplay x t) : ∀ c ∈ t, NumChar c := by
  cases x with
  | nan => rw [h]; intro c hc; right; revert c; decide
  | inf b => rw [h]; cases b <;> intro c hc <;> right <;> revert c <;> decide
  | zero b => rw [h]; intro c hc; exact (List.mem_append.1 hc).elim (sign_chars b c) fun h => by simp at h; subst h; left; decide
  | fin q =>
    obtain ⟨m, e, hs, rfl⟩ := h
    intro c hc
    exact (List.mem_append.1 hc).elim (sign_chars _ c) (plain_chars (.inl rfl) (shortest_pos hx.1 hs) e c)

theorem debug_chars {x : F64} (hx : IsDouble x) {t : Str} (h : IsDebug x t) : ∀ c ∈ t, NumChar c := by
  cases x with
  | nan => rw [h]; intro c hc; right; revert c; decide
  | inf b => rw [h]; cases b <;> intro c hc <;> right <;> revert c <;> decide
  | zero b => rw [h]; intro c hc; exact (List.mem_append.1 hc).elim (sign_chars b c) fun h => by
                simp at h; rcases h with rfl | rfl | rfl
                · left; decide
                · right; decide
                · left; decide
  | fin q =>
    obtain ⟨m, e, hs, rfl⟩ := h
    intro c hc
    have hp := shortest_pos hx.1 hs
    rcases List.mem_append.1 hc with hc | hc
    · exact sign_chars _ c hc
    · split at hc
      · exact plain_chars (.inr rfl) hp e c hc
      · exact scientific_chars hp e c hc

theorem fixed_text_chars {k : ℕ} {x : F64} {t : Str} (h : IsFixed k x t) : ∀ c ∈ t, NumChar c := by
  cases x with
  | nan => rw [h]; intro c hc; right; revert c; decide
  | inf b => rw [h]; cases b <;> intro c hc <;> right <;> revert c <;> decide
  | zero b => rw [h]; intro c hc; exact (List.mem_append.1 hc).elim (sign_chars b c) (fixed_chars _ _ c)
  | fin q =>
    obtain ⟨n, _, rfl⟩ := h
    intro c hc
    exact (List.mem_append.1 hc).elim (sign_chars _ c) (fixed_chars _ _ c)

theorem parse_nan : F64.parse c!"NaN" = some .nan := by decide +kernel
theorem parse_inf (b : Bool) : F64.parse (sign b ++ c!"inf") = some (.inf b) := by cases b <;> decide +kernel

theorem display_back {x : F64} (hx : IsDouble x) {t : Str} (h : IsDisplay x t) : F64.parse t = some x := by
  cases x with
  | nan => rw [h]; exact parse_nan
  | inf b => rw [h]; exact parse_inf b
  | zero b => rw [h]; cases b <;> decide +kernel
  | fin q =>
    obtain ⟨m, e, hs, rfl⟩ := h
    rw [parse_plain _ (.inl rfl), signed_back hx.1 hs.back]

theorem debug_back {x : F64} (hx : IsDouble x) {t : Str} (h : IsDebug x t) : F64.parse t = some x := by
  cases x with
  | nan => rw [h]; exact parse_nan
  | inf b => rw [h]; exact parse_inf b
  | zero b => rw [h]; cases b <;> decide +kernel
  | fin q =>
    obtain ⟨m, e, hs, rfl⟩ := h
    split
    · rw [parse_plain _ (.inr rfl), signed_back hx.1 hs.back]
    · rw [parse_scientific, signed_back hx.1 hs.back]

theorem exists_display (x : F64) (hx : IsDouble x) : ∃ t, IsDisplay x t := by
  cases x with
  | fin q =>
    obtain ⟨m, e, h⟩ := exists_shortest (abs_pos.2 hx.1) (isBin64_abs hx.2)
    exact ⟨_, m, e, h, rfl⟩
  | _ => exact ⟨_, rfl⟩

theorem exists_debug (x : F64) (hx : IsDouble x) : ∃ t, IsDebug x t := by
  cases x with
  | fin q =>
    obtain ⟨m, e, h⟩ := exists_shortest (abs_pos.2 hx.1) (isBin64_abs hx.2)
    exact ⟨_, m, e, h, rfl⟩
  | _ => exact ⟨_, rfl⟩

theorem exists_json (x : F64) (hx : IsDouble x) : ∃ t, IsJson x t := by
  cases x with
  | fin q =>
    obtain ⟨m, e, h⟩ := exists_shortest (abs_pos.2 hx.1) (isBin64_abs hx.2)
    exact ⟨_, m, e, h, rfl⟩
  | zero b => exact ⟨_, rfl⟩
  | _ => exact ⟨[], trivial⟩

theorem exists_fixed (k : ℕ) (x : F64) : ∃ t, IsFixed k x t := by
  cases x with
  | fin q =>
    refine ⟨_, ⌊|q| * 10 ^ k + 1 / 2⌋₊, ?_, rfl⟩
    have h1 := Nat.floor_le (show 0 ≤ |q| * 10 ^ k + 1 / 2 by positivity)
    have h2 := Nat.lt_floor_add_one (|q| * 10 ^ k + 1 / 2)
    rw [abs_le]
    constructor <;> linarith
  | _ => exact ⟨_, rfl⟩

/-! ### A criterion -/

/-- `m · 10^e` has `n` digits, is read as `q`, is nearer to `q` than half a unit of the last place, and no decimal with fewer digits is read as `q`. -/
structure Only (q : ℚ) (p : ℤ) (n m : ℕ) (e : ℤ) (lo : ℕ) : Prop where
  pos : 1 ≤ n
  place : (10 : ℚ) ^ (p - 1) ≤ q ∧ q < 10 ^ p
  size : 10 ^ (n - 1) ≤ m ∧ m < 10 ^ n
  back : F64.roundPos false (dec m e) = .fin q
  grid : dec m e = dec lo (p - n) ∧ |dec lo (p - n) - q| < 1 / 2 * 10 ^ (p - n)
  fewer : 2 ≤ n → ∃ l, (dec l (p - (n - 1 : ℕ)) ≤ q ∧ q < dec (l + 1) (p - (n - 1 : ℕ))) ∧
    F64.roundPos false (dec l (p - (n - 1 : ℕ))) ≠ .fin q ∧ F64.roundPos false (dec (l + 1) (p - (n - 1 : ℕ))) ≠ .fin q

theorem dec_lt {a b : ℕ} {e : ℤ} : dec a e < dec b e ↔ a < b := by
  unfold dec
  rw [mul_lt_mul_iff_left₀ (show (0 : ℚ) < 10 ^ e by positivity)]
  exact Nat.cast_lt

theorem shortest_only {q : ℚ} (hq : 0 < q) {p : ℤ} {n m0 : ℕ} {e0 : ℤ} {lo : ℕ} (h : Only q p n m0 e0 lo) {m : ℕ} {e : ℤ} (hs : Shortest q m e) : m = m0 ∧ e = e0 := by
  obtain ⟨hn, ⟨hp1, hp2⟩, ⟨hm1, hm2⟩, hb, ⟨hg1, hg2⟩, hf⟩ := h
  have round_iff : ∀ v : ℚ, 0 < v → (IsRounded v (.fin q) ↔ F64.roundPos false v = .fin q) := fun v hv =>
    ⟨fun h => F64.isRounded_unique hv.ne' (F64.roundPos_pos hv) h, fun h => h ▸ F64.roundPos_pos hv⟩
  have hpos0 : 0 < dec m0 e0 := by
    have : 0 < m0 := lt_of_lt_of_le (by positivity) hm1
    unfold dec; positivity
  have hr0 := (round_iff _ hpos0).2 hb
  have hmn : m < 10 ^ n := hs.short m0 e0 n hr0 hm2
  have hpm := rounded_pos hq hs.back
  have hm0 : 0 < m := by
    rcases Nat.eq_zero_or_pos m with h | h
    · rw [h] at hpm; simp [dec] at hpm
    · exact h
  -- no fewer digits
  have hlow : 10 ^ (n - 1) ≤ m := by
    by_contra hc
    push Not at hc
    rcases Nat.lt_or_ge n 2 with h2 | h2
    · have : n = 1 := by omega
      subst this
      simp at hc
      omega
    · obtain ⟨l, ⟨l1, l2⟩, l3, l4⟩ := hf h2
      obtain ⟨lo', _, k1, k2, k3⟩ := neighbours hq hp1 hp2 (n := n - 1) (by omega)
      have hl : lo' = l := by
        have h1 := (dec_lt (e := p - (n - 1 : ℕ))).1 (k1.trans_lt l2)
        have h2 := (dec_lt (e := p - (n - 1 : ℕ))).1 (l1.trans_lt k2)
        omega
      subst hl
      have := k3 m e hc hpm
      rcases le_or_gt (dec m e) q with hle | hgt
      · have hle' := this.1 hle
        exact l3 ((round_iff _ (hpm.trans_le hle')).1 (rounded_between hpm hs.back (.inl ⟨hle', l1⟩) hq))
      · have hge' := this.2 hgt
        exact l4 ((round_iff _ (hq.trans l2)).1 (rounded_between hpm hs.back (.inr ⟨l2.le, hge'⟩) hq))
  -- the same value
  have hval : dec m e = dec m0 e0 := by
    have hnear := hs.near m0 e0 hr0 (fun k hk => by
      by_contra hc
      have : k < n := by
        by_contra hkn
        exact hc (hm2.trans_le (Nat.pow_le_pow_right (by norm_num) (by omega)))
      exact absurd (hlow.trans_lt hk) (not_lt.2 (Nat.pow_le_pow_right (by norm_num) (by omega))))
    obtain ⟨lo', _, k1, k2, k3⟩ := neighbours hq hp1 hp2 hn
    have hu : (0 : ℚ) < 10 ^ (p - n) := by positivity
    have hsucc : ∀ a : ℕ, dec (a + 1) (p - n) = dec a (p - n) + 10 ^ (p - n) := fun a => by unfold dec; push_cast; ring
    rw [hg1] at hnear ⊢
    have habs := abs_lt.1 hg2
    -- lo is one of the two neighbours
    have hlo : lo = lo' ∨ lo = lo' + 1 := by
      have a1 : dec lo (p - n) < dec (lo' + 2) (p - n) := by rw [hsucc (lo' + 1)]; linarith
      have a2 : dec lo' (p - n) < dec (lo + 1) (p - n) := by rw [hsucc]; linarith
      have := dec_lt.1 a1
      have := dec_lt.1 a2
      omega
    obtain ⟨j1, j2⟩ := k3 m e hmn hpm
    have hnear' := abs_le.1 (hnear.trans hg2.le)
    rcases hlo with rfl | rfl
    · rcases le_or_gt (dec m e) q with hle | hgt
      · have := j1 hle
        rw [abs_of_nonpos (by linarith), abs_of_nonpos (by linarith)] at hnear
        linarith
      · have := j2 hgt
        rw [hsucc] at this
        linarith
    · rcases le_or_gt (dec m e) q with hle | hgt
      · have := j1 hle
        rw [hsucc] at habs hnear k2
        linarith
      · have := j2 hgt
        rw [abs_of_nonneg (by linarith), abs_of_nonneg (by linarith)] at hnear
        linarith
  -- the same digits
  have same : ∀ (a b : ℕ) (x y : ℤ), 10 ^ (n - 1) ≤ a → b < 10 ^ n → dec a x = dec b y → x ≤ y := by
    intro a b x y ha hb hab
    by_contra hc
    obtain ⟨k, hk⟩ := Int.eq_ofNat_of_zero_le (show 0 ≤ x - y by omega)
    have hx : x = y + k := by omega
    rw [hx, ← dec_zeros] at hab
    have he : a * 10 ^ k = b := by
      have h1 : ¬ a * 10 ^ k < b := fun h => by have := (dec_lt (e := y)).2 h; rw [hab] at this; exact lt_irrefl _ this
      have h2 : ¬ b < a * 10 ^ k := fun h => by have := (dec_lt (e := y)).2 h; rw [hab] at this; exact lt_irrefl _ this
      omega
    have hk1 : 10 ≤ 10 ^ k := Nat.le_self_pow (by omega) 10
    have : 10 ^ (n - 1) * 10 ≤ b := by rw [← he]; exact Nat.mul_le_mul ha hk1
    rw [← pow_succ, Nat.sub_add_cancel hn] at this
    omega
  have he : e = e0 := le_antisymm (same m m0 e e0 hlow hm2 hval) (same m0 m e0 e hm1 hmn hval.symm)
  subst he
  refine ⟨?_, rfl⟩
  have h1 : ¬ m < m0 := fun h => by have := (dec_lt (e := e)).2 h; rw [hval] at this; exact lt_irrefl _ this
  have h2 : ¬ m0 < m := fun h => by have := (dec_lt (e := e)).2 h; rw [hval] at this; exact lt_irrefl _ this
  omega

end NumText
