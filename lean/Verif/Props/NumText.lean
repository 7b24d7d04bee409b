import Verif.Lemmas.NumText
import Verif.Props.Conversions
import Verif.Props.JsonDocs
import Verif.Props.Jq
import Verif.Props.CacheKeys
import Verif.Props.Guide
import Verif.Props.PlainOutput
import Verif.Props.Cli
import Verif.Props.JsonText
import Verif.Props.Monotone
import Mathlib.Tactic.IntervalCases
import Mathlib.Data.Nat.Log
/-! C137: numbers keep their values when they are written and read. -/

open Lib Spec NumText

/-! ### The assumptions can be met -/

/-- What is said of the standard library about the texts of numbers can be met, whatever the other external functions are. (Every double has a shortest decimal number.) -/
theorem C137_exists (X : Ext) : ∃ f d k, Std { X with fmt := f, dbgNum := d, fmtFix := k } ∧ NumbersApart { X with fmt := f, dbgNum := d, fmtFix := k } := by
  classical
  choose f hf using exists_display
  choose d hd using exists_debug
  choose k hk using exists_fixed
  obtain ⟨g, hg, _⟩ := exists_numbersApart X
  have hno : ∀ s, F64.parse ('x' :: s) = none := by
    intro s
    have h : F64.takeSign ('x' :: s) = (false, 'x' :: s) := rfl
    simp only [F64.parse, h]
    simp [Str.eqIgnoreCase, Str.asciiLowC, F64.isDigit]
  have hbk : ∀ x (h : IsDouble x), F64.parse (d x h) = some x := fun x h => debug_back h (hd x h)
  refine ⟨fun x => if h : IsDouble x then f x h else [], fun x => if h : IsDouble x then d x h else 'x' :: g x, k,
    ⟨fun x hx => ?_, fun x hx => ?_, fun n x _ => hk n x⟩, fun a b hab => ?_, fun a hp => ?_⟩
  · simp only [hx, dif_pos]; exact hf x hx
  · simp only [hx, dif_pos]; exact hd x hx
  · simp only at hab
    by_cases ha : IsDouble a <;> by_cases hb : IsDouble b
    · simp only [ha, hb, dif_pos] at hab
      have := hbk a ha
      rw [hab, hbk b hb] at this
      exact (Option.some.inj this).symm
    · simp only [ha, hb, dif_pos, dif_neg, not_false_iff] at hab
      have := hbk a ha
      rw [hab, hno] at this
      cases this
    · simp only [ha, hb, dif_pos, dif_neg, not_false_iff] at hab
      have := hbk b hb
      rw [← hab, hno] at this
      cases this
    · simp only [ha, hb, dif_neg, not_false_iff, List.cons.injEq, true_and] at hab
      exact hg.inj a b hab
  · simp only at hp
    by_cases ha : IsDouble a
    · simp only [ha, dif_pos] at hp
      rcases debug_chars ha (hd a ha) ')' hp with h | h
      · exact absurd h (by decide)
      · exact absurd h (by decide)
    · simp only [ha, dif_neg, not_false_iff, List.mem_cons] at hp
      rcases hp with h | h
      · exact absurd h (by decide)
      · exact hg.paren a h

/-! ### Reading back -/

/-- The text of a number, short or long form, is read as that number: no digit is lost. This holds of every double, NaN and the infinities too. -/
theorem C137_back (X : Ext) (hX : Std X) (x : F64) (hx : IsDouble x) :
    F64.parse (X.fmt x) = some x ∧ F64.parse (X.dbgNum x) = some x :=
  ⟨display_back hx (hX.display x hx), debug_back hx (hX.debug x hx)⟩

/-- `x::String::Float` is `x`, and `x::String::Currency` is the amount `x`. -/
theorem C137_cast (X : Ext) (hX : Std X) (x : F64) (hx : IsDouble x) :
    ∃ t, castTo X (.num x) .string = .ok t ∧ castTo X t .float = .ok (.num x) ∧ castTo X t .currency = .ok (.cur x) :=
  C73_text_round_trip X x (C137_back X hX x hx).1

theorem numChar_space {c : Char} (h : NumChar c) : Str.isWs c = false := by
  rcases h with ⟨h1, h2⟩ | h
  · have h1' : 48 ≤ c.toNat := h1
    have h2' : c.toNat ≤ 57 := h2
    obtain ⟨n, hn⟩ : ∃ n, c.toNat = n := ⟨_, rfl⟩
    have hc : c = Char.ofNat n := by rw [← hn, Char.ofNat_toNat]
    rw [hn] at h1' h2'
    rw [hc]
    interval_cases n <;> decide
  · revert c; decide

theorem trim_none {p : Char → Bool} {s : Str} (h : ∀ c ∈ s, p c = false) : Str.trim p s = s := by
  have go : ∀ s : Str, (∀ c ∈ s, p c = false) → s.dropWhile p = s := by
    intro s h
    cases s with
    | nil => rfl
    | cons c s => rw [List.dropWhile_cons, h c (by simp)]; rfl
  unfold Str.trim
  rw [go s h]
  simp only [go s.reverse fun c hc => h c (List.mem_reverse.1 hc), List.reverse_reverse]

theorem parseOrZero_text {t : Str} (h : ∀ c ∈ t, NumChar c) {x : F64} (hp : F64.parse t = some x) : Method.parseOrZero t = x := by
  unfold Method.parseOrZero
  rw [trim_none fun c hc => numChar_space (h c hc), hp]; rfl

theorem near_whole {n : ℕ} {i : ℤ} (h : |(n : ℚ) - abs (i : ℚ)| ≤ 1 / 2) : n = i.natAbs := by
  have h1 : |(i : ℚ)| = ((i.natAbs : ℤ) : ℚ) := by rw [Int.natCast_natAbs]; push_cast; rfl
  rw [h1] at h
  have h2 : |(((n : ℤ) - (i.natAbs : ℤ) : ℤ) : ℚ)| < 1 := by
    push_cast at h ⊢
    linarith
  have h3 : |(n : ℤ) - (i.natAbs : ℤ)| < 1 := by exact_mod_cast h2
  have := Int.abs_lt_one_iff.1 h3
  omega

/-- A whole number written with no decimals. -/
theorem fixed_whole {q : ℚ} {i : ℤ} (hq : q = i) {t : Str} (h : IsFixed 0 (.fin q) t) : t = Str.showInt i := by
  obtain ⟨n, hn, rfl⟩ := h
  have he : n = i.natAbs := near_whole (by rw [hq, pow_zero, mul_one] at hn; exact hn)
  have hf : fixed 0 n = Nat.toDigits 10 n := rfl
  rw [hf]
  cases i with
  | ofNat k =>
    have hk : n = k := by rw [he]; rfl
    have : ¬ q < 0 := by rw [hq]; simp
    rw [showInt_of_nat, hk, decide_eq_false this]; rfl
  | negSucc k =>
    have hk : n = k + 1 := by rw [he]; rfl
    have : q < 0 := by rw [hq]; exact_mod_cast Int.negSucc_lt_zero k
    rw [showInt_of_neg, hk, decide_eq_true this]; rfl

/-- `:x.to_s().to_f()` is `x`. (`to_s` writes whole numbers without decimals, others in the short form.) -/
theorem C137_to_s (X : Ext) (hX : Std X) (x : F64) (hx : IsDouble x) :
    ∃ t, meth0 X (.num x) c!"to_s" = .ok (.str t) ∧ F64.parse t = some x ∧ meth0 X (.str t) c!"to_f" = .ok (.num x) := by
  have hm : ∀ v, meth0 X v c!"to_s" = .ok (.str (Method.toText X v)) := fun v => by rw [meth0_eq, exec_to_s]
  have hm' : ∀ v, meth0 X v c!"to_f" = .ok (.num (Method.toFloat v)) := fun v => by rw [meth0_eq, exec_to_f]
  refine ⟨_, hm _, ?_⟩
  suffices h : (∀ c ∈ Method.toText X (.num x), NumChar c) ∧ F64.parse (Method.toText X (.num x)) = some x by
    refine ⟨h.2, ?_⟩
    rw [hm', Method.toFloat, parseOrZero_text h.1 h.2]
  simp only [Method.toText]
  split
  · rename_i hf
    have hfix := hX.fix 0 x hx
    refine ⟨fixed_text_chars hfix, ?_⟩
    cases x with
    | nan => rw [hfix]; exact parse_nan
    | inf b => rw [hfix]; exact parse_inf b
    | zero b => rw [hfix, parse_fixed]; simp [dec, signed]
    | fin q =>
      obtain ⟨i, _, hi⟩ := integer_of_fract hx rfl hf
      simp only [F64.toRat] at hi
      obtain ⟨n, hn, he⟩ := hfix
      rw [he, parse_fixed]
      have h1 : |q| = n := by
        have hw : n = i.natAbs := near_whole (by rw [hi, pow_zero, mul_one] at hn; exact hn)
        rw [hw, hi, Nat.cast_natAbs]
        push_cast; rfl
      have hd : dec n (-(0 : ℕ)) = |q| := by rw [h1]; simp [dec]
      have := signed_back hx.1 (m := n) (e := -(0 : ℕ)) (by rw [hd]; exact rounded_exact (abs_pos.2 hx.1) (isBin64_abs hx.2))
      rw [this]
  · exact ⟨display_chars hx (hX.display x hx), (C137_back X hX x hx).1⟩

/-! ### Whole numbers -/

/-- `to_s` writes a whole number of any size with all its digits and nothing else. -/
theorem C137_whole (X : Ext) (hX : Std X) (x : F64) (hx : IsDouble x) (i : ℤ) (h : HasValue x i) (hz : x ≠ .zero true) :
    meth0 X (.num x) c!"to_s" = .ok (.str (Str.showInt i)) := by
  have hm : ∀ v, meth0 X v c!"to_s" = .ok (.str (Method.toText X v)) := fun v => by rw [meth0_eq, exec_to_s]
  rw [hm]
  congr 2
  cases x with
  | nan => cases h
  | inf b => cases h
  | zero b =>
    cases b with
    | true => exact absurd rfl hz
    | false =>
      have hi : i = 0 := by
          have h' : (i : ℚ) = 0 := h
          exact_mod_cast h'
      simp only [Method.toText]
      rw [if_pos (by decide), hi, hX.fix 0 (.zero false) trivial]
      decide
  | fin q =>
    have hq : q = i := h
    have hf : F64.feq (F64.fin q).fract (.zero false) = true := by
      have ht : F64.truncRat q = i := by
        rw [hq]; unfold F64.truncRat
        split
        · simp
        · have : (-(i : ℚ)).floor = -i := by rw [← Int.cast_neg]; exact Rat.floor_intCast _
          rw [this, neg_neg]
      have hi0 : i ≠ 0 := by rintro rfl; exact hx.1 (by simpa using hq)
      simp only [F64.fract, F64.trunc, ht, F64.ofRounded, if_neg hi0, F64.sub, F64.neg, F64.add]
      rw [hq]
      simp [F64.round, F64.feq, F64.toRat]
    simp only [Method.toText]
    rw [if_pos hf]
    exact fixed_whole hq (hX.fix 0 _ hx)

theorem digits_mul (m n : ℕ) (hm : 0 < m) : digits m ++ zeros n = digits (m * 10 ^ n) := by
  have h1 : JsonText.Spec.IntPart (digits m ++ zeros n) := ⟨⟨by simp [(digits_ok m).1], fun c hc =>
    (List.mem_append.1 hc).elim ((digits_ok m).2 c) (zeros_digits n c)⟩, fun h => absurd (by
      rw [List.head?_append_of_ne_nil _ (digits_ok m).1] at h; exact h) (digits_pos hm)⟩
  have h2 := JsonText.toDigits_digitsVal h1
  have h3 : F64.digitsVal (digits m ++ zeros n) = m * 10 ^ n := by
    rw [digitsVal_append, digitsVal_zeros, digitsVal_digits]; simp [zeros]
  rw [← h2]
  exact congrArg digits h3

/-- The shortest decimal number for a whole number below 2^53 is that number. -/
theorem shortest_whole {N : ℕ} (hN : N < 2 ^ 53) (h0 : 0 < N) {m : ℕ} {e : ℤ} (h : Shortest (N : ℚ) m e) : 0 ≤ e ∧ dec m e = N := by
  have hN0 : (0 : ℚ) < N := by exact_mod_cast h0
  have bin : ∀ k : ℕ, k ≤ 2 ^ 53 → IsBin64 (k : ℚ) := by
    intro k hk
    rcases hk.lt_or_eq with hk | hk
    · exact ⟨k, 0, by rw [abs_of_nonneg (by positivity)]; exact_mod_cast hk, by norm_num, by norm_num, by simp⟩
    · exact ⟨1, 53, by norm_num, by norm_num, by norm_num, by rw [hk]; norm_num⟩
  have hb := bin N hN.le
  have hNr : IsRounded (dec N 0) (.fin (N : ℚ)) := by
    have : dec N 0 = N := by simp [dec]
    rw [this]; exact rounded_exact hN0 hb
  have hp := rounded_pos hN0 h.back
  have hm : 0 < m := by
    rcases Nat.eq_zero_or_pos m with h' | h'
    · rw [h'] at hp; simp [dec] at hp
    · exact h'
  -- no more than a half away
  have half : |dec m e - N| ≤ 1 / 2 := by
    obtain ⟨_, _, _, h4, _⟩ := h.back
    have a1 := h4 ((N + 1 : ℕ) : ℚ) (bin _ hN)
    have a2 := h4 ((N - 1 : ℕ) : ℚ) (bin _ (by omega))
    push_cast [Nat.cast_sub (show 1 ≤ N from h0)] at a1 a2
    rcases le_total (dec m e) N with hc | hc
    · rw [abs_of_nonpos (by linarith)] at a2 ⊢
      rcases abs_cases (dec m e - (N - 1)) with ⟨h5, _⟩ | ⟨h5, _⟩ <;> rw [h5] at a2 <;> linarith
    · rw [abs_of_nonneg (by linarith)] at a1 ⊢
      rcases abs_cases (dec m e - (N + 1)) with ⟨h5, _⟩ | ⟨h5, _⟩ <;> rw [h5] at a1 <;> linarith
  have val : dec m e = N := by
    by_cases hd : ∀ n, m < 10 ^ n → N < 10 ^ n
    · have := h.near N 0 hNr hd
      have hz : dec N 0 - N = 0 := by simp [dec]
      rw [hz, abs_zero] at this
      have := abs_nonpos_iff.1 this
      linarith
    · push Not at hd
      obtain ⟨n, h1, h2⟩ := hd
      rcases le_or_gt 0 e with he | he
      · obtain ⟨k, rfl⟩ := Int.eq_ofNat_of_zero_le he
        have hi : dec m (k : ℤ) = ((m * 10 ^ k : ℕ) : ℚ) := by simp [dec]
        rw [hi] at half ⊢
        have h3 : |(((m * 10 ^ k : ℕ) : ℤ) - (N : ℤ) : ℤ)| < 1 := by
          have : |((((m * 10 ^ k : ℕ) : ℤ) - (N : ℤ) : ℤ) : ℚ)| < 1 := by push_cast at half ⊢; linarith
          exact_mod_cast this
        have := Int.abs_lt_one_iff.1 h3
        have h4 : m * 10 ^ k = N := by omega
        exact_mod_cast h4
      · exfalso
        have h3 : (10 : ℚ) ^ e ≤ 1 / 10 := by
          have : (10 : ℚ) ^ e ≤ 10 ^ (-1 : ℤ) := zpow_le_zpow_right₀ (by norm_num) (by omega)
          simpa using this
        have h4 : (m : ℚ) < N := by exact_mod_cast h1.trans_le h2
        have h5 : dec m e ≤ m * (1 / 10) := mul_le_mul_of_nonneg_left h3 (by positivity)
        have h6 : (1 : ℚ) ≤ N := by exact_mod_cast h0
        have := (abs_le.1 half).1
        linarith
  refine ⟨?_, val⟩
  by_contra he
  obtain ⟨k, hk⟩ := Int.eq_ofNat_of_zero_le (show 0 ≤ -e by omega)
  have hk' : e = -(k : ℤ) := by omega
  have hmk : m = N * 10 ^ k := by
    rw [hk', dec, zpow_neg, zpow_natCast] at val
    field_simp at val
    rw [mul_comm]
    exact_mod_cast val
  -- with as many digits as N has, m would be too large
  obtain ⟨n, hn1, hn2⟩ : ∃ n, N < 10 ^ (n + 1) ∧ 10 ^ n ≤ N := ⟨Nat.log 10 N, Nat.lt_pow_succ_log_self (by norm_num) _, Nat.pow_log_le_self 10 h0.ne'⟩
  have := h.short N 0 (n + 1) hNr hn1
  have hk1 : 10 ≤ 10 ^ k := Nat.le_self_pow (by omega) 10
  have : 10 ^ (n + 1) ≤ m := by
    rw [hmk, pow_succ]
    exact Nat.mul_le_mul hn2 hk1
  omega

/-- A whole number below 2^53 in magnitude is written with its digits and nothing else also by a cast to a text, and wherever else the short form is used (concatenation, `JOIN`). -/
theorem C137_small_whole (X : Ext) (hX : Std X) (x : F64) (hx : IsDouble x) (i : ℤ) (h : HasValue x i) (hi : |i| < 2 ^ 53) (hz : x ≠ .zero true) :
    X.fmt x = Str.showInt i ∧ castTo X (.num x) .string = .ok (.str (Str.showInt i)) := by
  have key : X.fmt x = Str.showInt i := by
    have hd := hX.display x hx
    cases x with
    | nan => cases h
    | inf b => cases h
    | zero b =>
      cases b with
      | true => exact absurd rfl hz
      | false =>
        have hi : i = 0 := by
          have h' : (i : ℚ) = 0 := h
          exact_mod_cast h'
        rw [hd, hi]; decide
    | fin q =>
      have hq : q = i := h
      obtain ⟨m, e, hs, he⟩ := hd
      have hpos := shortest_pos hx.1 hs
      have habs : |q| = ((i.natAbs : ℕ) : ℚ) := by rw [hq, Nat.cast_natAbs]; push_cast; rfl
      rw [habs] at hs
      have hi0 : i ≠ 0 := by rintro rfl; exact hx.1 (by simpa using hq)
      obtain ⟨h1, h2⟩ := shortest_whole (by have := abs_lt.1 hi; omega) (by omega) hs
      obtain ⟨k, rfl⟩ := Int.eq_ofNat_of_zero_le h1
      have h3 : m * 10 ^ k = i.natAbs := by
        have : ((m * 10 ^ k : ℕ) : ℚ) = (i.natAbs : ℕ) := by rw [← h2]; simp [dec]
        exact_mod_cast this
      rw [he, plain, if_pos h1, Int.toNat_natCast, List.append_nil, digits_mul _ _ hpos, h3]
      cases i with
      | ofNat k =>
        have : ¬ q < 0 := by rw [hq]; simp
        rw [showInt_of_nat, decide_eq_false this]; rfl
      | negSucc k =>
        have : q < 0 := by rw [hq]; exact_mod_cast Int.negSucc_lt_zero k
        rw [showInt_of_neg, decide_eq_true this]; rfl
  exact ⟨key, by rw [castTo_eq]; simp [castValue, key]⟩

/-! ### Texts in expressions and on the command line -/

theorem frac_value (ds fs : Str) : dec (F64.digitsVal (ds ++ fs)) (-fs.length) = Spec.natOf ds + Spec.natOf fs / 10 ^ fs.length := by
  rw [Lx.digitsVal_eq, Lx.natOf_append, dec, zpow_neg, zpow_natCast]
  push_cast
  field_simp

theorem numeral_plain {m : ℕ} (hm : 0 < m) (e : ℤ) : Numeral (plain [] m e) (dec m e) := by
  obtain ⟨ds, f, fs, h, hi, hf, _, _, hv⟩ := plain_form (.inl rfl) hm e
  rw [h, hv, frac_value]
  cases hf with
  | none =>
    have := Numeral.int ds hi.1.1 hi.1.2
    simpa [natOf] using this
  | some hs => exact .dec ds fs (.inl hi.1.1) hi.1.2 hs

theorem eval_numeral (X : Ext) {s : Str} {v : ℚ} (h : Numeral s v) {y : F64} (hy : Denotes v y) :
    evaluate X s = .ok (.num y) ∧ evaluate X ('-' :: s) = .ok (.num y.neg) := by
  constructor
  · obtain ⟨y', h1, h2⟩ := C06_numeric_literals X s v h
    rw [h2, C06_denotes_unique v y' y h1 hy]
  · have ht : ProgText (.un .minus (.num y)) [] ('-' :: s) := by
      have h1 : ProgText (.num y) [] s := progText_one (by rw [Src.toks]) (.number h hy)
      have h2 := Spells.tok (ws := []) (s := c!"-") (r := s) (by simp [Blank]) (.symbol (t := .minus) (by simp [symbols])) (by simp [NoGlue]) h1
      exact h2
    have hp : parse ('-' :: s) = .ok (.unary .minus (.number y)) := C03_print_parse _ [] _ ht
    unfold evaluate
    rw [hp]
    rfl

/-- The text of a finite number, written in an expression, is that number. -/
theorem C137_literal (X : Ext) (hX : Std X) (x : F64) (hx : IsDouble x) (hf : x.isFinite = true) : evaluate X (X.fmt x) = .ok (.num x) := by
  have hd := hX.display x hx
  cases x with
  | nan => cases hf
  | inf b => cases hf
  | zero b =>
    rw [hd]
    have := eval_numeral X (s := c!"0") (v := 0) (by simpa [natOf] using Numeral.int c!"0" (by simp) (by intro c hc; simp at hc; subst hc; decide))
      (y := .zero false) (by simp [Denotes])
    cases b with
    | true => exact this.2
    | false => exact this.1
  | fin q =>
    obtain ⟨m, e, hs, he⟩ := hd
    have hm := shortest_pos hx.1 hs
    have hp := rounded_pos (abs_pos.2 hx.1) hs.back
    have := eval_numeral X (numeral_plain hm e) (y := .fin |q|) (by unfold Denotes; rw [if_neg hp.ne']; exact hs.back)
    rw [he]
    by_cases hn : q < 0
    · rw [decide_eq_true hn]
      refine this.2.trans ?_
      rw [F64.neg, abs_of_neg hn, neg_neg]
    · rw [decide_eq_false hn]
      refine this.1.trans ?_
      rw [abs_of_nonneg (not_lt.1 hn)]

theorem numChar_low {c : Char} (h : NumChar c) : Str.isAscii c = true ∧ Str.asciiLowC c ≠ 't' ∧ Str.asciiLowC c ≠ 'l' ∧ c ≠ '"' ∧ c ≠ '\'' ∧ c ≠ '[' := by
  rcases h with ⟨h1, h2⟩ | h
  · have h1' : 48 ≤ c.toNat := h1
    have h2' : c.toNat ≤ 57 := h2
    obtain ⟨n, hn⟩ : ∃ n, c.toNat = n := ⟨_, rfl⟩
    have hc : c = Char.ofNat n := by rw [← hn, Char.ofNat_toNat]
    rw [hn] at h1' h2'
    rw [hc]
    interval_cases n <;> decide
  · revert c; decide

/-- The text of a number, given to `sk` as the value of a variable, is that number. -/
theorem C137_variable (X : Ext) (hX : Std X) (x : F64) (hx : IsDouble x) :
    Cli.parseValue X (X.fmt x) = .ok (.num x) ∧ Cli.parseValue X (X.dbgNum x) = .ok (.num x) := by
  have key : ∀ t : Str, (∀ c ∈ t, NumChar c) → F64.parse t = some x → Cli.parseValue X t = .ok (.num x) := by
    intro t ht hp
    have hs : ∀ c : Char, (c = '"' ∨ c = '\'' ∨ c = '[') → Str.startsWith t [c] = false := by
      intro c hc
      cases t with
      | nil => rfl
      | cons d t =>
        have := numChar_low (ht d (by simp))
        cases hb : Str.startsWith (d :: t) [c] with
        | false => rfl
        | true =>
          have hcd : d = c := by simpa [Str.startsWith] using hb
          rw [hcd] at this
          rcases hc with h | h | h
          · exact absurd h this.2.2.2.1
          · exact absurd h this.2.2.2.2.1
          · exact absurd h this.2.2.2.2.2
    have hl : X.lower t = t.map Str.asciiLowC := by
      unfold Ext.lower
      rw [if_pos (List.all_eq_true.2 fun c hc => (numChar_low (ht c hc)).1)]
    have hw : ∀ w : Str, ('t' ∈ w ∨ 'l' ∈ w) → X.lower t ≠ w := by
      rintro w hw rfl
      rw [hl] at hw
      rcases hw with h | h <;> obtain ⟨c, hc, he⟩ := List.mem_map.1 h
      · exact (numChar_low (ht c hc)).2.1 he
      · exact (numChar_low (ht c hc)).2.2.1 he
    rw [Cli.parseValue_eq, hs '"' (by simp), hs '\'' (by simp), hs '[' (by simp), if_neg (hw _ (by decide)), if_neg (hw _ (by decide)),
      if_neg (hw _ (by decide)), hp]
    rfl
  obtain ⟨h1, h2⟩ := C137_back X hX x hx
  exact ⟨key _ (display_chars hx (hX.display x hx)) h1, key _ (debug_chars hx (hX.debug x hx)) h2⟩

/-! ### Amounts -/

/-- `t` is written with `k` digits after the point, and is the number `q` to that precision. -/
def NumText.Decimals (k : ℕ) (q : ℚ) (t : Str) : Prop := ∃ (neg : Bool) (ds fs : Str), t = (if neg then c!"-" else []) ++ (ds ++ '.' :: fs) ∧ ds ≠ [] ∧
  Spec.Digits ds ∧ Spec.Digits fs ∧ fs.length = k ∧ |(if neg then -1 else 1) * ((natOf ds : ℚ) + natOf fs / 10 ^ k) - q| ≤ 1 / (2 * 10 ^ k)

theorem decimals_fixed {k : ℕ} (hk : 0 < k) {x : F64} {q : ℚ} (hq : HasValue x q) {t : Str} (h : IsFixed k x t) : Decimals k q t := by
  have key : ∀ (neg : Bool) (n : ℕ), |(if neg then -1 else 1) * dec n (-k) - q| ≤ 1 / (2 * 10 ^ k) → Decimals k q (sign neg ++ fixed k n) := by
    intro neg n hn
    obtain ⟨ds, fs, h1, h2, h3, h4, h5⟩ := fixed_form k n
    refine ⟨neg, ds, fs, by rw [h1, if_neg hk.ne']; rfl, h2.1, h2.2, h3, h4, ?_⟩
    have := frac_value ds fs
    rw [h4, h5] at this
    rw [← this]
    exact hn
  have hp : (0 : ℚ) < 10 ^ k := by positivity
  cases x with
  | nan => cases hq
  | inf b => cases hq
  | zero b =>
    have hq0 : q = 0 := hq
    rw [h]
    refine key b 0 ?_
    rw [hq0]
    have : dec 0 (-k) = 0 := by simp [dec]
    rw [this]
    simp
  | fin p =>
    have hqp : p = q := hq
    subst hqp
    obtain ⟨n, hn, rfl⟩ := h
    refine key _ n ?_
    have hs : (if decide (p < 0) = true then (-1 : ℚ) else 1) * |p| = p := by
      by_cases h : p < 0
      · simp [h, abs_of_neg h]
      · simp [h, abs_of_nonneg (not_lt.1 h)]
    have hs1 : |(if decide (p < 0) = true then (-1 : ℚ) else 1)| = 1 := by split <;> simp
    have e : (if decide (p < 0) = true then (-1 : ℚ) else 1) * dec n (-k) - p =
        (if decide (p < 0) = true then (-1 : ℚ) else 1) * ((n - |p| * 10 ^ k) / 10 ^ k) := by
      generalize (if decide (p < 0) = true then (-1 : ℚ) else 1) = σ at hs
      have : σ * dec n (-k) - p = σ * (dec n (-k) - |p|) := by rw [mul_sub, hs]
      rw [this, dec, zpow_neg, zpow_natCast]
      congr 1
      field_simp
    rw [e, abs_mul, hs1, one_mul, abs_div, abs_of_pos hp]
    rw [div_le_div_iff₀ hp (by positivity)]
    nlinarith

/-- The text of an amount has two digits after the point by `to_s` and four by a cast, and is the amount to that precision. -/
theorem C137_amount (X : Ext) (hX : Std X) (x : F64) (hx : IsDouble x) (q : ℚ) (hq : HasValue x q) :
    (∃ t, meth0 X (.cur x) c!"to_s" = .ok (.str t) ∧ Decimals 2 q t) ∧ ∃ t, castTo X (.cur x) .string = .ok (.str t) ∧ Decimals 4 q t := by
  refine ⟨⟨X.fmtFix 2 x, ?_, decimals_fixed (by norm_num) hq (hX.fix 2 x hx)⟩, X.fmtFix 4 x, ?_, decimals_fixed (by norm_num) hq (hX.fix 4 x hx)⟩
  · rw [meth0_eq, exec_to_s]; rfl
  · rw [castTo_eq]; rfl

/-! ### JSON -/

open JsonText JsonText.Spec in
/-- With correct rounding on the way back, every finite double is written in JSON as a number with a fraction or an exponent that is read as the same double: what `C127` and its
consequences for the wire assume of each number (`FloatBack`) holds of all. -/
theorem C137_json (N : Floats) (hN : JsonStd N) (x : F64) (hx : _root_.Spec.IsDouble x) (hf : x.isFinite = true) : FloatBack N x := by
  have hw := hN.write x hx
  have form : ∀ (neg : Bool) (ds f e : Str), N.write x = sign neg ++ (ds ++ (f ++ e)) → IntPart ds → Fraction f → Exponent e → (f ≠ [] ∨ e ≠ []) →
      F64.parse (N.write x) = some x → FloatBack N x := by
    intro neg ds f e h hi hff he hne hp
    refine ⟨⟨sign neg, ds, f, e, by cases neg <;> simp [sign], hi, hff, he, h⟩, ?_, hN.read _ _ hp hf⟩
    rintro ⟨i, _, hs⟩
    rw [h] at hs
    obtain ⟨h1, h2⟩ := showInt_plain (neg := neg) hff he hs
    exact hne.elim (· h1) (· h2)
  cases x with
  | nan => cases hf
  | inf b => cases hf
  | zero b =>
    refine form b c!"0" c!".0" [] hw ⟨⟨by simp, by intro c hc; simp at hc; subst hc; decide⟩, fun _ => rfl⟩ (.some ⟨by simp, by intro c hc; simp at hc; subst hc; decide⟩)
      .none (by simp) ?_
    rw [hw]
    cases b <;> decide +kernel
  | fin q =>
    obtain ⟨m, e, hs, he⟩ := hw
    have hm := shortest_pos hx.1 hs
    split at he
    · obtain ⟨ds, f, fs, h1, h2, _, h3, h4, _⟩ := plain_form (.inr rfl) hm e
      refine form _ ds f [] (by rw [he, h1, List.append_nil]) h2 h3 .none (.inl (h4 (by simp))) ?_
      rw [he, parse_plain _ (.inr rfl), signed_back hx.1 hs.back]
    · obtain ⟨ds, f, ex, h1, h2, h3, h4, h5⟩ := scientific_form hm e
      refine form _ ds f ex (by rw [he, h1]) h2 h3 h4 (.inr h5) ?_
      rw [he, parse_scientific, signed_back hx.1 hs.back]

/-- There is such a way to write and read. -/
theorem C137_json_exists : ∃ N, JsonStd N := by
  classical
  choose f hf using exists_json
  refine ⟨⟨fun x => if h : IsDouble x then f x h else [], fun t => (F64.parse t).filter F64.isFinite⟩, fun x hx => ?_, fun t x h hx => ?_, fun t x h => ?_⟩
  · simp only [hx, dif_pos]
    exact hf x hx
  · simp [h, hx]
  · exact Option.filter_eq_some_iff.1 h

namespace JsonText
open JsonText.Spec

mutual
theorem val_floats {N : Floats} (hN : JsonStd N) : ∀ {d : Nat} {j : Json} {t : Str}, Val N d j t → ∀ x ∈ doubles j, FloatBack N x
  | _, _, _, .null d => by simp [doubles]
  | _, _, _, .yes d => by simp [doubles]
  | _, _, _, .no d => by simp [doubles]
  | _, _, _, .num d (.int i h) => by simp [doubles]
  | _, _, _, .num d (.float x t _ _ h) => by
    intro y hy
    simp only [doubles, List.mem_singleton] at hy
    subst hy
    obtain ⟨h1, h2⟩ := hN.only t y h
    exact C137_json N hN y (F64.parse_isDouble h1) h2
  | _, _, _, .str d h => by simp [doubles]
  | _, _, _, .arr0 d h => by simp [doubles, doublesItems]
  | _, _, _, .arr h => by rw [doubles]; exact items_floats hN h
  | _, _, _, .obj0 d h => by simp [doubles, doublesMembers]
  | _, _, _, .obj h => by rw [doubles]; exact members_floats hN h
theorem items_floats {N : Floats} (hN : JsonStd N) : ∀ {d : Nat} {js : List Json} {t : Str}, Items N d js t → ∀ x ∈ doublesItems js, FloatBack N x
  | _, _, _, .one _ h _ => by
    intro x hx
    simp only [doublesItems, List.append_nil] at hx
    exact val_floats hN h x hx
  | _, _, _, .cons _ h _ hi => by
    intro x hx
    simp only [doublesItems, List.mem_append] at hx
    exact hx.elim (val_floats hN h x) (items_floats hN hi x)
theorem members_floats {N : Floats} (hN : JsonStd N) : ∀ {d : Nat} {ms : List (Str × Json)} {t : Str}, Members N d ms t → ∀ x ∈ doublesMembers ms, FloatBack N x
  | _, _, _, .one _ _ _ _ h _ => by
    intro x hx
    simp only [doublesMembers, List.append_nil] at hx
    exact val_floats hN h x hx
  | _, _, _, .cons _ _ _ _ h _ hi => by
    intro x hx
    simp only [doublesMembers, List.mem_append] at hx
    exact hx.elim (val_floats hN h x) (members_floats hN hi x)
end

mutual
theorem keeps_doubles : ∀ {j j' : Json}, Keeps j j' → ∀ x ∈ doubles j', x ∈ doubles j
  | _, _, .null => fun _ h => h
  | _, _, .bool _ => fun _ h => h
  | _, _, .num _ => fun _ h => h
  | _, _, .str _ => fun _ h => h
  | _, _, .arr h => by simp only [doubles]; exact keepsItems_doubles h
  | _, _, .obj _ _ h => by simp only [doubles]; exact keepsMembers_doubles h
theorem keepsItems_doubles : ∀ {js js' : List Json}, KeepsItems js js' → ∀ x ∈ doublesItems js', x ∈ doublesItems js
  | _, _, .nil => fun _ h => h
  | _, _, .cons h hs => by
    intro x hx
    simp only [doublesItems, List.mem_append] at hx ⊢
    exact hx.imp (keeps_doubles h x) (keepsItems_doubles hs x)
theorem keepsMembers_doubles : ∀ {ms ms' : List (Str × Json)}, KeepsMembers ms ms' → ∀ x ∈ doublesMembers ms', x ∈ doublesMembers ms
  | _, _, .nil _ => fun _ h => absurd h (by simp [doublesMembers])
  | _, _, .cons hl h hs => by
    intro x hx
    simp only [doublesMembers, List.mem_append] at hx
    rcases hx with hx | hx
    · unfold lastNamed at hl
      obtain ⟨m, hm, rfl⟩ := Option.map_eq_some_iff.1 hl
      exact doubles_member (List.mem_reverse.1 (List.mem_of_find?_eq_some hm)) x (keeps_doubles h x hx)
    · exact keepsMembers_doubles hs x hx
end

end JsonText

open JsonText JsonText.Spec in
/-- A document that has been read is read again when it is written, and is the same, whatever numbers are in it. -/
theorem C137_reread (N : Floats) (hN : JsonStd N) (s : Str) (j : Json) (h : JsonText.parse N s = some j) : JsonText.parse N (print N j) = some j := by
  refine C127_reread N s j h fun x hx => ?_
  obtain ⟨d, ⟨_, _, _, _, _, hv, _⟩, hk⟩ := (C127_reads N _ _).1 h
  exact val_floats hN hv x (keeps_doubles hk x hx)

mutual
theorem plain_numbers : ∀ {v : Value}, Plain v → ∀ x ∈ JsonText.Spec.numbers v, IsDouble x ∧ x.isFinite = true
  | _, .null => by simp [JsonText.Spec.numbers]
  | _, .bool _ => by simp [JsonText.Spec.numbers]
  | _, .num h1 h2 => by simp only [JsonText.Spec.numbers, List.mem_singleton]; rintro x rfl; exact ⟨h1, h2⟩
  | _, .str _ => by simp [JsonText.Spec.numbers]
  | _, .arr h => by simp only [JsonText.Spec.numbers]; exact plainAll_numbers h
theorem plainAll_numbers : ∀ {vs : List Value}, PlainAll vs → ∀ x ∈ JsonText.Spec.numbersAll vs, IsDouble x ∧ x.isFinite = true
  | _, .nil => by simp [JsonText.Spec.numbersAll]
  | _, .cons h hs => by
    intro x hx
    simp only [JsonText.Spec.numbersAll, List.mem_append] at hx
    exact hx.elim (plain_numbers h x) (plainAll_numbers hs x)
end

open JsonText JsonText.Spec in
/-- A value of nulls, booleans, finite numbers, texts and arrays comes unchanged out of an object literal (`{a: :v}.a`) and out of its own JSON text (`DIG(:v.to_json(), [])`), whatever its numbers are, unless it is nested too deeply. -/
theorem C137_documents (X : Ext) (N : Floats) (hu : Uses X N) (hN : JsonStd N) (v : Value) (hv : _root_.Spec.Plain v) :
    (nesting v ≤ 126 → _root_.Spec.throughObject X v = .ok v) ∧ (v ≠ .null → nesting v ≤ 127 → _root_.Spec.throughToJson X v = .ok v) := by
  have hx : ∀ x ∈ numbers v, FloatBack N x := fun x hx => C137_json N hN x (plain_numbers hv x hx).1 (plain_numbers hv x hx).2
  exact ⟨(C127_through_object X N hu v hv hx).1, fun h0 => (C127_through_text X N hu v hv h0 hx).1⟩

/-! ### Different numbers have different texts -/

mutual
theorem dbg_doubles {X : Ext} {d : F64 → Str} (h : ∀ x, IsDouble x → d x = X.dbgNum x) : ∀ v, Doubles v → Ext.dbg { X with dbgNum := d } v = X.dbg v
  | .num x, hv => by simp only [Doubles] at hv; simp only [Ext.dbg, h x hv]
  | .cur x, hv => by simp only [Doubles] at hv; simp only [Ext.dbg, h x hv]
  | .arr vs, hv => by simp only [Doubles] at hv; simp only [Ext.dbg, dbgItems_doubles h vs hv]
  | .bool _, _ => by simp only [Ext.dbg]
  | .str _, _ => by simp only [Ext.dbg]; rfl
  | .null, _ => by simp only [Ext.dbg]
  | .dt _, _ => by simp only [Ext.dbg]
  | .json _, _ => by simp only [Ext.dbg]; rfl
theorem dbgItems_doubles {X : Ext} {d : F64 → Str} (h : ∀ x, IsDouble x → d x = X.dbgNum x) : ∀ vs, DoublesAll vs → Ext.dbgItems { X with dbgNum := d } vs = X.dbgItems vs
  | [], _ => by simp only [Ext.dbgItems]
  | v :: vs, hv => by simp only [DoublesAll] at hv; simp only [Ext.dbgItems, dbg_doubles h v hv.1, dbgRest_doubles h vs hv.2]
theorem dbgRest_doubles {X : Ext} {d : F64 → Str} (h : ∀ x, IsDouble x → d x = X.dbgNum x) : ∀ vs, DoublesAll vs → Ext.dbgRest { X with dbgNum := d } vs = X.dbgRest vs
  | [], _ => by simp only [Ext.dbgRest]
  | v :: vs, hv => by simp only [DoublesAll] at hv; simp only [Ext.dbgRest, dbg_doubles h v hv.1, dbgRest_doubles h vs hv.2]
end

theorem doublesAll_iff {vs : List Value} : DoublesAll vs ↔ ∀ v ∈ vs, Doubles v := by
  induction vs with
  | nil => simp [DoublesAll]
  | cons v vs ih => simp [DoublesAll, ih]

/-- Extend the debug text to what is no double, keeping texts apart. -/
theorem exists_apart {X : Ext} (hX : Std X) : ∃ d, NumbersApart { X with dbgNum := d } ∧ ∀ x, IsDouble x → d x = X.dbgNum x := by
  classical
  obtain ⟨g, hg, _⟩ := exists_numbersApart X
  have hno : ∀ s, F64.parse ('x' :: s) = none := by
    intro s
    have h : F64.takeSign ('x' :: s) = (false, 'x' :: s) := rfl
    simp only [F64.parse, h]
    simp [Str.eqIgnoreCase, Str.asciiLowC, F64.isDigit]
  have hbk : ∀ x, IsDouble x → F64.parse (X.dbgNum x) = some x := fun x h => debug_back h (hX.debug x h)
  refine ⟨fun x => if IsDouble x then X.dbgNum x else 'x' :: g x, ⟨fun a b hab => ?_, fun a hp => ?_⟩, fun x hx => if_pos hx⟩
  · simp only at hab
    by_cases ha : IsDouble a <;> by_cases hb : IsDouble b
    · rw [if_pos ha, if_pos hb] at hab
      have := hbk a ha
      rw [hab, hbk b hb] at this
      exact (Option.some.inj this).symm
    · rw [if_pos ha, if_neg hb] at hab
      have := hbk a ha
      rw [hab, hno] at this
      cases this
    · rw [if_neg ha, if_pos hb] at hab
      have := hbk b hb
      rw [← hab, hno] at this
      cases this
    · rw [if_neg ha, if_neg hb, List.cons.injEq] at hab
      exact hg.inj a b hab.2
  · simp only at hp
    by_cases ha : IsDouble a
    · rw [if_pos ha] at hp
      rcases debug_chars ha (hX.debug a ha) ')' hp with h | h
      · exact absurd h (by decide)
      · exact absurd h (by decide)
    · rw [if_neg ha, List.mem_cons] at hp
      rcases hp with h | h
      · exact absurd h (by decide)
      · exact hg.paren a h

/-- What `sk` prints for a value (the debug text) determines the value. -/
theorem C137_apart (X : Ext) (hX : Std X) (v w : Value) (hv : Doubles v) (hw : Doubles w) (h : Cli.plainOutput X v = Cli.plainOutput X w) : v = w := by
  obtain ⟨d, h1, h2⟩ := exists_apart hX
  refine dbg_inj h1 ?_
  rw [dbg_doubles h2 v hv, dbg_doubles h2 w hw]
  exact List.append_cancel_right h

/-- `.unique()` keeps the first occurrence of each element. -/
theorem C137_unique (X : Ext) (hX : Std X) (items : List Value) (hd : Doubles (.arr items)) :
    ∃ ys, meth0 X (.arr items) c!"unique" = .ok (.arr ys) ∧ FirstOccurrences items ys ∧ meth0 X (.arr ys) c!"unique" = .ok (.arr ys) := by
  have e : ∀ l, meth0 X (.arr l) c!"unique" = .ok (.arr (uniqBy X.dbg [] l)) := by
    intro l; rw [meth0_eq, ← method_uniqueLoop_eq]; rfl
  simp only [Doubles] at hd
  rw [doublesAll_iff] at hd
  have hinj : ∀ v ∈ items, ∀ w ∈ items, X.dbg v = X.dbg w → v = w := fun v hv w hw h =>
    C137_apart X hX v w (hd v hv) (hd w hw) (by unfold Cli.plainOutput; rw [h])
  have h1 := uniqBy_first X.dbg items hinj
  refine ⟨_, e items, h1, ?_⟩
  rw [e]
  have hsub := (C29_first_occurrences h1).2
  have h2 := uniqBy_first X.dbg (uniqBy X.dbg [] items) fun v hv w hw => hinj v ((hsub v).1 hv) w ((hsub w).1 hw)
  rw [firstOccurrences_unique h2 (firstOccurrences_self (C29_first_occurrences h1).1)]

open HttpCache in
/-- Requests with the same cache key ask for the same expression with the same variables, if no expression contains `|` and no name `:`. -/
theorem C137_keys (X : Ext) (hX : Std X) (e1 e2 : Str) (vs ws : Vars) (h1 : '|' ∉ e1) (h2 : '|' ∉ e2) (hv : ∀ p ∈ vs, ':' ∉ p.1 ∧ Doubles p.2)
    (hw : ∀ p ∈ ws, ':' ∉ p.1 ∧ Doubles p.2) (hn : (vs.map (·.1)).Nodup) (h : key X e1 vs = key X e2 ws) : e1 = e2 ∧ envOf vs = envOf ws := by
  obtain ⟨d, a1, a2⟩ := exists_apart hX
  have hk : ∀ (e : Str) (us : Vars), (∀ p ∈ us, ':' ∉ p.1 ∧ Doubles p.2) → key { X with dbgNum := d } e us = key X e us := by
    intro e us hu
    have : (us.map fun p => p.1 ++ ':' :: Ext.dbg { X with dbgNum := d } p.2) = us.map fun p => p.1 ++ ':' :: X.dbg p.2 :=
      List.map_congr_left fun p hp => by rw [dbg_doubles a2 p.2 (hu p hp).2]
    unfold key
    rw [this]
  exact C53_injective_partial { X with dbgNum := d } a1 e1 e2 vs ws h1 h2 (fun p hp => (hv p hp).1) (fun p hp => (hw p hp).1) hn (by rw [hk _ _ hv, hk _ _ hw, h])

/-! ### Cases -/

/-- Minus zero is a whole number, but is not written `0`. -/
theorem C137_minus_zero (X : Ext) (hX : Std X) : ∃ x, evaluate X c!"0 * -1" = .ok (.num x) ∧ HasValue x 0 ∧ meth0 X (.num x) c!"to_s" = .ok (.str c!"-0") := by
  refine ⟨.zero true, by kernel_rfl, rfl, ?_⟩
  rw [meth0_eq, exec_to_s]
  simp only [Method.toText]
  rw [if_pos (by decide), hX.fix 0 (.zero true) trivial]
  congr 2

/-- There are external functions as assumed. -/
example (X : Ext) : ∃ Y : Ext, Std Y := (C137_exists X).elim fun _ ⟨_, _, h⟩ => ⟨_, h.1⟩

example : IsDouble tenth ∧ tenth.isFinite = true := ⟨⟨by norm_num, 3602879701896397, -55, by norm_num, by norm_num, by norm_num, by norm_num⟩, rfl⟩

example : IsDouble (.fin (2 ^ 70)) ∧ HasValue (.fin (2 ^ 70)) ((2 ^ 70 : ℤ) : ℚ) :=
  ⟨⟨by norm_num, 1, 70, by norm_num, by norm_num, by norm_num, by norm_num⟩, by show (2 : ℚ) ^ 70 = _; norm_num⟩

example : Decimals 2 (1234567 / 1000) c!"1234.57" := ⟨false, c!"1234", c!"57", rfl, by simp, by unfold Digits; decide,
  by unfold Digits; decide, rfl, by
    have h1 : natOf c!"1234" = 1234 := by decide
    have h2 : natOf c!"57" = 57 := by decide
    rw [h1, h2]; norm_num⟩

example : Doubles (.arr [.num tenth, .str c!"a", .num tenth]) := by
  simp only [Doubles, DoublesAll, and_true, true_and, and_self]
  exact ⟨by norm_num, 3602879701896397, -55, by norm_num, by norm_num, by norm_num, by norm_num⟩

/-- `0.1` is written `0.1`, and `0.1 + 0.2` is written `0.30000000000000004`. -/
theorem C137_tenth (X : Ext) (hX : Std X) : X.fmt tenth = c!"0.1" ∧
    ∃ v, evaluate X c!"0.1 + 0.2" = .ok (.num v) ∧ castTo X (.num v) .string = .ok (.str c!"0.30000000000000004") := by
  have text : ∀ (q : ℚ) (p : ℤ) (n m : ℕ) (e : ℤ) (lo : ℕ), 0 < q → IsBin64 q → Only q p n m e lo → X.fmt (.fin q) = plain [] m e := by
    intro q p n m e lo h0 hb ho
    obtain ⟨m', e', hs, he⟩ := hX.display (.fin q) ⟨h0.ne', hb⟩
    rw [abs_of_pos h0] at hs
    obtain ⟨rfl, rfl⟩ := shortest_only h0 ho hs
    rw [he, decide_eq_false (not_lt.2 h0.le)]
    rfl
  constructor
  · rw [tenth, text _ 0 1 1 (-1) 1 (by norm_num) ⟨3602879701896397, -55, by norm_num, by norm_num, by norm_num, by norm_num⟩
      { pos := by norm_num
        place := by norm_num
        size := by norm_num
        back := by norm_num [dec]; decide +kernel
        grid := by norm_num [dec]
        fewer := by norm_num }]
    decide
  · refine ⟨.fin (1351079888211149 / 4503599627370496), by kernel_rfl, ?_⟩
    rw [castTo_eq]
    simp only [castValue]
    rw [text _ 0 17 30000000000000004 (-17) 30000000000000004 (by norm_num)
      ⟨5404319552844596, -54, by norm_num, by norm_num, by norm_num, by norm_num⟩
      { pos := by norm_num
        place := by norm_num
        size := by norm_num
        back := by norm_num [dec]; decide +kernel
        grid := by norm_num [dec]
        fewer := by
          intro _
          refine ⟨3000000000000000, by norm_num [dec], by norm_num [dec]; decide +kernel, by norm_num [dec]; decide +kernel⟩ }]
    exact congrArg (fun t => Except.ok (Value.str t)) (by decide +kernel)
