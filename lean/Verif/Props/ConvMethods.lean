import Verif.Props.Predicates
import Verif.Props.Conversions
/-! C79: the conversion methods. -/

open Lib Spec

theorem conv_to_s (X : Ext) (v : Value) : meth0 X v c!"to_s" = .ok (.str (Method.toText X v)) ∧ meth0 X v c!"to_string" = .ok (.str (Method.toText X v)) :=
  ⟨by kernel_rfl, by kernel_rfl⟩
theorem conv_to_i (X : Ext) (v : Value) : meth0 X v c!"to_i" = .ok (.num (Method.toInt v)) ∧ meth0 X v c!"to_int" = .ok (.num (Method.toInt v)) :=
  ⟨by kernel_rfl, by kernel_rfl⟩
theorem conv_to_f (X : Ext) (v : Value) : meth0 X v c!"to_f" = .ok (.num (Method.toFloat v)) ∧ meth0 X v c!"to_float" = .ok (.num (Method.toFloat v)) :=
  ⟨by kernel_rfl, by kernel_rfl⟩
theorem conv_to_a (X : Ext) (v : Value) : meth0 X v c!"to_a" = .ok (.arr (Method.toArray v)) ∧ meth0 X v c!"to_array" = .ok (.arr (Method.toArray v)) :=
  ⟨by kernel_rfl, by kernel_rfl⟩
theorem conv_to_bool (X : Ext) (v : Value) :
    meth0 X v c!"to_bool" = .ok (.bool (Method.toBoolean v)) ∧ meth0 X v c!"to_boolean" = .ok (.bool (Method.toBoolean v)) :=
  ⟨by kernel_rfl, by kernel_rfl⟩

theorem trunc_trunc (x : F64) : x.trunc.trunc = x.trunc := by
  cases x with
  | fin q =>
    show (F64.ofRounded _ _).trunc = F64.ofRounded _ _
    unfold F64.ofRounded
    split
    · rfl
    · rename_i h
      show F64.ofRounded _ (F64.truncRat ((F64.truncRat q : ℤ) : ℚ)) = _
      rw [truncRat_int, F64.ofRounded, if_neg h]
  | _ => rfl

theorem trunc_int {k : ℤ} (hk : k ≠ 0) : (F64.fin (k : ℚ)).trunc = .fin k := by
  show F64.ofRounded _ (F64.truncRat (k : ℚ)) = _
  rw [truncRat_int, F64.ofRounded, if_neg hk]

theorem trunc_ofInt (i : ℤ) : (F64.ofInt i).trunc = F64.ofInt i := by
  by_cases hs : |i| ≤ 2 ^ 53
  · rw [F64.ofInt_exact i hs]
    unfold F64.ofIntExact
    split
    · rfl
    · rename_i h; exact trunc_int h
  have b53 : IsBin64 (2 ^ 53) := ⟨1, 53, by norm_num, by norm_num, by norm_num, by norm_num⟩
  have hi2 : (2 : ℚ) ^ 53 ≤ |(i : ℚ)| := by exact_mod_cast (not_le.1 hs).le
  have hi0 : (i : ℚ) ≠ 0 := by intro h0; rw [h0] at hi2; norm_num at hi2
  have hr := F64.round_isRounded hi0 false
  unfold F64.ofInt
  cases hx : F64.round (i : ℚ) false with
  | nan => rfl
  | zero s => rfl
  | inf s => rfl
  | fin v =>
    rw [hx] at hr
    have hv : 2 ^ 53 ≤ |v| := by
      rcases abs_cases (i : ℚ) with ⟨ha, -⟩ | ⟨ha, -⟩
      · have := F64.le_key_round b53 (by linarith : (2 : ℚ) ^ 53 ≤ (i : ℚ)) false
        rw [hx] at this
        unfold F64.key at this
        rw [Prod.Lex.toLex_le_toLex] at this
        have hv : (2 : ℚ) ^ 53 ≤ v := by simpa [F64.rank, F64.toRat] using this
        exact hv.trans (le_abs_self v)
      · have := F64.key_round_le (F64.isBin64_neg b53) (by linarith : (i : ℚ) ≤ -2 ^ 53) false
        rw [hx] at this
        unfold F64.key at this
        rw [Prod.Lex.toLex_le_toLex] at this
        have hv : v ≤ -(2 : ℚ) ^ 53 := by simpa [F64.rank, F64.toRat] using this
        linarith [neg_abs_le v]
    obtain ⟨k, rfl⟩ : ∃ k : ℤ, v = k := by
      obtain ⟨m, e, h1, h2, h3, rfl⟩ := hr.2.1
      have he : 0 < e := by
        by_contra hc
        have hpow : (2 : ℚ) ^ e ≤ 1 := zpow_le_one_of_nonpos₀ (by norm_num) (by omega)
        rw [abs_mul, abs_of_pos (F64.pow2_pos e)] at hv
        have hm : |(m : ℚ)| < 2 ^ 53 := by exact_mod_cast h1
        have : |(m : ℚ)| * 2 ^ e ≤ |(m : ℚ)| * 1 := mul_le_mul_of_nonneg_left hpow (abs_nonneg _)
        linarith
      obtain ⟨n, rfl⟩ := Int.eq_ofNat_of_zero_le he.le
      exact ⟨m * 2 ^ n, by push_cast; rw [zpow_natCast]⟩
    exact trunc_int (by intro h; rw [h] at hv; norm_num at hv)

/-- The conversion methods never fail: on every value they give a value of the type asked for, the short and the long name the same one,
and converting again changes nothing. -/
theorem C79_total_idempotent (X : Ext) (v : Value) :
    (∃ s, meth0 X v c!"to_s" = .ok (.str s) ∧ meth0 X v c!"to_string" = .ok (.str s) ∧ meth0 X (.str s) c!"to_s" = .ok (.str s)) ∧
    (∃ x, meth0 X v c!"to_i" = .ok (.num x) ∧ meth0 X v c!"to_int" = .ok (.num x) ∧ meth0 X (.num x) c!"to_i" = .ok (.num x)) ∧
    (∃ x, meth0 X v c!"to_f" = .ok (.num x) ∧ meth0 X v c!"to_float" = .ok (.num x) ∧ meth0 X (.num x) c!"to_f" = .ok (.num x)) ∧
    (∃ l, meth0 X v c!"to_a" = .ok (.arr l) ∧ meth0 X v c!"to_array" = .ok (.arr l) ∧ meth0 X (.arr l) c!"to_a" = .ok (.arr l)) ∧
    ∃ b, meth0 X v c!"to_bool" = .ok (.bool b) ∧ meth0 X v c!"to_boolean" = .ok (.bool b) ∧ meth0 X (.bool b) c!"to_bool" = .ok (.bool b) := by
  refine ⟨⟨_, (conv_to_s X v).1, (conv_to_s X v).2, (conv_to_s X _).1⟩, ⟨_, (conv_to_i X v).1, (conv_to_i X v).2, ?_⟩,
    ⟨_, (conv_to_f X v).1, (conv_to_f X v).2, (conv_to_f X _).1⟩, ⟨_, (conv_to_a X v).1, (conv_to_a X v).2, (conv_to_a X _).1⟩,
    ⟨_, (conv_to_bool X v).1, (conv_to_bool X v).2, (conv_to_bool X _).1⟩⟩
  rw [(conv_to_i X _).1]
  have : (Method.toInt v).trunc = Method.toInt v := by
    cases v with
    | num x => exact trunc_trunc x
    | cur x => exact trunc_trunc x
    | str s => exact trunc_trunc _
    | bool b => cases b <;> rfl
    | arr items => exact trunc_ofInt _
    | null => rfl
    | json s => rfl
    | dt t => rfl
  show Except.ok (Value.num (Method.toInt v).trunc) = _
  rw [this]

/-- `to_i` drops the fraction of a number or currency, `to_f` keeps the amount. -/
theorem C79_numbers (X : Ext) (v : Value) (x : F64) (q : ℚ) (i : ℤ) (h : v = .num x ∨ v = .cur x) (hx : HasValue x q) (hi : IsTrunc q i) :
    meth0 X v c!"to_f" = .ok (.num x) ∧ ∃ y, HasValue y i ∧ meth0 X v c!"to_i" = .ok (.num y) := by
  rcases h with rfl | rfl
  · exact ⟨(conv_to_f X _).1, _, F64.trunc_value hx hi, (conv_to_i X _).1⟩
  · exact ⟨(conv_to_f X _).1, _, F64.trunc_value hx hi, (conv_to_i X _).1⟩

theorem digit_no_ws {c : Char} (h : F64.isDigit c = true) : Str.isWs c = false := by
  rw [← Bool.not_eq_true, isWs_iff]
  simp only [F64.isDigit, Bool.and_eq_true, decide_eq_true_eq] at h
  have h1 : 48 ≤ c.toNat := h.1
  have h2 : c.toNat ≤ 57 := h.2
  simp only [White, List.mem_cons, List.not_mem_nil, or_false]; omega

theorem low_ws {c : Char} (h : Str.isWs c = true) : Str.asciiLowC c = c := by
  rw [isWs_iff] at h
  unfold Str.asciiLowC
  rw [if_neg]
  rintro ⟨h1, h2⟩
  have h1 : 65 ≤ c.toNat := h1
  have h2 : c.toNat ≤ 90 := h2
  simp only [White, List.mem_cons, List.not_mem_nil, or_false] at h; omega

theorem word_no_ws {body w : Str} (h : Str.eqIgnoreCase body w = true) (hw : ∀ c ∈ w.map Str.asciiLowC, Str.isWs c = false) :
    ∀ c ∈ body, Str.isWs c = false := by
  intro c hc
  rw [← Bool.not_eq_true]
  intro hws
  rw [Str.eqIgnoreCase, beq_iff_eq] at h
  have := List.mem_map_of_mem (f := Str.asciiLowC) hc
  rw [h, low_ws hws] at this
  rw [hw c this] at hws; cases hws

theorem takeSign_no_ws {s : Str} (h : ∀ c ∈ (F64.takeSign s).2, Str.isWs c = false) : ∀ c ∈ s, Str.isWs c = false := by
  unfold F64.takeSign at h
  split at h
  · intro c hc; rcases List.mem_cons.1 hc with rfl | hc
    · decide
    · exact h c hc
  · intro c hc; rcases List.mem_cons.1 hc with rfl | hc
    · decide
    · exact h c hc
  · exact h

theorem parseExp_no_ws {s : Str} {e : ℤ} (h : F64.parseExp s = some e) : ∀ c ∈ s, Str.isWs c = false := by
  cases s with
  | nil => simp
  | cons d cs =>
    rw [F64.parseExp] at h
    by_cases hd : d = 'e' ∨ d = 'E'
    · rw [if_pos hd] at h
      have hcs : ∀ c ∈ cs, Str.isWs c = false := by
        refine takeSign_no_ws fun c hc => ?_
        rcases hts : F64.takeSign cs with ⟨sg, ds⟩
        rw [hts] at h hc
        simp only at h
        split at h
        · cases h
        · rename_i hx
          simp only [Bool.or_eq_true, Bool.not_eq_true', not_or, Bool.not_eq_false, List.all_eq_true] at hx
          exact digit_no_ws (hx.2 c hc)
      intro c hc
      rcases List.mem_cons.1 hc with rfl | hc
      · rcases hd with rfl | rfl <;> decide
      · exact hcs c hc
    · rw [if_neg hd] at h; cases h

/-- The characters of a text that reads as a number are no white space. -/
theorem parse_no_ws {s : Str} {x : F64} (h : F64.parse s = some x) : ∀ c ∈ s, Str.isWs c = false := by
  refine takeSign_no_ws ?_
  unfold F64.parse at h
  rcases hs : F64.takeSign s with ⟨ng, body⟩
  rw [hs] at h
  simp only at h ⊢
  split at h
  · rename_i hw
    rw [Bool.or_eq_true] at hw
    rcases hw with hw | hw
    · exact word_no_ws hw (by decide)
    · exact word_no_ws hw (by decide)
  split at h
  · rename_i hw; exact word_no_ws hw (by decide)
  have hdig : ∀ t : Str, ∀ c ∈ t.takeWhile F64.isDigit, Str.isWs c = false := fun t c hc => digit_no_ws (List.mem_takeWhile_imp hc)
  have hb : body = body.takeWhile F64.isDigit ++ body.dropWhile F64.isDigit := List.takeWhile_append_dropWhile.symm
  have fin : (∀ c ∈ body.dropWhile F64.isDigit, Str.isWs c = false) → ∀ c ∈ body, Str.isWs c = false := by
    intro hrest c hc
    rw [hb, List.mem_append] at hc
    rcases hc with hc | hc
    · exact hdig body c hc
    · exact hrest c hc
  refine fin ?_
  have tail : ∀ (i f : Str) (r2 : Str), (if (i.isEmpty && f.isEmpty) = true then none else
      match F64.parseExp r2 with
      | none => none
      | some e => some (if F64.decimalVal i f e = 0 then F64.zero ng else F64.roundPos ng (F64.decimalVal i f e))) = some x →
      ∀ c ∈ r2, Str.isWs c = false := by
    intro i f r2 h
    split at h
    · cases h
    · split at h
      · cases h
      · rename_i he; exact parseExp_no_ws he
  split at h
  · rename_i r hr
    rw [hr]
    have := tail _ _ _ h
    intro c hc
    rcases List.mem_cons.1 hc with rfl | hc
    · decide
    · rw [← List.takeWhile_append_dropWhile (p := F64.isDigit) (l := r), List.mem_append] at hc
      rcases hc with hc | hc
      · exact hdig r c hc
      · exact this c hc
  · exact tail _ _ _ h

theorem trim_self {s : Str} (h : ∀ c ∈ s, Str.isWs c = false) : Str.trim Str.isWs s = s := by
  have key : ∀ u : Str, (∀ c ∈ u, Str.isWs c = false) → u.dropWhile Str.isWs = u := by
    intro u hu
    cases u with
    | nil => rfl
    | cons a l => rw [List.dropWhile_cons, if_neg (by simp [hu a (by simp)])]
  unfold Str.trim
  rw [key s h, key _ (fun c hc => h c (List.mem_reverse.1 hc)), List.reverse_reverse]

/-- Wherever the cast to a float succeeds `to_f` gives the same number; where the cast fails `to_f` gives one all the same. -/
theorem C79_float_cast (X : Ext) (v w : Value) (h : castTo X v .float = .ok w) : meth0 X v c!"to_f" = .ok w := by
  rw [castTo_eq] at h
  rw [(conv_to_f X v).1]
  cases v with
  | str s =>
    simp only [castValue] at h
    split at h
    · rename_i n hn
      cases h
      show Except.ok (Value.num (Method.parseOrZero s)) = _
      rw [Method.parseOrZero, trim_self (parse_no_ws hn), hn]; rfl
    · cases h
  | num x => cases h; rfl
  | cur x => cases h; rfl
  | bool b => cases h; rfl
  | null => cases h; rfl
  | arr items => cases h
  | json s => cases h
  | dt t => cases h

/-- `to_bool` and the boolean cast agree on all values but texts of white space only, the epoch and blank documents: those the method
counts as true and the cast as false. -/
theorem C79_bool_cast (X : Ext) (v : Value) :
    (meth0 X v c!"to_bool" = castTo X v .boolean) ↔
      ¬ ((∃ s, v = .str s ∧ s ≠ [] ∧ ∀ c ∈ s, White c) ∨ (∃ s, v = .json s ∧ ∀ c ∈ s, White c) ∨ v = .dt 0) := by
  rw [(conv_to_bool X v).1, castTo_eq]
  have hw : ∀ s : Str, (∀ c ∈ s, White c) ↔ (Str.trim Str.isWs s).isEmpty = true := by
    intro s; rw [trim_empty]
    exact ⟨fun h c hc => (isWs_iff c).2 (h c hc), fun h c hc => (isWs_iff c).1 (h c hc)⟩
  cases v with
  | str s =>
    simp only [castValue, Method.toBoolean, hw, Except.ok.injEq, Value.bool.injEq, Value.str.injEq, reduceCtorEq, false_and, exists_false,
      or_false, exists_eq_left']
    cases s with
    | nil => simp [Str.trim]
    | cons a l => simp
  | json s =>
    simp only [castValue, Method.toBoolean, hw, Except.ok.injEq, Value.bool.injEq, Value.json.injEq, reduceCtorEq, false_and, exists_false,
      or_false, false_or, exists_eq_left']
    simp
  | dt t => simp [castValue, Method.toBoolean]
  | num x => simp [castValue, Method.toBoolean]
  | cur x => simp [castValue, Method.toBoolean]
  | bool b => simp [castValue, Method.toBoolean]
  | null => simp [castValue, Method.toBoolean]
  | arr items => simp [castValue, Method.toBoolean]

/-- The other conversions and casts differ: booleans as text, null and texts as arrays, numbers beyond the 64-bit range as integers. -/
theorem C79_casts_differ (X : Ext) :
    meth0 X (.bool true) c!"to_s" = .ok (.str c!"true") ∧ castTo X (.bool true) .string = .ok (.str c!"TRUE") ∧
    meth0 X .null c!"to_a" = .ok (.arr []) ∧ castTo X .null .array = .ok (.arr [.null]) ∧
    meth0 X (.str c!"ab") c!"to_a" = .ok (.arr [.str c!"a", .str c!"b"]) ∧ castTo X (.str c!"ab") .array = .ok (.arr [.str c!"ab"]) ∧
    meth0 X (.num (.fin (2 ^ 64))) c!"to_i" = .ok (.num (.fin (2 ^ 64))) ∧ castTo X (.num (.fin (2 ^ 64))) .integer = .ok (.num (.fin (2 ^ 63))) := by
  refine ⟨by kernel_rfl, by kernel_rfl, by kernel_rfl, by kernel_rfl, by kernel_rfl, by kernel_rfl, by kernel_rfl, by kernel_rfl⟩

example (X : Ext) : castTo X (.str c!"1.5e3") .float = .ok (.num (.fin 1500)) := by kernel_rfl
