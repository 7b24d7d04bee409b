import Verif.Model.Value
/-! The debug text of a value determines it, provided the texts of different numbers differ. -/

namespace Spec

/-- What is assumed of the way `{:?}` prints numbers: different ones differently, and without a closing parenthesis. -/
structure NumbersApart (X : Ext) : Prop where
  inj : ∀ a b, X.dbgNum a = X.dbgNum b → a = b
  paren : ∀ a, ')' ∉ X.dbgNum a

end Spec

open Spec

/-! ### Texts that end with a character that does not occur in them -/

theorem split_at {c : Char} : ∀ {a b r s : Str}, c ∉ a → c ∉ b → a ++ c :: r = b ++ c :: s → a = b ∧ r = s
  | [], [], _, _, _, _, h => ⟨rfl, by simpa using h⟩
  | [], y :: b, _, _, _, hb, h => by simp at h hb; exact absurd h.1 hb.1
  | x :: a, [], _, _, ha, _, h => by simp at h ha; exact absurd h.1.symm ha.1
  | x :: a, y :: b, r, s, ha, hb, h => by
    simp only [List.cons_append, List.cons.injEq] at h
    simp only [List.mem_cons, not_or] at ha hb
    obtain ⟨h1, h2⟩ := split_at ha.2 hb.2 h.2
    exact ⟨by rw [h.1, h1], h2⟩

/-! ### Integers -/

theorem showInt_of_nat (n : Nat) : Str.showInt (Int.ofNat n) = Nat.toDigits 10 n := by
  simp [Str.showInt, toString, Int.repr]

theorem showInt_of_neg (n : Nat) : Str.showInt (Int.negSucc n) = '-' :: Nat.toDigits 10 (n + 1) := by
  simp [Str.showInt, toString, Int.repr]

theorem toDigits_inj_ten {m n : Nat} (h : Nat.toDigits 10 m = Nat.toDigits 10 n) : m = n := by
  have := congrArg (Nat.ofDigitChars 10 · 0) h
  simpa [Nat.ofDigitChars_ten_toDigits] using this

theorem dash_not_digit (n : Nat) : '-' ∉ Nat.toDigits 10 n := fun h => by
  have := Nat.isDigit_of_mem_toDigits (by decide) (by decide) h
  simp at this

theorem showInt_inj {a b : Int} (h : Str.showInt a = Str.showInt b) : a = b := by
  cases a with
  | ofNat m => cases b with
    | ofNat n => rw [showInt_of_nat, showInt_of_nat] at h; rw [toDigits_inj_ten h]
    | negSucc n => rw [showInt_of_nat, showInt_of_neg] at h; exact absurd (by rw [h]; simp) (dash_not_digit m)
  | negSucc m => cases b with
    | ofNat n => rw [showInt_of_nat, showInt_of_neg] at h; exact absurd (by rw [← h]; simp) (dash_not_digit n)
    | negSucc n =>
      rw [showInt_of_neg, showInt_of_neg, List.cons.injEq] at h
      have := toDigits_inj_ten h.2
      have e : m = n := by omega
      rw [e]

theorem showInt_chars (a : Int) : ∀ c ∈ Str.showInt a, c = '-' ∨ c.isDigit = true := by
  intro c hc
  cases a with
  | ofNat n => rw [showInt_of_nat] at hc; exact .inr (Nat.isDigit_of_mem_toDigits (by decide) (by decide) hc)
  | negSucc n =>
    rw [showInt_of_neg] at hc
    rcases List.mem_cons.1 hc with h | h
    · exact .inl h
    · exact .inr (Nat.isDigit_of_mem_toDigits (by decide) (by decide) h)

theorem showInt_paren (a : Int) : ')' ∉ Str.showInt a := fun h => by
  rcases showInt_chars a _ h with h | h
  · exact absurd h (by decide)
  · exact absurd h (by decide)

/-! ### Characters -/

theorem hexDigit_inj : ∀ {m n : Nat}, m < 16 → n < 16 → Nat.digitChar m = Nat.digitChar n → m = n := by
  have h : ∀ m : Fin 16, ∀ n : Fin 16, Nat.digitChar m = Nat.digitChar n → m = n := by decide
  intro m n hm hn e
  exact congrArg Fin.val (h ⟨m, hm⟩ ⟨n, hn⟩ e)

theorem hex_inj : ∀ {m n : Nat}, Nat.toDigits 16 m = Nat.toDigits 16 n → m = n := by
  intro m
  induction m using Nat.strongRecOn with
  | ind m ih =>
    intro n h
    rw [Nat.toDigits_eq_if (by decide), Nat.toDigits_eq_if (n := n) (by decide)] at h
    have ne : ∀ k, Nat.toDigits 16 k ≠ [] := fun k => Nat.toDigits_ne_nil
    by_cases hm : m < 16
    · rw [if_pos hm] at h
      by_cases hn : n < 16
      · rw [if_pos hn, List.cons.injEq] at h
        exact hexDigit_inj hm hn h.1
      · rw [if_neg hn] at h
        have := congrArg List.length h
        have := List.length_pos_iff.2 (ne (n / 16))
        simp at *
    · rw [if_neg hm] at h
      by_cases hn : n < 16
      · rw [if_pos hn] at h
        have := congrArg List.length h
        have := List.length_pos_iff.2 (ne (m / 16))
        simp at *
      · rw [if_neg hn] at h
        obtain ⟨h1, h2⟩ := List.append_inj' h rfl
        have e1 := ih (m / 16) (by omega) h1
        have e2 := hexDigit_inj (Nat.mod_lt _ (by decide)) (Nat.mod_lt _ (by decide)) (List.cons.inj h2).1
        omega

theorem hex_chars : ∀ (n : Nat), ∀ c ∈ Nat.toDigits 16 n, ∃ d : Fin 16, c = Nat.digitChar d := by
  intro n
  induction n using Nat.strongRecOn with
  | ind n ih =>
    intro c hc
    rw [Nat.toDigits_eq_if (by decide)] at hc
    split at hc
    · rename_i h
      exact ⟨⟨n, h⟩, by simpa using hc⟩
    · rcases List.mem_append.1 hc with hc | hc
      · exact ih _ (by omega) c hc
      · exact ⟨⟨n % 16, Nat.mod_lt _ (by decide)⟩, by simpa using hc⟩

theorem hex_brace (n : Nat) : '}' ∉ Nat.toDigits 16 n := fun h => by
  obtain ⟨d, hd⟩ := hex_chars n _ h
  revert d; decide

/-- How a character is printed: as itself, as a backslash and a letter, or as a number. -/
theorem dbgChar_cases (X : Ext) (c : Char) :
    (X.dbgChar c = [c] ∧ c ≠ '\\' ∧ c ≠ '"' ∧ c ≠ '\n') ∨
    (∃ k, X.dbgChar c = ['\\', k] ∧ (c, k) ∈ [('\x00', '0'), ('\t', 't'), ('\r', 'r'), ('\n', 'n'), ('\\', '\\'), ('"', '"')]) ∨
    X.dbgChar c = c!"\\u{" ++ (Nat.toDigits 16 c.toNat ++ c!"}") := by
  unfold Ext.dbgChar
  by_cases h1 : c = '\x00'
  · exact .inr (.inl ⟨'0', by rw [if_pos h1], by simp [h1]⟩)
  rw [if_neg h1]
  by_cases h2 : c = '\t'
  · exact .inr (.inl ⟨'t', by rw [if_pos h2], by simp [h2]⟩)
  rw [if_neg h2]
  by_cases h3 : c = '\r'
  · exact .inr (.inl ⟨'r', by rw [if_pos h3], by simp [h3]⟩)
  rw [if_neg h3]
  by_cases h4 : c = '\n'
  · exact .inr (.inl ⟨'n', by rw [if_pos h4], by simp [h4]⟩)
  rw [if_neg h4]
  by_cases h5 : c = '\\'
  · exact .inr (.inl ⟨'\\', by rw [if_pos h5], by simp [h5]⟩)
  rw [if_neg h5]
  by_cases h6 : c = '"'
  · exact .inr (.inl ⟨'"', by rw [if_pos h6], by simp [h6]⟩)
  rw [if_neg h6]
  by_cases h7 : (if Str.isAscii c then decide (0x20 ≤ c.val) && decide (c.val ≠ 0x7F) else X.plainUni c) = true
  · exact .inl ⟨by rw [if_pos h7], h5, h6, h4⟩
  · exact .inr (.inr (by rw [if_neg h7]))

theorem dbgChar_code (X : Ext) (a b : Char) (r s : Str) (h : X.dbgChar a ++ r = X.dbgChar b ++ s) : a = b ∧ r = s := by
  rcases dbgChar_cases X a with ⟨ha, na, -⟩ | ⟨k, ha, ka⟩ | ha <;> rcases dbgChar_cases X b with ⟨hb, nb, -⟩ | ⟨l, hb, lb⟩ | hb <;> rw [ha, hb] at h
  · simpa using h
  · simp at h; exact absurd h.1 na
  · simp at h; exact absurd h.1 na
  · simp at h; exact absurd h.1.symm nb
  · simp only [List.cons_append, List.nil_append, List.cons.injEq, true_and] at h
    refine ⟨?_, h.2⟩
    rw [h.1] at ka
    revert ka lb
    simp only [List.mem_cons, Prod.mk.injEq, List.not_mem_nil, or_false]
    rintro (⟨rfl, e⟩ | ⟨rfl, e⟩ | ⟨rfl, e⟩ | ⟨rfl, e⟩ | ⟨rfl, e⟩ | ⟨rfl, e⟩) (⟨rfl, e'⟩ | ⟨rfl, e'⟩ | ⟨rfl, e'⟩ | ⟨rfl, e'⟩ | ⟨rfl, e'⟩ | ⟨rfl, e'⟩) <;>
      first | rfl | (rw [e] at e'; exact absurd e' (by decide))
  · simp only [List.cons_append, List.nil_append, List.cons.injEq, true_and] at h
    rw [h.1] at ka; exact absurd ka (by simp)
  · simp at h; exact absurd h.1.symm nb
  · simp only [List.cons_append, List.nil_append, List.cons.injEq, true_and] at h
    rw [← h.1] at lb; exact absurd lb (by simp)
  · simp only [List.append_assoc, List.cons_append, List.nil_append, List.cons.injEq, true_and] at h
    obtain ⟨h1, h2⟩ := split_at (hex_brace _) (hex_brace _) h
    exact ⟨Char.toNat_inj.1 (hex_inj h1), h2⟩

theorem dbgChar_quote (X : Ext) (a : Char) : ∃ c t, X.dbgChar a = c :: t ∧ c ≠ '"' := by
  rcases dbgChar_cases X a with ⟨ha, -, na, -⟩ | ⟨k, ha, -⟩ | ha
  · exact ⟨a, [], ha, na⟩
  · exact ⟨_, _, ha, by decide⟩
  · exact ⟨_, _, ha, by decide⟩

theorem quote_code (X : Ext) : ∀ {a b r s : Str}, a.flatMap X.dbgChar ++ '"' :: r = b.flatMap X.dbgChar ++ '"' :: s → a = b ∧ r = s
  | [], [], _, _, h => ⟨rfl, by simpa using h⟩
  | [], y :: b, _, _, h => by
    obtain ⟨c, t, hc, hn⟩ := dbgChar_quote X y
    simp only [List.flatMap_nil, List.nil_append, List.flatMap_cons, hc, List.cons_append, List.cons.injEq] at h
    exact absurd h.1.symm hn
  | x :: a, [], _, _, h => by
    obtain ⟨c, t, hc, hn⟩ := dbgChar_quote X x
    simp only [List.flatMap_nil, List.nil_append, List.flatMap_cons, hc, List.cons_append, List.cons.injEq] at h
    exact absurd h.1 hn
  | x :: a, y :: b, r, s, h => by
    simp only [List.flatMap_cons, List.append_assoc] at h
    obtain ⟨h1, h2⟩ := dbgChar_code _ _ _ _ _ h
    obtain ⟨h3, h4⟩ := quote_code X h2
    exact ⟨by rw [h1, h3], h4⟩

/-! ### Values -/

mutual
theorem dbg_code {X : Ext} (hX : NumbersApart X) : ∀ (v w : Value) {r s : Str}, X.dbg v ++ r = X.dbg w ++ s → v = w ∧ r = s
  | .num a, .num b, r, s, h => by
    simp only [Ext.dbg, List.append_assoc, List.cons_append, List.nil_append, List.cons.injEq, true_and] at h
    obtain ⟨h1, h2⟩ := split_at (hX.paren a) (hX.paren b) h
    exact ⟨by rw [hX.inj _ _ h1], h2⟩
  | .cur a, .cur b, r, s, h => by
    simp only [Ext.dbg, List.append_assoc, List.cons_append, List.nil_append, List.cons.injEq, true_and] at h
    obtain ⟨h1, h2⟩ := split_at (hX.paren a) (hX.paren b) h
    exact ⟨by rw [hX.inj _ _ h1], h2⟩
  | .dt a, .dt b, r, s, h => by
    simp only [Ext.dbg, List.append_assoc, List.cons_append, List.nil_append, List.cons.injEq, true_and] at h
    obtain ⟨h1, h2⟩ := split_at (showInt_paren a) (showInt_paren b) h
    exact ⟨by rw [showInt_inj h1], h2⟩
  | .bool a, .bool b, r, s, h => by
    cases a <;> cases b <;> simp [Ext.dbg, Str.showBool] at h ⊢ <;> exact h
  | .null, .null, r, s, h => by simpa [Ext.dbg] using h
  | .str a, .str b, r, s, h => by
    simp only [Ext.dbg, Ext.dbgStr, List.append_assoc, List.cons_append, List.nil_append, List.cons.injEq, true_and] at h
    obtain ⟨h1, h2⟩ := quote_code X h
    exact ⟨by rw [h1], by simpa using h2⟩
  | .json a, .json b, r, s, h => by
    simp only [Ext.dbg, Ext.dbgStr, List.append_assoc, List.cons_append, List.nil_append, List.cons.injEq, true_and] at h
    obtain ⟨h1, h2⟩ := quote_code X h
    exact ⟨by rw [h1], by simpa using h2⟩
  | .arr vs, .arr ws, r, s, h => by
    simp only [Ext.dbg, List.append_assoc, List.append_cancel_left_eq] at h
    obtain ⟨h1, h2⟩ := dbgItems_code hX vs ws h
    exact ⟨by rw [h1], by simpa using h2⟩
  | .num _, .arr _, _, _, h | .num _, .bool _, _, _, h | .num _, .str _, _, _, h | .num _, .null, _, _, h | .num _, .cur _, _, _, h | .num _, .dt _, _, _, h
  | .num _, .json _, _, _, h | .arr _, .num _, _, _, h | .arr _, .bool _, _, _, h | .arr _, .str _, _, _, h | .arr _, .null, _, _, h | .arr _, .cur _, _, _, h
  | .arr _, .dt _, _, _, h | .arr _, .json _, _, _, h | .bool _, .num _, _, _, h | .bool _, .arr _, _, _, h | .bool _, .str _, _, _, h | .bool _, .null, _, _, h
  | .bool _, .cur _, _, _, h | .bool _, .dt _, _, _, h | .bool _, .json _, _, _, h | .str _, .num _, _, _, h | .str _, .arr _, _, _, h | .str _, .bool _, _, _, h
  | .str _, .null, _, _, h | .str _, .cur _, _, _, h | .str _, .dt _, _, _, h | .str _, .json _, _, _, h | .null, .num _, _, _, h | .null, .arr _, _, _, h
  | .null, .bool _, _, _, h | .null, .str _, _, _, h | .null, .cur _, _, _, h | .null, .dt _, _, _, h | .null, .json _, _, _, h | .cur _, .num _, _, _, h
  | .cur _, .arr _, _, _, h | .cur _, .bool _, _, _, h | .cur _, .str _, _, _, h | .cur _, .null, _, _, h | .cur _, .dt _, _, _, h | .cur _, .json _, _, _, h
  | .dt _, .num _, _, _, h | .dt _, .arr _, _, _, h | .dt _, .bool _, _, _, h | .dt _, .str _, _, _, h | .dt _, .null, _, _, h | .dt _, .cur _, _, _, h
  | .dt _, .json _, _, _, h | .json _, .num _, _, _, h | .json _, .arr _, _, _, h | .json _, .bool _, _, _, h | .json _, .str _, _, _, h | .json _, .null, _, _, h
  | .json _, .cur _, _, _, h | .json _, .dt _, _, _, h => by simp [Ext.dbg] at h
theorem dbgItems_code {X : Ext} (hX : NumbersApart X) : ∀ (vs ws : List Value) {r s : Str}, X.dbgItems vs ++ r = X.dbgItems ws ++ s → vs = ws ∧ r = s
  | [], [], r, s, h => by simpa [Ext.dbgItems] using h
  | v :: vs, w :: ws, r, s, h => by
    simp only [Ext.dbgItems, List.append_assoc] at h
    obtain ⟨h1, h2⟩ := dbg_code hX v w h
    obtain ⟨h3, h4⟩ := dbgRest_code hX vs ws h2
    exact ⟨by rw [h1, h3], h4⟩
  | [], w :: ws, r, s, h => by cases w <;> simp [Ext.dbgItems, Ext.dbg] at h
  | v :: vs, [], r, s, h => by cases v <;> simp [Ext.dbgItems, Ext.dbg] at h
theorem dbgRest_code {X : Ext} (hX : NumbersApart X) : ∀ (vs ws : List Value) {r s : Str}, X.dbgRest vs ++ r = X.dbgRest ws ++ s → vs = ws ∧ r = s
  | [], [], r, s, h => by simpa [Ext.dbgRest] using h
  | v :: vs, w :: ws, r, s, h => by
    simp only [Ext.dbgRest, List.append_assoc, List.append_cancel_left_eq] at h
    obtain ⟨h1, h2⟩ := dbg_code hX v w h
    obtain ⟨h3, h4⟩ := dbgRest_code hX vs ws h2
    exact ⟨by rw [h1, h3], h4⟩
  | [], w :: ws, r, s, h => by simp [Ext.dbgRest] at h
  | v :: vs, [], r, s, h => by simp [Ext.dbgRest] at h
end

/-- Values with the same debug text are the same. -/
theorem dbg_inj {X : Ext} (hX : NumbersApart X) {v w : Value} (h : X.dbg v = X.dbg w) : v = w :=
  (dbg_code hX v w (r := []) (s := []) (by simpa using h)).1

mutual
theorem dbg_congr_at {X Y : Ext} (h1 : X.dbgNum = Y.dbgNum) (h2 : X.dbgStr = Y.dbgStr) : ∀ v : Value, X.dbg v = Y.dbg v
  | .num n => by simp only [Ext.dbg, h1]
  | .arr vs => by simp only [Ext.dbg, dbgItems_congr_at h1 h2 vs]
  | .bool b => by simp only [Ext.dbg]
  | .str s => by simp only [Ext.dbg, h2]
  | .null => by simp only [Ext.dbg]
  | .cur n => by simp only [Ext.dbg, h1]
  | .dt t => by simp only [Ext.dbg]
  | .json s => by simp only [Ext.dbg, h2]
theorem dbgItems_congr_at {X Y : Ext} (h1 : X.dbgNum = Y.dbgNum) (h2 : X.dbgStr = Y.dbgStr) : ∀ vs : List Value, X.dbgItems vs = Y.dbgItems vs
  | [] => by simp only [Ext.dbgItems]
  | v :: vs => by simp only [Ext.dbgItems, dbg_congr_at h1 h2 v, dbgRest_congr_at h1 h2 vs]
theorem dbgRest_congr_at {X Y : Ext} (h1 : X.dbgNum = Y.dbgNum) (h2 : X.dbgStr = Y.dbgStr) : ∀ vs : List Value, X.dbgRest vs = Y.dbgRest vs
  | [] => by simp only [Ext.dbgRest]
  | v :: vs => by simp only [Ext.dbgRest, dbg_congr_at h1 h2 v, dbgRest_congr_at h1 h2 vs]
end

/-- The debug text depends on the way numbers are printed and on which characters are left as they are. -/
theorem dbg_congr {X Y : Ext} (h1 : X.dbgNum = Y.dbgNum) (h2 : X.plainUni = Y.plainUni) : X.dbg = Y.dbg := by
  funext v
  refine dbg_congr_at h1 (funext fun s => ?_) v
  have : X.dbgChar = Y.dbgChar := funext fun c => by simp only [Ext.dbgChar, h2]
  simp only [Ext.dbgStr, this]
