import Verif.Spec.JsonText
import Verif.Lemmas.DebugText
/-! The pieces of a JSON text: whitespace, texts between quotes and numbers are read exactly as the grammar says. -/

namespace JsonText

open JsonText.Spec

/-! ### Whitespace -/

theorem isBlank_iff (c : Char) : isBlank c = true ↔ c = ' ' ∨ c = '\n' ∨ c = '\t' ∨ c = '\r' := by
  simp [isBlank, or_assoc]

theorem skip_blank {w : Str} (h : Blank w) (s : Str) : skip (w ++ s) = skip s := by
  unfold skip
  exact List.dropWhile_append_of_pos fun c hc => (isBlank_iff c).2 (h c hc)

theorem skip_stop {c : Char} (h : isBlank c = false) (s : Str) : skip (c :: s) = c :: s := by simp [skip, h]

theorem skip_of_blank {w : Str} (h : Blank w) : skip w = [] := by
  have := skip_blank h []
  simpa [skip] using this

theorem mem_takeWhile {p : Char → Bool} {c : Char} : ∀ s : Str, c ∈ s.takeWhile p → p c = true
  | [], h => by simp at h
  | d :: s, h => by
    by_cases hd : p d = true
    · rw [List.takeWhile_cons_of_pos hd] at h
      rcases List.mem_cons.1 h with rfl | h
      · exact hd
      · exact mem_takeWhile s h
    · rw [List.takeWhile_cons_of_neg hd] at h; simp at h

theorem skip_split (s : Str) : ∃ w, s = w ++ skip s ∧ Blank w :=
  ⟨s.takeWhile isBlank, List.takeWhile_append_dropWhile.symm, fun c hc => (isBlank_iff c).1 (mem_takeWhile s hc)⟩

/-! ### Hexadecimal digits -/

theorem hexVal_of {n : Nat} {c : Char} (h : HexDigit n c) : hexVal c = some n ∧ n < 16 := by
  have key : ∀ n : Fin 16, ∀ c, (c!"0123456789abcdef"[n.val]? = some c ∨ c!"0123456789ABCDEF"[n.val]? = some c) → hexVal c = some n.val := by
    have k1 : ∀ n : Fin 16, (c!"0123456789abcdef"[n.val]?).bind hexVal = some n.val := by decide
    have k2 : ∀ n : Fin 16, (c!"0123456789ABCDEF"[n.val]?).bind hexVal = some n.val := by decide
    intro n c h
    rcases h with h | h
    · simpa only [h, Option.bind_some] using k1 n
    · simpa only [h, Option.bind_some] using k2 n
  have hn : n < 16 := by
    rcases h with h | h <;> (obtain ⟨h, -⟩ := List.getElem?_eq_some_iff.1 h; simpa using h)
  exact ⟨key ⟨n, hn⟩ c h, hn⟩

theorem of_hexVal {n : Nat} {c : Char} (h : hexVal c = some n) : HexDigit n c := by
  unfold hexVal at h
  have hc : Char.ofNat c.toNat = c := Char.ofNat_toNat c
  by_cases h1 : ('0' ≤ c && c ≤ '9') = true
  · rw [if_pos h1] at h
    simp only [Bool.and_eq_true, decide_eq_true_eq, Char.le_def] at h1
    have a : 48 ≤ c.toNat := h1.1
    have b : c.toNat ≤ 57 := h1.2
    rw [← hc] at h ⊢
    generalize c.toNat = m at *
    clear hc h1
    have : m = 48 ∨ m = 49 ∨ m = 50 ∨ m = 51 ∨ m = 52 ∨ m = 53 ∨ m = 54 ∨ m = 55 ∨ m = 56 ∨ m = 57 := by omega
    rcases this with rfl | rfl | rfl | rfl | rfl | rfl | rfl | rfl | rfl | rfl <;> (injection h with h; subst h; exact .inl (by decide))
  · rw [if_neg h1] at h
    by_cases h2 : ('a' ≤ c && c ≤ 'f') = true
    · rw [if_pos h2] at h
      simp only [Bool.and_eq_true, decide_eq_true_eq, Char.le_def] at h2
      have a : 97 ≤ c.toNat := h2.1
      have b : c.toNat ≤ 102 := h2.2
      rw [← hc] at h ⊢
      generalize c.toNat = m at *
      clear hc h1 h2
      have : m = 97 ∨ m = 98 ∨ m = 99 ∨ m = 100 ∨ m = 101 ∨ m = 102 := by omega
      rcases this with rfl | rfl | rfl | rfl | rfl | rfl <;> (injection h with h; subst h; exact .inl (by decide))
    · rw [if_neg h2] at h
      by_cases h3 : ('A' ≤ c && c ≤ 'F') = true
      · rw [if_pos h3] at h
        simp only [Bool.and_eq_true, decide_eq_true_eq, Char.le_def] at h3
        have a : 65 ≤ c.toNat := h3.1
        have b : c.toNat ≤ 70 := h3.2
        rw [← hc] at h ⊢
        generalize c.toNat = m at *
        clear hc h1 h2 h3
        have : m = 65 ∨ m = 66 ∨ m = 67 ∨ m = 68 ∨ m = 69 ∨ m = 70 := by omega
        rcases this with rfl | rfl | rfl | rfl | rfl | rfl <;> (injection h with h; subst h; exact .inr (by decide))
      · rw [if_neg h3] at h; exact absurd h (by simp)

theorem hex4_of {n : Nat} {ds : Str} (h : Hex4 n ds) (r : Str) : hex4 (ds ++ r) = some (n, r) ∧ n < 65536 := by
  obtain ⟨n1, n2, n3, n4, c1, c2, c3, c4, h1, h2, h3, h4⟩ := h
  obtain ⟨e1, b1⟩ := hexVal_of h1
  obtain ⟨e2, b2⟩ := hexVal_of h2
  obtain ⟨e3, b3⟩ := hexVal_of h3
  obtain ⟨e4, b4⟩ := hexVal_of h4
  refine ⟨?_, by omega⟩
  simp [hex4, e1, e2, e3, e4]
  omega

theorem of_hex4 {n : Nat} {s r : Str} (h : hex4 s = some (n, r)) : ∃ ds, s = ds ++ r ∧ Hex4 n ds := by
  match s, h with
  | a :: b :: c :: d :: s, h =>
    simp only [hex4, Option.bind_eq_bind, Option.bind_eq_some_iff, Option.pure_def, Option.some.injEq, Prod.mk.injEq] at h
    obtain ⟨n1, h1, n2, h2, n3, h3, n4, h4, e, rfl⟩ := h
    refine ⟨[a, b, c, d], rfl, ?_⟩
    have : n = n1 * 4096 + n2 * 256 + n3 * 16 + n4 := by omega
    rw [this]
    exact .mk n1 n2 n3 n4 a b c d (of_hexVal h1) (of_hexVal h2) (of_hexVal h3) (of_hexVal h4)
  | [], h | [_], h | [_, _], h | [_, _, _], h => simp [hex4] at h

/-! ### Texts between quotes -/

theorem char_range (c : Char) : c.toNat < 0xD800 ∨ (0xDFFF < c.toNat ∧ c.toNat < 0x110000) := by
  have := c.valid
  simpa [UInt32.isValidChar, Nat.isValidChar] using this

theorem ofNat_eq {c : Char} {n : Nat} (h : c.toNat = n) : Char.ofNat n = c := by rw [← h, Char.ofNat_toNat]

theorem toNat_ofNat {n : Nat} (h : n < 0xD800 ∨ (0xDFFF < n ∧ n < 0x110000)) : (Char.ofNat n).toNat = n := by
  have hv : n.isValidChar := by simpa [Nat.isValidChar] using h
  simp [Char.ofNat, hv, Char.toNat, Char.ofNatAux]

theorem escaped_of {c : Char} {t : Str} (h : Writes c ('\\' :: t)) (r : Str) : escaped (t ++ r) = some (c, r) := by
  generalize ht : '\\' :: t = u at h
  cases h with
  | plain c h1 h2 h3 => simp only [List.cons.injEq] at ht; exact absurd ht.1.symm h2
  | short e c h =>
    simp only [List.cons.injEq, true_and] at ht
    subst ht
    simp only [shortEscapes, List.mem_cons, Prod.mk.injEq, List.not_mem_nil, or_false] at h
    rcases h with ⟨rfl, rfl⟩ | ⟨rfl, rfl⟩ | ⟨rfl, rfl⟩ | ⟨rfl, rfl⟩ | ⟨rfl, rfl⟩ | ⟨rfl, rfl⟩ | ⟨rfl, rfl⟩ | ⟨rfl, rfl⟩ <;> rfl
  | code c ds h =>
    simp only [List.cons.injEq, true_and] at ht
    subst ht
    have hr := char_range c
    rw [List.cons_append, escaped, (hex4_of h r).1]
    simp only [Option.bind_eq_bind, Option.bind_some, Option.pure_def]
    rw [if_neg (by simp only [Bool.and_eq_true, decide_eq_true_eq]; omega), if_neg (by simp only [Bool.and_eq_true, decide_eq_true_eq]; omega), Char.ofNat_toNat]
  | pair c hi lo d1 d2 h1 h2 h3 h4 h5 =>
    simp only [List.cons.injEq, true_and] at ht
    subst ht
    rw [List.cons_append, List.append_assoc, escaped, (hex4_of h4 _).1]
    simp only [Option.bind_eq_bind, Option.bind_some, Option.pure_def, List.cons_append]
    rw [if_neg (by simp only [Bool.and_eq_true, decide_eq_true_eq]; omega), if_pos (by simp only [Bool.and_eq_true, decide_eq_true_eq]; omega), (hex4_of h5 _).1]
    simp only [Option.bind_some]
    rw [if_pos (by simp only [Bool.and_eq_true, decide_eq_true_eq]; omega)]
    have e : 0x10000 + (0xD800 + hi - 0xD800) * 0x400 + (0xDC00 + lo - 0xDC00) = c.toNat := by omega
    rw [e, Char.ofNat_toNat]

theorem of_escaped {c : Char} {s r : Str} (h : escaped s = some (c, r)) : ∃ t, s = t ++ r ∧ Writes c ('\\' :: t) := by
  have short : ∀ e, (e, c) ∈ shortEscapes → s = e :: r → ∃ t, s = t ++ r ∧ Writes c ('\\' :: t) :=
    fun e he hs => ⟨[e], by simpa using hs, .short e c he⟩
  unfold escaped at h
  split at h
  case h_9 r' =>
    simp only [Option.bind_eq_bind, Option.bind_eq_some_iff, Option.pure_def] at h
    obtain ⟨⟨n, r1⟩, h1, h⟩ := h
    obtain ⟨ds, rfl, hd⟩ := of_hex4 h1
    have hb := (hex4_of hd []).2
    simp only at h
    by_cases c1 : (decide (0xDC00 ≤ n) && decide (n ≤ 0xDFFF)) = true
    · rw [if_pos c1] at h; exact absurd h (by simp)
    rw [if_neg c1] at h
    by_cases c2 : (decide (0xD800 ≤ n) && decide (n ≤ 0xDBFF)) = true
    · rw [if_pos c2] at h
      simp only [Bool.and_eq_true, decide_eq_true_eq] at c1 c2
      split at h
      case h_1 r2 =>
        rw [Option.bind_eq_some_iff] at h
        obtain ⟨⟨m, r3⟩, h3, h⟩ := h
        obtain ⟨ds2, rfl, hd2⟩ := of_hex4 h3
        simp only at h
        by_cases c3 : (decide (0xDC00 ≤ m) && decide (m ≤ 0xDFFF)) = true
        · rw [if_pos c3] at h
          simp only [Bool.and_eq_true, decide_eq_true_eq] at c3
          simp only [Option.some.injEq, Prod.mk.injEq] at h
          obtain ⟨rfl, rfl⟩ := h
          refine ⟨'u' :: (ds ++ '\\' :: 'u' :: ds2), by simp, ?_⟩
          refine .pair _ (n - 0xD800) (m - 0xDC00) ds ds2 (by omega) (by omega) (toNat_ofNat (by omega)) ?_ ?_
          · rwa [show 0xD800 + (n - 0xD800) = n by omega]
          · rwa [show 0xDC00 + (m - 0xDC00) = m by omega]
        · rw [if_neg c3] at h; exact absurd h (by simp)
      case h_2 => exact absurd h (by simp)
    · rw [if_neg c2] at h
      simp only [Bool.and_eq_true, decide_eq_true_eq] at c1 c2
      simp only [Option.some.injEq, Prod.mk.injEq] at h
      obtain ⟨rfl, rfl⟩ := h
      refine ⟨'u' :: ds, rfl, .code _ ds ?_⟩
      rwa [toNat_ofNat (by omega)]
  case h_10 => exact absurd h (by simp)
  all_goals
    simp only [Option.some.injEq, Prod.mk.injEq] at h
    obtain ⟨rfl, rfl⟩ := h
    exact short _ (by decide) rfl

theorem writes_cases {c : Char} {t : Str} (h : Writes c t) : (∃ u, t = '\\' :: u) ∨ (t = [c] ∧ c ≠ '"' ∧ c ≠ '\\' ∧ 32 ≤ c.toNat) := by
  cases h with
  | plain c h1 h2 h3 => exact .inr ⟨rfl, h1, h2, h3⟩
  | short e c h => exact .inl ⟨_, rfl⟩
  | code c ds h => exact .inl ⟨_, rfl⟩
  | pair c hi lo d1 d2 h1 h2 h3 h4 h5 => exact .inl ⟨_, rfl⟩

theorem string_of {s t : Str} (h : Quoted s t) (r : Str) : ∀ fuel, t.length < fuel → string fuel (t ++ '"' :: r) = some (s, r) := by
  induction h with
  | nil =>
    intro fuel hf
    obtain ⟨f, rfl⟩ : ∃ f, fuel = f + 1 := ⟨fuel - 1, by simp at hf; omega⟩
    rw [List.nil_append, string, if_pos rfl]
  | @cons c s t u hw hq ih =>
    intro fuel hf
    obtain ⟨f, rfl⟩ : ∃ f, fuel = f + 1 := ⟨fuel - 1, by omega⟩
    rw [List.length_append] at hf
    rcases writes_cases hw with ⟨v, rfl⟩ | ⟨rfl, h1, h2, h3⟩
    · rw [List.append_assoc, List.cons_append, string, if_neg (by decide), if_pos rfl, escaped_of hw]
      simp only [List.length_cons] at hf
      simp [ih f (by omega)]
    · rw [List.append_assoc, List.cons_append, string, if_neg h1, if_neg h2, if_neg (by omega)]
      simp only [List.length_cons, List.length_nil] at hf
      simp [ih f (by omega)]

theorem of_string : ∀ (fuel : Nat) {s t r : Str}, string fuel s = some (t, r) → ∃ u, s = u ++ '"' :: r ∧ Quoted t u
  | 0, s, t, r, h => by simp [string] at h
  | fuel + 1, [], t, r, h => by simp [string] at h
  | fuel + 1, c :: s, t, r, h => by
    rw [string] at h
    by_cases h1 : c = '"'
    · rw [if_pos h1] at h
      simp only [Option.some.injEq, Prod.mk.injEq] at h
      obtain ⟨rfl, rfl⟩ := h
      exact ⟨[], by simp [h1], .nil⟩
    rw [if_neg h1] at h
    by_cases h2 : c = '\\'
    · rw [if_pos h2] at h
      simp only [Option.bind_eq_bind, Option.bind_eq_some_iff, Option.pure_def, Option.some.injEq, Prod.mk.injEq] at h
      obtain ⟨⟨c', r1⟩, e1, ⟨s', r2⟩, e2, rfl, rfl⟩ := h
      obtain ⟨v, rfl, hv⟩ := of_escaped e1
      obtain ⟨u, rfl, hu⟩ := of_string fuel e2
      exact ⟨('\\' :: v) ++ u, by simp [h2], .cons hv hu⟩
    rw [if_neg h2] at h
    by_cases h3 : c.toNat < 32
    · rw [if_pos h3] at h; exact absurd h (by simp)
    rw [if_neg h3] at h
    simp only [Option.bind_eq_bind, Option.bind_eq_some_iff, Option.pure_def, Option.some.injEq, Prod.mk.injEq] at h
    obtain ⟨⟨s', r2⟩, e2, rfl, rfl⟩ := h
    obtain ⟨u, rfl, hu⟩ := of_string fuel e2
    exact ⟨[c] ++ u, rfl, .cons (.plain c h1 h2 (by omega)) hu⟩

theorem writes_escape (c : Char) : Writes c (escape c) := by
  unfold escape
  by_cases h1 : c = '"'
  · rw [if_pos h1, h1]; exact .short '"' _ (by decide)
  rw [if_neg h1]
  by_cases h2 : c = '\\'
  · rw [if_pos h2, h2]; exact .short '\\' _ (by decide)
  rw [if_neg h2]
  by_cases h3 : c = '\x08'
  · rw [if_pos h3, h3]; exact .short 'b' _ (by decide)
  rw [if_neg h3]
  by_cases h4 : c = '\x0c'
  · rw [if_pos h4, h4]; exact .short 'f' _ (by decide)
  rw [if_neg h4]
  by_cases h5 : c = '\n'
  · rw [if_pos h5, h5]; exact .short 'n' _ (by decide)
  rw [if_neg h5]
  by_cases h6 : c = '\r'
  · rw [if_pos h6, h6]; exact .short 'r' _ (by decide)
  rw [if_neg h6]
  by_cases h7 : c = '\t'
  · rw [if_pos h7, h7]; exact .short 't' _ (by decide)
  rw [if_neg h7]
  by_cases h8 : c.toNat < 32
  · rw [if_pos h8]
    have hd : ∀ n : Fin 16, HexDigit n.val (Nat.digitChar n.val) := fun n => .inl (by revert n; decide)
    refine .code c _ ?_
    have := Hex4.mk 0 0 (c.toNat / 16) (c.toNat % 16) '0' '0' _ _ (.inl rfl) (.inl rfl) (hd ⟨c.toNat / 16, by omega⟩) (hd ⟨c.toNat % 16, by omega⟩)
    have e : 0 * 4096 + 0 * 256 + c.toNat / 16 * 16 + c.toNat % 16 = c.toNat := by omega
    rw [e] at this
    exact this
  · rw [if_neg h8]; exact .plain c h1 h2 (by omega)

theorem quoted_escape : ∀ s : Str, Quoted s (s.flatMap escape)
  | [] => .nil
  | c :: s => by rw [List.flatMap_cons]; exact .cons (writes_escape c) (quoted_escape s)

end JsonText
