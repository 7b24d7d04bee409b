import Verif.Lemmas.JsonNumbers
/-! JSON texts are read exactly as the grammar says, and what is written is in the grammar. -/

namespace JsonText

open JsonText.Spec

theorem stop_blank {w r : Str} (h : Blank w) (hr : Stop r) : Stop (w ++ r) := by
  cases w with
  | nil => exact hr
  | cons c w =>
    intro d hd
    simp only [List.cons_append, List.head?_cons, Option.some.injEq] at hd
    subst hd
    rcases h c (by simp) with rfl | rfl | rfl | rfl <;> decide

theorem stop_comma (r : Str) : Stop (',' :: r) := by intro d hd; simp at hd; subst hd; decide
theorem stop_bracket (r : Str) : Stop (']' :: r) := by intro d hd; simp at hd; subst hd; decide
theorem stop_brace (r : Str) : Stop ('}' :: r) := by intro d hd; simp at hd; subst hd; decide
theorem stop_nil : Stop [] := by intro d hd; simp at hd

/-! ### Every text of the grammar is read -/

theorem value_number (N : Floats) (fuel d : Nat) {s r : Str} {c : Char} (hs : skip s = c :: r) (hc : c = '-' ∨ isDigit c = true) :
    value N (fuel + 1) d s = number N (c :: r) := by
  have hne : ∀ x, x = '"' ∨ x = '[' ∨ x = '{' ∨ x = 'n' ∨ x = 't' ∨ x = 'f' → c ≠ x := by
    rintro x hx rfl
    rcases hc with rfl | hc
    · revert hx; decide
    · rcases hx with rfl | rfl | rfl | rfl | rfl | rfl <;> exact absurd hc (by decide)
  rw [value, hs]
  split
  · exact absurd (List.cons.inj ‹_›).1 (hne _ (by simp))
  · exact absurd (List.cons.inj ‹_›).1 (hne _ (by simp))
  · exact absurd (List.cons.inj ‹_›).1 (hne _ (by simp))
  · exact absurd (List.cons.inj ‹_›).1 (hne _ (by simp))
  · exact absurd (List.cons.inj ‹_›).1 (hne _ (by simp))
  · exact absurd (List.cons.inj ‹_›).1 (hne _ (by simp))
  · rfl

/-- A value starts with a character that is neither whitespace nor a closing bracket or brace. -/
theorem val_start {N : Floats} {d : Nat} {j : Json} {t : Str} (h : Val N d j t) : ∃ c u, t = c :: u ∧ isBlank c = false ∧ c ≠ ']' ∧ c ≠ '}' := by
  cases h with
  | num d h =>
    obtain ⟨c, u, rfl, hc⟩ := number_start h
    refine ⟨c, u, rfl, ?_⟩
    rcases hc with rfl | hc
    · decide
    · refine ⟨?_, ?_, ?_⟩
      · cases hb : isBlank c with
        | false => rfl
        | true => rcases (isBlank_iff c).1 hb with rfl | rfl | rfl | rfl <;> exact absurd hc (by decide)
      · rintro rfl; exact absurd hc (by decide)
      · rintro rfl; exact absurd hc (by decide)
  | null | yes | no | str | arr0 | arr | obj0 | obj => exact ⟨_, _, rfl, by decide, by decide, by decide⟩

theorem val_length {N : Floats} {d : Nat} {j : Json} {t : Str} (h : Val N d j t) : 0 < t.length := by
  obtain ⟨c, u, rfl, -⟩ := val_start h
  simp

theorem value_string (N : Floats) (fuel d : Nat) {s k kt r : Str} (hs : skip s = '"' :: (kt ++ '"' :: r)) (hk : Quoted k kt) :
    value N (fuel + 1) d s = some (.str k, r) := by
  rw [value, hs]
  simp only
  rw [string_of hk r _ (by simp; omega)]
  rfl

/-- The elements start with something that is not a closing bracket. -/
theorem items_start {N : Floats} {d : Nat} {js : List Json} {t : Str} (h : Items N d js t) (r : Str) : ∃ c u, skip (t ++ r) = c :: u ∧ c ≠ ']' := by
  have key : ∀ {j : Json} {w t x : Str}, Blank w → Val N d j t → ∃ c u, skip (w ++ (t ++ x)) = c :: u ∧ c ≠ ']' := by
    intro j w t x h1 hv
    obtain ⟨c, u, rfl, hb, hc, -⟩ := val_start hv
    exact ⟨c, u ++ x, by rw [skip_blank h1, List.cons_append, skip_stop hb], hc⟩
  cases h with
  | one h1 hv h2 => rw [List.append_assoc, List.append_assoc]; exact key h1 hv
  | cons h1 hv h2 hi => rw [List.append_assoc, List.append_assoc]; exact key h1 hv

theorem members_start {N : Floats} {d : Nat} {ms : List (Str × Json)} {t : Str} (h : Members N d ms t) (r : Str) : ∃ u, skip (t ++ r) = '"' :: u := by
  have key : ∀ {w x : Str}, Blank w → ∃ u, skip (w ++ '"' :: x) = '"' :: u :=
    fun {w x} h => ⟨x, by rw [skip_blank h, skip_stop (by decide)]⟩
  cases h with
  | one h0 hk h1 h2 hv h3 => rw [List.append_assoc, List.cons_append]; exact key h0
  | cons h0 hk h1 h2 hv h3 hi => rw [List.append_assoc, List.cons_append]; exact key h0

theorem value_arr (N : Floats) (fuel d : Nat) {s u r : Str} {js : List Json} {c : Char} {v : Str} (hs : skip s = '[' :: u) (hu : skip u = c :: v) (hc : c ≠ ']')
    (h : items N fuel d u = some (js, r)) : value N (fuel + 1) (d + 1) s = some (.arr js, r) := by
  rw [value, hs]
  simp only [hu]
  split
  · exact absurd (List.cons.inj ‹_›).1 hc
  · rw [h]; rfl

theorem value_obj (N : Floats) (fuel d : Nat) {s u r v : Str} {ms : List (Str × Json)} (hs : skip s = '{' :: u) (hu : skip u = '"' :: v)
    (h : members N fuel d u = some (ms, r)) : value N (fuel + 1) (d + 1) s = some (.obj ms, r) := by
  rw [value, hs]
  simp only [hu]
  rw [h]; rfl

mutual
theorem value_of (N : Floats) : ∀ (fuel : Nat) {d : Nat} {j : Json} {t : Str} (_ : Val N d j t) (w r : Str), 2 * t.length ≤ fuel → Blank w → Stop r →
    value N fuel d (w ++ (t ++ r)) = some (j, r)
  | 0, _, _, _, h, _, _, hf, _, _ => absurd (val_length h) (by omega)
  | fuel + 1, d, j, t, h, w, r, hf, hw, hr => by
    have hskip : skip (w ++ (t ++ r)) = t ++ r := by
      obtain ⟨c, u, rfl, hb, -⟩ := val_start h
      rw [skip_blank hw, List.cons_append, skip_stop hb]
    cases h with
    | null => rw [value, hskip]; rfl
    | yes => rw [value, hskip]; rfl
    | no => rw [value, hskip]; rfl
    | num d hn =>
      obtain ⟨c, u, rfl, hc⟩ := number_start hn
      rw [value_number N fuel d hskip hc]
      exact number_of hn hr
    | @str d s t hq => exact value_string N fuel d (by rw [hskip]; simp) hq
    | @arr0 d w' hb =>
      have h2 : skip (w' ++ ']' :: r) = ']' :: r := by rw [skip_blank hb, skip_stop (by decide)]
      rw [value, hskip]
      simp [h2]
    | @arr d js t hi =>
      obtain ⟨c, v, hv, hc⟩ := items_start hi (']' :: r)
      simp only [List.length_cons, List.length_append, List.length_nil] at hf
      exact value_arr N fuel d (by rw [hskip, List.cons_append, List.append_assoc]; rfl) hv hc (items_of N fuel hi r (by omega))
    | @obj0 d w' hb =>
      have h2 : skip (w' ++ '}' :: r) = '}' :: r := by rw [skip_blank hb, skip_stop (by decide)]
      rw [value, hskip]
      simp [h2]
    | @obj d ms t hm =>
      obtain ⟨v, hv⟩ := members_start hm ('}' :: r)
      simp only [List.length_cons, List.length_append, List.length_nil] at hf
      exact value_obj N fuel d (by rw [hskip, List.cons_append, List.append_assoc]; rfl) hv (members_of N fuel hm r (by omega))
theorem items_of (N : Floats) : ∀ (fuel : Nat) {d : Nat} {js : List Json} {t : Str} (_ : Items N d js t) (r : Str), 2 * t.length + 1 ≤ fuel →
    items N fuel d (t ++ ']' :: r) = some (js, r)
  | 0, _, _, _, _, _, hf => absurd hf (by omega)
  | fuel + 1, d, js, t, h, r, hf => by
    cases h with
    | @one d j w1 t w2 h1 hv h2 =>
      simp only [List.length_append] at hf
      have e := value_of N fuel hv w1 (w2 ++ ']' :: r) (by omega) h1 (stop_blank h2 (stop_bracket r))
      rw [items, show w1 ++ (t ++ w2) ++ ']' :: r = w1 ++ (t ++ (w2 ++ ']' :: r)) by simp, e]
      simp [skip_blank h2, skip_stop (show isBlank ']' = false by decide)]
    | @cons d j js w1 t w2 u h1 hv h2 hi =>
      simp only [List.length_append, List.length_cons] at hf
      have e := value_of N fuel hv w1 (w2 ++ ',' :: (u ++ ']' :: r)) (by omega) h1 (stop_blank h2 (stop_comma _))
      have e2 := items_of N fuel hi r (by omega)
      rw [items, show w1 ++ (t ++ (w2 ++ ',' :: u)) ++ ']' :: r = w1 ++ (t ++ (w2 ++ ',' :: (u ++ ']' :: r))) by simp, e]
      simp [skip_blank h2, skip_stop (show isBlank ',' = false by decide), e2]
theorem members_of (N : Floats) : ∀ (fuel : Nat) {d : Nat} {ms : List (Str × Json)} {t : Str} (_ : Members N d ms t) (r : Str), 2 * t.length + 1 ≤ fuel →
    members N fuel d (t ++ '}' :: r) = some (ms, r)
  | 0, _, _, _, _, _, hf => absurd hf (by omega)
  | fuel + 1, d, ms, t, h, r, hf => by
    cases h with
    | @one d k j w0 kt w1 w2 t w3 h0 hk h1 h2 hv h3 =>
      simp only [List.length_append, List.length_cons] at hf
      have e := value_of N fuel hv w2 (w3 ++ '}' :: r) (by omega) h2 (stop_blank h3 (stop_brace r))
      rw [members, show w0 ++ '"' :: (kt ++ '"' :: (w1 ++ ':' :: (w2 ++ (t ++ w3)))) ++ '}' :: r =
        w0 ++ '"' :: (kt ++ '"' :: (w1 ++ ':' :: (w2 ++ (t ++ (w3 ++ '}' :: r))))) by simp, skip_blank h0, skip_stop (by decide)]
      simp only
      rw [string_of hk _ _ (by simp; omega)]
      simp [skip_blank h1, skip_stop (show isBlank ':' = false by decide), e, skip_blank h3, skip_stop (show isBlank '}' = false by decide)]
    | @cons d k j ms w0 kt w1 w2 t w3 u h0 hk h1 h2 hv h3 hi =>
      simp only [List.length_append, List.length_cons] at hf
      have e := value_of N fuel hv w2 (w3 ++ ',' :: (u ++ '}' :: r)) (by omega) h2 (stop_blank h3 (stop_comma _))
      have e2 := members_of N fuel hi r (by omega)
      rw [members, show w0 ++ '"' :: (kt ++ '"' :: (w1 ++ ':' :: (w2 ++ (t ++ (w3 ++ ',' :: u))))) ++ '}' :: r =
        w0 ++ '"' :: (kt ++ '"' :: (w1 ++ ':' :: (w2 ++ (t ++ (w3 ++ ',' :: (u ++ '}' :: r)))))) by simp, skip_blank h0, skip_stop (by decide)]
      simp only
      rw [string_of hk _ _ (by simp; omega)]
      simp [skip_blank h1, skip_stop (show isBlank ':' = false by decide), e, skip_blank h3, skip_stop (show isBlank ',' = false by decide), e2]
end

/-! ### Only texts of the grammar are read -/

mutual
theorem of_value (N : Floats) : ∀ (fuel : Nat) {d : Nat} {s r : Str} {j : Json}, value N fuel d s = some (j, r) → ∃ w t, s = w ++ (t ++ r) ∧ Blank w ∧ Val N d j t
  | 0, _, _, _, _, h => by simp [value] at h
  | fuel + 1, d, s, r, j, h => by
    obtain ⟨w, hs, hw⟩ := skip_split s
    rw [value] at h
    suffices ∃ t, skip s = t ++ r ∧ Val N d j t by
      obtain ⟨t, ht, hv⟩ := this
      exact ⟨w, t, by rw [← ht]; exact hs, hw, hv⟩
    clear hs
    generalize skip s = u at h
    split at h
    · simp only [Option.bind_eq_bind, Option.bind_eq_some_iff, Option.pure_def, Option.some.injEq, Prod.mk.injEq] at h
      obtain ⟨⟨k, r1⟩, e, rfl, rfl⟩ := h
      obtain ⟨kt, rfl, hq⟩ := of_string _ e
      exact ⟨'"' :: (kt ++ ['"']), by simp, .str d hq⟩
    · rename_i u
      split at h
      · exact absurd h (by simp)
      · rename_i d
        obtain ⟨w', hu, hw'⟩ := skip_split u
        split at h
        · rename_i r1 heq
          simp only [Option.some.injEq, Prod.mk.injEq] at h
          obtain ⟨rfl, rfl⟩ := h
          rw [heq] at hu
          exact ⟨'[' :: (w' ++ [']']), by rw [hu]; simp, .arr0 d hw'⟩
        · simp only [Option.bind_eq_bind, Option.bind_eq_some_iff, Option.pure_def, Option.some.injEq, Prod.mk.injEq] at h
          obtain ⟨⟨js, r1⟩, e, rfl, rfl⟩ := h
          obtain ⟨t, ht, hi⟩ := of_items N fuel e
          exact ⟨'[' :: (t ++ [']']), by rw [ht]; simp, .arr hi⟩
    · rename_i u
      split at h
      · exact absurd h (by simp)
      · rename_i d
        obtain ⟨w', hu, hw'⟩ := skip_split u
        split at h
        · rename_i r1 heq
          simp only [Option.some.injEq, Prod.mk.injEq] at h
          obtain ⟨rfl, rfl⟩ := h
          rw [heq] at hu
          exact ⟨'{' :: (w' ++ ['}']), by rw [hu]; simp, .obj0 d hw'⟩
        · simp only [Option.bind_eq_bind, Option.bind_eq_some_iff, Option.pure_def, Option.some.injEq, Prod.mk.injEq] at h
          obtain ⟨⟨js, r1⟩, e, rfl, rfl⟩ := h
          obtain ⟨t, ht, hi⟩ := of_members N fuel e
          exact ⟨'{' :: (t ++ ['}']), by rw [ht]; simp, .obj hi⟩
    · simp only [Option.some.injEq, Prod.mk.injEq] at h
      obtain ⟨rfl, rfl⟩ := h
      exact ⟨c!"null", rfl, .null d⟩
    · simp only [Option.some.injEq, Prod.mk.injEq] at h
      obtain ⟨rfl, rfl⟩ := h
      exact ⟨c!"true", rfl, .yes d⟩
    · simp only [Option.some.injEq, Prod.mk.injEq] at h
      obtain ⟨rfl, rfl⟩ := h
      exact ⟨c!"false", rfl, .no d⟩
    · obtain ⟨n, t, rfl, rfl, hn⟩ := of_number h
      exact ⟨t, rfl, .num d hn⟩
theorem of_items (N : Floats) : ∀ (fuel : Nat) {d : Nat} {s r : Str} {js : List Json}, items N fuel d s = some (js, r) → ∃ t, s = t ++ ']' :: r ∧ Items N d js t
  | 0, _, _, _, _, h => by simp [items] at h
  | fuel + 1, d, s, r, js, h => by
    rw [items] at h
    simp only [Option.bind_eq_bind, Option.bind_eq_some_iff, Option.pure_def] at h
    obtain ⟨⟨j, r1⟩, e, h⟩ := h
    obtain ⟨w1, t, rfl, hw1, hv⟩ := of_value N fuel e
    simp only at h
    obtain ⟨w2, hr1, hw2⟩ := skip_split r1
    split at h
    · rename_i r2 heq
      simp only [Option.some.injEq, Prod.mk.injEq] at h
      obtain ⟨rfl, rfl⟩ := h
      rw [heq] at hr1
      exact ⟨w1 ++ (t ++ w2), by rw [hr1]; simp, .one hw1 hv hw2⟩
    · rename_i r2 heq
      simp only [Option.bind_eq_some_iff, Option.some.injEq, Prod.mk.injEq] at h
      obtain ⟨⟨js', r3⟩, e2, rfl, rfl⟩ := h
      obtain ⟨u, hu, hi⟩ := of_items N fuel e2
      rw [heq] at hr1
      exact ⟨w1 ++ (t ++ (w2 ++ ',' :: u)), by rw [hr1, hu]; simp, .cons hw1 hv hw2 hi⟩
    · exact absurd h (by simp)
theorem of_members (N : Floats) : ∀ (fuel : Nat) {d : Nat} {s r : Str} {ms : List (Str × Json)}, members N fuel d s = some (ms, r) →
    ∃ t, s = t ++ '}' :: r ∧ Members N d ms t
  | 0, _, _, _, _, h => by simp [members] at h
  | fuel + 1, d, s, r, ms, h => by
    rw [members] at h
    obtain ⟨w0, hs, hw0⟩ := skip_split s
    split at h
    · rename_i r0 heq0
      rw [heq0] at hs
      simp only [Option.bind_eq_bind, Option.bind_eq_some_iff, Option.pure_def] at h
      obtain ⟨⟨k, r1⟩, ek, h⟩ := h
      obtain ⟨kt, rfl, hq⟩ := of_string _ ek
      simp only at h
      obtain ⟨w1, hr1, hw1⟩ := skip_split r1
      split at h
      · rename_i r2 heq1
        rw [heq1] at hr1
        simp only [Option.bind_eq_some_iff] at h
        obtain ⟨⟨j, r3⟩, e, h⟩ := h
        obtain ⟨w2, t, rfl, hw2, hv⟩ := of_value N fuel e
        simp only at h
        obtain ⟨w3, hr3, hw3⟩ := skip_split r3
        split at h
        · rename_i r4 heq
          simp only [Option.some.injEq, Prod.mk.injEq] at h
          obtain ⟨rfl, rfl⟩ := h
          rw [heq] at hr3
          exact ⟨w0 ++ '"' :: (kt ++ '"' :: (w1 ++ ':' :: (w2 ++ (t ++ w3)))), by rw [hs, hr1, hr3]; simp, .one hw0 hq hw1 hw2 hv hw3⟩
        · rename_i r4 heq
          simp only [Option.bind_eq_some_iff, Option.some.injEq, Prod.mk.injEq] at h
          obtain ⟨⟨ms', r5⟩, e2, rfl, rfl⟩ := h
          obtain ⟨u, hu, hi⟩ := of_members N fuel e2
          rw [heq] at hr3
          exact ⟨w0 ++ '"' :: (kt ++ '"' :: (w1 ++ ':' :: (w2 ++ (t ++ (w3 ++ ',' :: u))))), by rw [hs, hr1, hr3, hu]; simp, .cons hw0 hq hw1 hw2 hv hw3 hi⟩
        · exact absurd h (by simp)
      · exact absurd h (by simp)
    · exact absurd h (by simp)
end

/-- Reading is reading by the grammar. -/
theorem tree_iff (N : Floats) (s : Str) (j : Json) : tree N s = some j ↔ Text N 127 j s := by
  unfold tree maxDepth
  constructor
  · intro h
    split at h
    · rename_i j' r e
      by_cases hb : (skip r).isEmpty = true
      · rw [if_pos hb] at h
        simp only [Option.some.injEq] at h
        subst h
        obtain ⟨w, t, rfl, hw, hv⟩ := of_value N _ e
        obtain ⟨w2, hr, hw2⟩ := skip_split r
        rw [List.isEmpty_iff.1 hb, List.append_nil] at hr
        exact ⟨w, t, r, rfl, hw, hv, by rw [hr]; exact hw2⟩
      · rw [if_neg hb] at h; exact absurd h (by simp)
    · exact absurd h (by simp)
  · rintro ⟨w1, t, w2, rfl, h1, hv, h2⟩
    have hst : Stop w2 := by have := stop_blank h2 stop_nil; rwa [List.append_nil] at this
    rw [value_of N _ hv w1 w2 (by simp only [List.length_append]; omega) h1 hst]
    simp only
    rw [skip_of_blank h2]
    rfl

end JsonText
