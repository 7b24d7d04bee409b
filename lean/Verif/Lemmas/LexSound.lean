import Verif.Lemmas.LexText
/-! Every token the lexer delivers is spelled by the characters it consumed. -/

namespace Lx
open Spec

theorem not_digit {c : Char} (h : ¬ Str.asciiDigit c = true) : ¬ ('0' ≤ c ∧ c ≤ '9') := fun h' => h ((digit_iff c).2 h')

theorem numTail_true (r : Str) : ∃ tl left, numTail true r = (tl, left, true) ∧ r = tl ++ left ∧ Digits tl ∧
    NextIs (fun c => ¬ ('0' ≤ c ∧ c ≤ '9')) left := by
  induction r with
  | nil => exact ⟨[], [], rfl, rfl, by simp [Digits], by simp [NextIs]⟩
  | cons c cs ih =>
    obtain ⟨tl, left, h1, h2, h3, h4⟩ := ih
    rw [numTail_cons]
    by_cases hc : Str.asciiDigit c = true
    · rw [if_pos hc, h1]
      refine ⟨c :: tl, left, rfl, by rw [h2]; rfl, ?_, h4⟩
      intro d hd
      rcases List.mem_cons.1 hd with rfl | hd
      · exact (digit_iff d).1 hc
      · exact h3 d hd
    · rw [if_neg hc, if_neg (by simp)]
      exact ⟨[], c :: cs, rfl, rfl, by simp [Digits], by simpa [NextIs] using not_digit hc⟩

theorem numTail_false (r : Str) : ∃ tl left hd, numTail false r = (tl, left, hd) ∧ r = tl ++ left ∧
    NextIs (fun c => ¬ ('0' ≤ c ∧ c ≤ '9')) left ∧
    ((hd = false ∧ Digits tl ∧ ∀ r', left = '.' :: r' → ∃ d r'', r' = d :: r'' ∧ ¬ ('0' ≤ d ∧ d ≤ '9')) ∨
     (hd = true ∧ ∃ ip fp, tl = ip ++ '.' :: fp ∧ Digits ip ∧ Digits fp ∧ (fp = [] → left = []))) := by
  induction r with
  | nil => exact ⟨[], [], false, rfl, rfl, by simp [NextIs], .inl ⟨rfl, by simp [Digits], by simp⟩⟩
  | cons c cs ih =>
    rw [numTail_cons]
    by_cases hc : Str.asciiDigit c = true
    · obtain ⟨tl, left, hd, h1, h2, h3, h4⟩ := ih
      rw [if_pos hc, h1]
      refine ⟨c :: tl, left, hd, rfl, by rw [h2]; rfl, h3, ?_⟩
      have hdig : ∀ l : Str, Digits l → Digits (c :: l) := by
        intro l hl d hd
        rcases List.mem_cons.1 hd with rfl | hd
        · exact (digit_iff d).1 hc
        · exact hl d hd
      rcases h4 with ⟨h4, h5, h6⟩ | ⟨h4, ip, fp, rfl, h6, h7, h8⟩
      · exact .inl ⟨h4, hdig _ h5, h6⟩
      · exact .inr ⟨h4, c :: ip, fp, rfl, hdig _ h6, h7, h8⟩
    · rw [if_neg hc]
      by_cases hd : c = '.' ∧ false = false
      · rw [if_pos hd]
        obtain ⟨rfl, _⟩ := hd
        cases cs with
        | nil =>
          exact ⟨['.'], [], true, rfl, rfl, by simp [NextIs],
            .inr ⟨rfl, [], [], rfl, by simp [Digits], by simp [Digits], fun _ => rfl⟩⟩
        | cons d cs =>
          simp only
          by_cases hdd : Str.asciiDigit d = true
          · rw [if_pos hdd]
            obtain ⟨tl, left, h1, h2, h3, h4⟩ := numTail_true (d :: cs)
            rw [h1]
            refine ⟨'.' :: tl, left, true, rfl, by rw [h2]; rfl, h4, .inr ⟨rfl, [], tl, rfl, by simp [Digits], h3, ?_⟩⟩
            rintro rfl
            simp only [List.nil_append] at h2
            rw [← h2] at h4
            exact absurd ((digit_iff d).1 hdd) (h4 d (by simp))
          · rw [if_neg hdd]
            refine ⟨[], _, false, rfl, rfl, by simp [NextIs], .inl ⟨rfl, by simp [Digits], ?_⟩⟩
            intro r' hr
            simp only [List.cons.injEq, true_and] at hr
            exact ⟨d, cs, hr.symm, not_digit hdd⟩
      · rw [if_neg hd]
        refine ⟨[], _, false, rfl, rfl, by simpa [NextIs] using not_digit hc, .inl ⟨rfl, by simp [Digits], ?_⟩⟩
        intro r' hr
        simp at hr
        exact absurd ⟨hr.1, rfl⟩ hd

/-- What the characters consumed by a token look like. -/
def Took (c : Char) (r : Str) (t : Token) (l' : Lx) : Prop :=
  ∃ s, r = s ++ l'.rest ∧ Written t (c :: s) ∧ NoGlue t (c :: s) l'.rest

theorem number_took {c : Char} {r : Str} {p : Nat} {t : Token} {l' : Lx}
    (hc : ('0' ≤ c ∧ c ≤ '9') ∨ (c = '.' ∧ ∃ d r', r = d :: r' ∧ '0' ≤ d ∧ d ≤ '9'))
    (h : number c r p = .ok (t, l')) : Took c r t l' := by
  have key : ∀ tl left hd, numTail (c = '.') r = (tl, left, hd) →
      ∀ q, Numeral (c :: tl) q → hd = decide ('.' ∈ c :: tl) → t = .number (F64.round q) ∧ l'.rest = left := by
    intro tl left hd h1 q hq hdd
    unfold number at h
    rw [h1] at h
    simp only at h
    rw [hdd, numValue_numeral hq] at h
    simp only [Except.ok.injEq, Prod.mk.injEq] at h
    exact ⟨h.1.symm, by rw [← h.2]⟩
  rcases hc with hc | ⟨rfl, d, r', rfl, hd⟩
  · have hne : c ≠ '.' := by rintro rfl; exact absurd hc (by decide)
    obtain ⟨tl, left, hd, h1, h2, h3, h4⟩ := numTail_false r
    have h1' : numTail (c = '.') r = (tl, left, hd) := by simpa [hne] using h1
    rcases h4 with ⟨rfl, h5, h6⟩ | ⟨rfl, ip, fp, rfl, h5, h6, h7⟩
    · have hdig : Digits (c :: tl) := by
        intro d hd
        rcases List.mem_cons.1 hd with rfl | hd
        · exact hc
        · exact h5 d hd
      have hnd : '.' ∉ c :: tl := fun hm => absurd (hdig '.' hm) (by decide)
      have hn := Numeral.int (c :: tl) (by simp) hdig
      obtain ⟨rfl, e⟩ := key _ _ _ h1' _ hn (by simp [hnd])
      refine ⟨tl, by rw [e]; exact h2, .number hn (denotes_round _), ?_⟩
      rw [e]
      exact ⟨h3, fun _ => h6, fun hl => absurd (List.mem_of_getLast? hl) hnd⟩
    · have hdig : Digits (c :: ip) := by
        intro d hd
        rcases List.mem_cons.1 hd with rfl | hd
        · exact hc
        · exact h5 d hd
      have hn := Numeral.dec (c :: ip) fp (by simp) hdig h6
      obtain ⟨rfl, e⟩ := key _ _ _ h1' _ hn (by simp)
      refine ⟨_, by rw [e]; exact h2, .number hn (denotes_round _), ?_⟩
      rw [e]
      refine ⟨h3, fun hx => absurd (by simp) hx, fun hl => ?_⟩
      cases fp with
      | nil => exact h7 rfl
      | cons f fp =>
        exfalso
        have hl' : ((c :: ip) ++ '.' :: f :: fp).getLast? = some '.' := hl
        rw [List.getLast?_append_cons, List.getLast?_cons_cons] at hl'
        exact absurd (h6 '.' (List.mem_of_getLast? hl')) (by decide)
  · obtain ⟨tl, left, h1, h2, h3, h4⟩ := numTail_true (d :: r')
    have h1' : numTail ('.' = '.') (d :: r') = (tl, left, true) := by simpa using h1
    have hne : tl ≠ [] := by
      rintro rfl
      simp only [List.nil_append] at h2
      rw [← h2] at h4
      exact absurd hd (h4 d (by simp))
    have hn := Numeral.dec [] tl (.inr hne) (by simp [Digits]) h3
    obtain ⟨rfl, e⟩ := key _ _ _ h1' _ hn (by simp)
    refine ⟨tl, by rw [e]; exact h2, .number hn (denotes_round _), ?_⟩
    rw [e]
    refine ⟨h4, fun hx => absurd (by simp) hx, fun hl => ?_⟩
    exfalso
    cases tl with
    | nil => exact hne rfl
    | cons f tl =>
      rw [List.getLast?_cons_cons] at hl
      exact absurd (h3 '.' (List.mem_of_getLast? hl)) (by decide)

theorem keyword_written {s : Str} (hs : IsName s) : Written (keyword s) s := by
  rw [keyword_eq]
  split
  · exact .tru ‹_›
  · split
    · exact .null ‹_›
    · split
      · exact .fls ‹_›
      · exact .name hs ‹_› ‹_› ‹_›

theorem identifier_took {c : Char} {r : Str} {p : Nat} {t : Token} {l' : Lx} (hc : nameStart c)
    (h : identifier c r p = .ok (t, l')) : Took c r t l' := by
  unfold identifier at h
  simp only [Except.ok.injEq, Prod.mk.injEq] at h
  obtain ⟨rfl, rfl⟩ := h
  have hname : IsName (c :: r.takeWhile isIdent) :=
    ⟨c, _, rfl, hc, fun d hd => (isIdent_iff d).1 (by
      induction r with
      | nil => simp at hd
      | cons e r ih =>
        rw [List.takeWhile_cons] at hd
        split at hd
        · rcases List.mem_cons.1 hd with rfl | hd
          · assumption
          · exact ih hd
        · simp at hd)⟩
  refine ⟨r.takeWhile isIdent, (List.takeWhile_append_dropWhile).symm, keyword_written hname, ?_⟩
  have hnext : NextIs (fun c => ¬ nameChar c) (r.dropWhile isIdent) := by
    intro d hd hn
    have := List.head?_dropWhile_not isIdent r
    rw [Option.mem_def] at hd
    rw [hd] at this
    simp only at this
    rw [(isIdent_iff d).2 hn] at this
    exact absurd this (by simp)
  have hk := keyword_eq (c :: r.takeWhile isIdent)
  rw [hk]
  simp only
  split
  · exact hnext
  · split
    · exact hnext
    · split
      · exact hnext
      · exact hnext

theorem strBody_took (q : Char) : ∀ (n : Nat) (r : Str), r.length ≤ n → ∀ p m left p',
    strBody q r p = .ok (m, left, p') → ∃ w, r = w ++ q :: left ∧ Quoted q w m := by
  intro n
  induction n with
  | zero =>
    intro r hr p m left p' h
    cases r with
    | nil => simp [strBody] at h
    | cons c r => simp at hr
  | succ n ih =>
    intro r hr p m left p' h
    cases r with
    | nil => simp [strBody] at h
    | cons c cs =>
      rw [strBody.eq_def] at h
      simp only at h
      by_cases hc : c = q
      · rw [if_pos hc] at h
        simp only [Except.ok.injEq, Prod.mk.injEq] at h
        obtain ⟨rfl, rfl, _⟩ := h
        exact ⟨[], by rw [hc]; rfl, .nil⟩
      · rw [if_neg hc] at h
        by_cases hb : c = '\\'
        · rw [if_pos hb] at h
          subst hb
          cases cs with
          | nil => simp at h
          | cons e cs =>
            simp only at h
            split at h
            · rename_i b r' p'' hx
              simp only [Except.ok.injEq, Prod.mk.injEq] at h
              obtain ⟨rfl, rfl, _⟩ := h
              obtain ⟨w, h1, h2⟩ := ih cs (by simp at hr; omega) _ _ _ _ hx
              exact ⟨'\\' :: e :: w, by rw [h1]; rfl, .esc e h2⟩
            · simp at h
        · rw [if_neg hb] at h
          split at h
          · rename_i b r' p'' hx
            simp only [Except.ok.injEq, Prod.mk.injEq] at h
            obtain ⟨rfl, rfl, _⟩ := h
            obtain ⟨w, h1, h2⟩ := ih cs (by simpa using hr) _ _ _ _ hx
            exact ⟨c :: w, by rw [h1]; rfl, .plain c hc hb h2⟩
          · simp at h

theorem string_took {q : Char} (hq : q = '"' ∨ q = '\'') {r : Str} {p : Nat} {t : Token} {l' : Lx}
    (h : string q r p = .ok (t, l')) : Took q r t l' := by
  unfold string at h
  split at h
  · rename_i b r' p' hx
    simp only [Except.ok.injEq, Prod.mk.injEq] at h
    obtain ⟨rfl, rfl⟩ := h
    obtain ⟨w, h1, h2⟩ := strBody_took q _ r (Nat.le_refl _) _ _ _ _ hx
    exact ⟨w ++ [q], by rw [h1]; simp, .string hq h2, trivial⟩
  · simp at h

theorem nextIs_of {P : Char → Prop} {r : Str} (h : ∀ c r', r = c :: r' → P c) : NextIs P r := by
  intro c hc
  cases r with
  | nil => simp at hc
  | cons d r => simp at hc; subst hc; exact h _ _ rfl

theorem two_eq {t u : Token} {r : Str} {p : Nat} {l' : Lx} (h : two t r p = .ok (u, l')) : u = t ∧ l'.rest = r := by
  unfold two at h
  split at h
  · simp [panics] at h
  · simp only [Except.ok.injEq, Prod.mk.injEq] at h
    exact ⟨h.1.symm, by rw [← h.2]⟩

theorem one_eq {t u : Token} {r : Str} {p : Nat} {l' : Lx} (h : one t r p = .ok (u, l')) : u = t ∧ l'.rest = r := by
  unfold one at h
  simp only [Except.ok.injEq, Prod.mk.injEq] at h
  exact ⟨h.1.symm, by rw [← h.2]⟩

theorem withEq_took {c : Char} {t1 t2 t : Token} {r : Str} {p : Nat} {l' : Lx}
    (h1 : (t1, [c]) ∈ symbols) (h2 : (t2, [c, '=']) ∈ symbols)
    (hg1 : ∀ r, NextIs (· ≠ '=') r → NoGlue t1 [c] r) (hg2 : ∀ r, NoGlue t2 [c, '='] r)
    (h : withEq t1 t2 r p = .ok (t, l')) : Took c r t l' := by
  unfold withEq at h
  split at h
  · obtain ⟨rfl, e⟩ := two_eq h
    exact ⟨['='], by rw [e]; rfl, .symbol h2, hg2 _⟩
  · rename_i hne
    obtain ⟨rfl, e⟩ := one_eq h
    exact ⟨[], by rw [e]; rfl, .symbol h1, hg1 _ (by rw [e]; exact nextIs_of fun c r' hr hc => hne r' (by rw [hr, hc]))⟩

theorem symbol_took {c : Char} {r : Str} {p : Nat} {t : Token} {l' : Lx} (h : symbol c r p = .ok (t, l')) :
    Took c r t l' := by
  unfold symbol at h
  split at h
  · rename_i hc; subst hc
    unfold dots at h
    split at h
    · simp only [Except.ok.injEq, Prod.mk.injEq] at h
      obtain ⟨rfl, rfl⟩ := h
      exact ⟨['.', '.'], rfl, .symbol (by simp [symbols]), trivial⟩
    · rename_i d r' hne
      split at h
      · rename_i hd
        exact number_took (.inr ⟨rfl, d, _, rfl, (digit_iff d).1 hd⟩) h
      · rename_i hd
        obtain ⟨rfl, e⟩ := one_eq h
        rw [Took]
        rw [e]
        exact ⟨[], rfl, .symbol (by simp [symbols]), nextIs_of (fun c r'' hr => by
            simp only [List.cons.injEq] at hr
            rw [← hr.1]; exact not_digit hd), fun r'' hr => by
            simp only [List.cons.injEq] at hr
            exact hne r'' hr.1 hr.2⟩
    · obtain ⟨rfl, e⟩ := one_eq h
      exact ⟨[], by rw [e]; rfl, .symbol (by simp [symbols]), by rw [e]; simp [NoGlue, NextIs]⟩
  split at h
  · rename_i hc; exact string_took hc h
  split at h
  · rename_i hc; subst hc
    exact withEq_took (t1 := .bang) (t2 := .ne) (by simp [symbols]) (by simp [symbols]) (fun r h => h) (fun r => trivial) h
  split at h
  · rename_i hc; subst hc
    unfold colons at h
    split at h
    · obtain ⟨rfl, e⟩ := two_eq h
      exact ⟨[':'], by rw [e]; rfl, .symbol (by simp [symbols]), trivial⟩
    · obtain ⟨rfl, e⟩ := two_eq h
      exact ⟨['='], by rw [e]; rfl, .symbol (by simp [symbols]), trivial⟩
    · rename_i h1 h2
      obtain ⟨rfl, e⟩ := one_eq h
      refine ⟨[], by rw [e]; rfl, .symbol (by simp [symbols]), ?_⟩
      rw [e]
      exact nextIs_of fun c r' hr => ⟨fun hc => h1 r' (by rw [hr, hc]), fun hc => h2 r' (by rw [hr, hc])⟩
  split at h
  · rename_i hc; subst hc
    exact withEq_took (t1 := .gt) (t2 := .ge) (by simp [symbols]) (by simp [symbols]) (fun r h => h) (fun r => trivial) h
  split at h
  · rename_i hc; subst hc
    exact withEq_took (t1 := .lt) (t2 := .le) (by simp [symbols]) (by simp [symbols]) (fun r h => h) (fun r => trivial) h
  split at h
  · rename_i hc; subst hc
    unfold equals at h
    split at h
    · obtain ⟨rfl, e⟩ := two_eq h
      exact ⟨['='], by rw [e]; rfl, .symbol (by simp [symbols]), by simp [NoGlue]⟩
    · rename_i hne
      obtain ⟨rfl, e⟩ := two_eq h
      refine ⟨[], by rw [e]; rfl, .symbol (by simp [symbols]), fun _ => ?_⟩
      rw [e]
      exact nextIs_of fun c r' hr hc => hne r' (by rw [hr, hc])
  split at h
  · rename_i hc; subst hc
    unfold ampersand at h
    split at h
    · obtain ⟨rfl, e⟩ := two_eq h
      exact ⟨['&'], by rw [e]; rfl, .symbol (by simp [symbols]), trivial⟩
    · obtain ⟨rfl, e⟩ := two_eq h
      exact ⟨['.'], by rw [e]; rfl, .symbol (by simp [symbols]), trivial⟩
    · simp [errAt] at h
  split at h
  · rename_i hc; subst hc
    unfold bar at h
    split at h
    · obtain ⟨rfl, e⟩ := two_eq h
      exact ⟨['|'], by rw [e]; rfl, .symbol (by simp [symbols]), trivial⟩
    · simp [errAt] at h
  · simp [errAt] at h

theorem simple_symbol {c : Char} {t : Token} (h : simple c = some t) :
    (t, [c]) ∈ symbols ∧ t ≠ .eof ∧ ∀ r, NoGlue t [c] r := by
  unfold simple at h
  split at h <;> first | (cases h; exact ⟨by simp [symbols], by simp, fun r => trivial⟩) | simp at h

theorem token_took {c : Char} {r : Str} {p : Nat} {t : Token} {l' : Lx} (h : token c r p = .ok (t, l')) :
    Took c r t l' := by
  unfold token at h
  split at h
  · rename_i hc; exact number_took (.inl ((digit_iff c).1 hc)) h
  split at h
  · rename_i hc; exact identifier_took ((alpha_iff c).1 hc) h
  split at h
  · rename_i t' hs
    obtain ⟨rfl, e⟩ := one_eq h
    obtain ⟨h1, _, h3⟩ := simple_symbol hs
    exact ⟨[], by rw [e]; rfl, .symbol h1, h3 _⟩
  · exact symbol_took h

theorem written_ne_eof {t : Token} {s : Str} (h : Written t s) : t ≠ .eof := by
  cases h with
  | symbol h => rintro rfl; simp [symbols] at h
  | _ => simp

theorem skipWs_split (s : Str) (p : Nat) : ∃ ws, Blank ws ∧ s = ws ++ (skipWs s p).1 ∧
    ∀ c ∈ (skipWs s p).1.head?, isSpace c = false := by
  induction s generalizing p with
  | nil => exact ⟨[], by simp [Blank], rfl, by simp [skipWs]⟩
  | cons c cs ih =>
    rw [skipWs]
    split
    · rename_i hc
      obtain ⟨ws, h1, h2, h3⟩ := ih (p + 1)
      refine ⟨c :: ws, ?_, by rw [List.cons_append, ← h2], h3⟩
      intro d hd
      rcases List.mem_cons.1 hd with rfl | hd
      · simp only [isSpace, Bool.or_eq_true, decide_eq_true_eq] at hc
        rcases hc with ((h | h) | h) | h <;> simp [h]
      · exact h1 d hd
    · rename_i hc
      exact ⟨[], by simp [Blank], rfl, by simpa using hc⟩

/-- One token: the whitespace before it, its spelling, and what is left. -/
theorem next_took {l l' : Lx} {t : Token} (h : l.next = .ok (t, l')) :
    (t = .eof ∧ Blank l.rest) ∨
    (t ≠ .eof ∧ ∃ ws s, l.rest = ws ++ (s ++ l'.rest) ∧ Blank ws ∧ Written t s ∧ NoGlue t s l'.rest) := by
  unfold next at h
  obtain ⟨ws, h1, h2, _⟩ := skipWs_split l.rest l.pos
  split at h
  · rename_i p hx
    rw [hx, List.append_nil] at h2
    simp only [Except.ok.injEq, Prod.mk.injEq] at h
    exact .inl ⟨h.1.symm, by rw [h2]; exact h1⟩
  · rename_i c r p hx
    rw [hx] at h2
    obtain ⟨s, h3, h4, h5⟩ := token_took h
    exact .inr ⟨written_ne_eof h4, ws, c :: s, by rw [h2]; simp only [List.cons_append]; rw [← h3], h1, h4, h5⟩

end Lx
