import Verif.Model.Parser
/-! The lexer always advances, never runs out of fuel, and panics only on a leading single `=`. -/

namespace Lx

theorem skipWs_len (s : Str) (p : Nat) : (skipWs s p).1.length ≤ s.length := by
  induction s generalizing p with
  | nil => simp [skipWs]
  | cons c cs ih =>
    simp only [skipWs]
    split
    · exact Nat.le_trans (ih _) (by simp)
    · simp

theorem skipWs_pos (s : Str) (p : Nat) : p ≤ (skipWs s p).2 := by
  induction s generalizing p with
  | nil => simp [skipWs]
  | cons c cs ih =>
    simp only [skipWs]
    split
    · exact Nat.le_trans (Nat.le_succ p) (ih _)
    · simp

theorem numTail_len (d : Bool) (s : Str) :
    (numTail d s).2.1.length ≤ s.length := by
  induction s generalizing d with
  | nil => simp [numTail]
  | cons c cs ih =>
    rw [numTail.eq_def]; simp only
    split
    · exact Nat.le_succ_of_le (ih d)
    · split
      · split
        · simp
        · split
          · exact Nat.le_succ_of_le (ih true)
          · simp
      · simp

/-- What `token` promises: it is never `Eof`, it advances, and it panics only for a single `=` at
position 0. -/
def TokenOk (c : Char) (r : Str) (p : Nat) : Res (Token × Lx) → Prop
  | .ok (t, l) => t ≠ .eof ∧ l.rest.length ≤ r.length ∧ p < l.pos
  | .error (.err ..) => True
  | .error (.panic _) => p = 0 ∧ c = '=' ∧ ∀ r', r ≠ '=' :: r'

theorem strBody_ok (q : Char) (s : Str) (p : Nat) :
    match strBody q s p with
    | .ok (_, r, p') => r.length < s.length ∧ p < p'
    | .error (.err ..) => True
    | .error (.panic _) => False := by
  have wpos : ∀ c, 0 < Str.width c := by
    intro c; unfold Str.width; repeat' split
    all_goals omega
  induction s, p using strBody.induct q with
  | case1 p => trivial
  | case2 cs p => rw [strBody.eq_def]; simp
  | case3 p h => simp [strBody, h]
  | case4 p e cs' b r p' he h ih =>
    rw [he] at ih
    rw [strBody]; simp only [h, if_false, if_true, he]
    simp only [List.length_cons] at *; omega
  | case5 p e cs' f he h ih =>
    rw [he] at ih
    rw [strBody]; simp only [h, if_false, if_true, he]
    cases f <;> simp_all
  | case6 c cs p hq hb b r p' he ih =>
    rw [he] at ih
    rw [strBody.eq_def]; simp only [hq, hb, if_false, he]
    simp only [List.length_cons] at *
    have := wpos c; omega
  | case7 c cs p hq hb f he ih =>
    rw [he] at ih
    rw [strBody.eq_def]; simp only [hq, hb, if_false, he]
    cases f <;> simp_all

theorem keyword_ne_eof (s : Str) : keyword s ≠ .eof := by
  unfold keyword; repeat' split
  all_goals simp

theorem simple_ne_eof (c : Char) (t : Token) (h : simple c = some t) : t ≠ .eof := by
  unfold simple at h
  split at h <;> cases h <;> exact Token.noConfusion

theorem number_ok (c : Char) (r : Str) (p : Nat) : TokenOk c r p (number c r p) := by
  unfold number
  have := numTail_len (c = '.') r
  generalize numTail (c = '.') r = x at *
  obtain ⟨a, b, d⟩ := x
  simp only
  split
  · exact ⟨by simp, this, by simp only; omega⟩
  · trivial

theorem one_ok (t : Token) (ht : t ≠ .eof) (c : Char) (r : Str) (p : Nat) : TokenOk c r p (one t r p) :=
  ⟨ht, by simp, by simp⟩

theorem two_ok (t : Token) (ht : t ≠ .eof) (c : Char) (d : Char) (r : Str) (p : Nat) :
    TokenOk c (d :: r) p (two t r (p + 2)) := by
  unfold two; rw [if_neg (by omega)]; exact ⟨ht, by simp, by simp⟩

theorem symbol_ok (c : Char) (r : Str) (p : Nat) : TokenOk c r p (symbol c r p) := by
  unfold symbol
  by_cases h : c = '.'
  · rw [if_pos h]; subst h; unfold dots
    split
    · exact ⟨by simp, by simp; omega, by simp⟩
    · split
      · exact number_ok _ _ _
      · exact one_ok _ (by simp) _ _ _
    · exact one_ok _ (by simp) _ _ _
  rw [if_neg h]; clear h
  by_cases h : c = '"' ∨ c = '\''
  · rw [if_pos h]
    unfold string
    have := strBody_ok c r (p + 1)
    revert this
    cases strBody c r (p + 1) with
    | ok v => obtain ⟨a, b, d⟩ := v; intro h; simp only [TokenOk] at *; exact ⟨by simp, by omega, by omega⟩
    | error f => cases f <;> simp [TokenOk]
  rw [if_neg h]; clear h
  by_cases h : c = '!'
  · rw [if_pos h]; unfold withEq; split
    · exact two_ok _ (by simp) _ _ _ _
    · exact one_ok _ (by simp) _ _ _
  rw [if_neg h]; clear h
  by_cases h : c = ':'
  · rw [if_pos h]; unfold colons; split
    · exact two_ok _ (by simp) _ _ _ _
    · exact two_ok _ (by simp) _ _ _ _
    · exact one_ok _ (by simp) _ _ _
  rw [if_neg h]; clear h
  by_cases h : c = '>'
  · rw [if_pos h]; unfold withEq; split
    · exact two_ok _ (by simp) _ _ _ _
    · exact one_ok _ (by simp) _ _ _
  rw [if_neg h]; clear h
  by_cases h : c = '<'
  · rw [if_pos h]; unfold withEq; split
    · exact two_ok _ (by simp) _ _ _ _
    · exact one_ok _ (by simp) _ _ _
  rw [if_neg h]; clear h
  by_cases h : c = '='
  · rw [if_pos h]; unfold equals; split
    · exact two_ok _ (by simp) _ _ _ _
    · rename_i hne
      unfold two
      split
      · exact ⟨by omega, h, fun r' hr => hne r' hr⟩
      · exact ⟨by simp, by simp, by simp⟩
  rw [if_neg h]; clear h
  by_cases h : c = '&'
  · rw [if_pos h]; unfold ampersand; split
    · exact two_ok _ (by simp) _ _ _ _
    · exact two_ok _ (by simp) _ _ _ _
    · trivial
  rw [if_neg h]; clear h
  by_cases h : c = '|'
  · rw [if_pos h]; unfold bar; split
    · exact two_ok _ (by simp) _ _ _ _
    · trivial
  rw [if_neg h]
  trivial

theorem token_ok (c : Char) (r : Str) (p : Nat) : TokenOk c r p (token c r p) := by
  unfold token
  split
  · exact number_ok c r p
  split
  · refine ⟨keyword_ne_eof _, ?_, by simp only; omega⟩
    exact (List.dropWhile_sublist _).length_le
  split
  · rename_i t ht
    exact one_ok _ (simple_ne_eof _ _ ht) _ _ _
  · exact symbol_ok c r p

/-- Starting beyond position 0, `next` does not panic, and it advances unless it reports `Eof`. -/
theorem next_ok (l : Lx) :
    match l.next with
    | .ok (t, l') => (t = .eof ∨ (l'.rest.length < l.rest.length ∧ l.pos < l'.pos))
    | .error (.err ..) => True
    | .error (.panic _) => l.pos = 0 ∧ ∃ r, l.rest = '=' :: r ∧ ∀ r', r ≠ '=' :: r' := by
  unfold next
  have h1 := skipWs_len l.rest l.pos
  have h2 := skipWs_pos l.rest l.pos
  have h3 : ∀ c r, skipWs l.rest l.pos = (c :: r, 0) → l.rest = c :: r := by
    intro c r h
    cases hl : l.rest with
    | nil => rw [hl] at h; simp [skipWs] at h
    | cons d ds =>
      rw [hl] at h; simp only [skipWs] at h
      split at h
      · have := skipWs_pos ds (l.pos + 1); rw [h] at this; simp at this
      · simp at h; simp [h]
  generalize hx : skipWs l.rest l.pos = x at *
  obtain ⟨s, p⟩ := x
  cases s with
  | nil => simp
  | cons c r =>
    have := token_ok c r p
    simp only at *
    revert this
    cases token c r p with
    | ok v =>
      rintro ⟨a, b, d⟩
      right
      simp only [List.length_cons] at h1
      omega
    | error f =>
      cases f with
      | err => simp
      | panic w =>
        rintro ⟨a, b, d⟩
        subst a; subst b
        refine ⟨by omega, r, h3 _ _ rfl, d⟩

end Lx

namespace Toks

/-- No entry is a panic or "out of fuel". -/
def Clean : Toks → Prop
  | .eof _ => True
  | .bad (some (.err ..)) => True
  | .bad _ => False
  | .cons _ _ r => Clean r

/-- The number of tokens. -/
def size : Toks → Nat
  | .eof _ => 0
  | .bad _ => 0
  | .cons _ _ r => size r + 1

theorem of_size (n : Nat) (l : Lx) : (Toks.of n l).size ≤ l.rest.length := by
  induction n generalizing l with
  | zero => simp [Toks.of, size]
  | succ n ih =>
    have := l.next_ok
    rw [Toks.of]
    split
    · simp [size]
    · simp [size]
    · rename_i t l' hne heq
      rw [heq] at this; simp only at this
      rcases this with h | h
      · exact absurd h hne
      · simp only [size]; have := ih l'; omega

theorem of_clean (n : Nat) (l : Lx) (hp : 0 < l.pos) (hn : l.rest.length < n) : (Toks.of n l).Clean := by
  induction n generalizing l with
  | zero => omega
  | succ n ih =>
    have := l.next_ok
    rw [Toks.of]
    split
    · rename_i f heq; rw [heq] at this
      cases f with
      | err => trivial
      | panic w => simp only at this; omega
    · trivial
    · rename_i t l' hne heq
      rw [heq] at this; simp only at this
      rcases this with h | h
      · exact absurd h hne
      · exact ih l' (by omega) (by omega)

theorem of_stable (n m : Nat) (l : Lx) (hn : l.rest.length < n) (hm : l.rest.length < m) :
    Toks.of n l = Toks.of m l := by
  induction n generalizing l m with
  | zero => omega
  | succ n ih =>
    cases m with
    | zero => omega
    | succ m =>
      have := l.next_ok
      rw [Toks.of, Toks.of]
      split
      · rfl
      · rfl
      · rename_i t l' hne heq
        rw [heq] at this; simp only at this
        rcases this with h | h
        · exact absurd h hne
        · rw [ih m l' (by omega) (by omega)]

end Toks
