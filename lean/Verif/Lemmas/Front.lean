import Verif.Lemmas.ParsePrint
import Verif.Lemmas.ParsePos
import Verif.Lemmas.LexText
import Verif.Props.Parsing
/-! Text in, tree out: the lexer and parser lemmas put together. -/

open Lib Spec

namespace Parser

/-- With enough fuel, `parseWith` computes `parse`. -/
theorem parse_eq (s : Str) (n : Nat) (h : fuelFor s ≤ n) : parseWith n s = (parse s).mapError some := by
  obtain ⟨r, h1, h2⟩ := C01_parse_terminates s
  rw [h2 n h, h1]

theorem nameStart_val {c : Char} (h : nameStart c) : 65 ≤ c.val.toNat ∧ c.val.toNat ≤ 122 := by
  rcases h with h | h | rfl
  · have h1 : (97 : UInt32).toNat ≤ c.val.toNat := h.1
    have h2 : c.val.toNat ≤ (122 : UInt32).toNat := h.2
    have e1 : (97 : UInt32).toNat = 97 := rfl
    have e2 : (122 : UInt32).toNat = 122 := rfl
    have e3 : (65 : UInt32).toNat = 65 := rfl
    have e4 : (90 : UInt32).toNat = 90 := rfl
    omega
  · have h1 : (65 : UInt32).toNat ≤ c.val.toNat := h.1
    have h2 : c.val.toNat ≤ (90 : UInt32).toNat := h.2
    have e1 : (97 : UInt32).toNat = 97 := rfl
    have e2 : (122 : UInt32).toNat = 122 := rfl
    have e3 : (65 : UInt32).toNat = 65 := rfl
    have e4 : (90 : UInt32).toNat = 90 := rfl
    omega
  · decide

theorem digit_val {c : Char} (h : '0' ≤ c ∧ c ≤ '9') : 48 ≤ c.val.toNat ∧ c.val.toNat ≤ 57 := by
  have h1 : (48 : UInt32).toNat ≤ c.val.toNat := h.1
  have h2 : c.val.toNat ≤ (57 : UInt32).toNat := h.2
  have e1 : (48 : UInt32).toNat = 48 := rfl
  have e2 : (57 : UInt32).toNat = 57 := rfl
  omega

theorem isWs_of_range {c : Char} (h : 33 ≤ c.val.toNat ∧ c.val.toNat ≤ 126) : Str.isWs c = false := by
  unfold Str.isWs
  have e : ∀ k : UInt32, (c.val == k) = decide (c.val.toNat = k.toNat) := by
    intro k
    rw [Bool.eq_iff_iff, beq_iff_eq, decide_eq_true_eq]
    exact UInt32.toNat_inj.symm
  have l1 : ∀ k : UInt32, decide (k ≤ c.val) = decide (k.toNat ≤ c.val.toNat) := by
    intro k; rw [decide_eq_decide]; exact UInt32.le_iff_toNat_le
  have l2 : ∀ k : UInt32, decide (c.val ≤ k) = decide (c.val.toNat ≤ k.toNat) := by
    intro k; rw [decide_eq_decide]; exact UInt32.le_iff_toNat_le
  simp only [e, l1, l2]
  generalize c.val.toNat = v at *
  simp
  omega

theorem ne_eq_of_val {c : Char} (h : c.val.toNat ≠ 61) : c ≠ '=' := by rintro rfl; exact h rfl

/-- The first character of a written token. -/
theorem written_first {t : Token} {s : Str} (h : Written t s) (ht : t ≠ .eq) :
    ∃ c s', s = c :: s' ∧ Str.isWs c = false ∧ c ≠ '=' := by
  have name : ∀ {s}, IsName s → ∃ c s', s = c :: s' ∧ Str.isWs c = false ∧ c ≠ '=' := by
    rintro s ⟨c, s', rfl, hc, _⟩
    have := nameStart_val hc
    exact ⟨c, s', rfl, isWs_of_range (by omega), ne_eq_of_val (by omega)⟩
  cases h with
  | number hn _ =>
    obtain ⟨c, s', rfl, hc⟩ := Lx.numeral_first hn
    refine ⟨c, s', rfl, ?_⟩
    rcases hc with hc | ⟨rfl, _⟩
    · have := digit_val hc
      exact ⟨isWs_of_range (by omega), ne_eq_of_val (by omega)⟩
    · exact ⟨rfl, by decide⟩
  | name hn => exact name hn
  | tru hw => exact name (Lx.word_isName hw (by simp) (by decide))
  | fls hw => exact name (Lx.word_isName hw (by simp) (by decide))
  | null hw => exact name (Lx.word_isName hw (by simp) (by decide))
  | string hq _ => rcases hq with rfl | rfl <;> exact ⟨_, _, rfl, rfl, by decide⟩
  | symbol hm =>
    have hall : ∀ p ∈ symbols, p.1 ≠ .eq → ∃ c s', p.2 = c :: s' ∧ Str.isWs c = false ∧ c ≠ '=' := by
      unfold symbols
      intro p hp
      repeat (rcases List.mem_cons.1 hp with rfl | hp; (intro h; first | exact absurd rfl h | exact ⟨_, _, rfl, rfl, by decide⟩))
      simp at hp
    exact hall _ hm ht

theorem blank_ws {ws : Str} (h : Blank ws) : ws.all Str.isWs = true := by
  rw [List.all_eq_true]
  intro c hc
  rcases h c hc with rfl | rfl | rfl | rfl <;> rfl

theorem dropWhile_all {p : Char → Bool} {s : Str} (h : s.all p = true) : s.dropWhile p = [] := by
  induction s with
  | nil => rfl
  | cons c s ih =>
    simp only [List.all_cons, Bool.and_eq_true] at h
    simp [h.1, ih h.2]

theorem dropWhile_append_all {p : Char → Bool} {a b : Str} (h : a.all p = true) :
    (a ++ b).dropWhile p = b.dropWhile p := by
  induction a with
  | nil => rfl
  | cons c s ih =>
    simp only [List.all_cons, Bool.and_eq_true] at h
    simp [h.1, ih h.2]

/-- Nothing is stripped from a text whose first token is not `=`. -/
theorem stripEq_spells {ts : List Token} {text : Str} (h : Spells ts text) (ht : ts.head? ≠ some .eq) :
    stripEq text = text := by
  unfold stripEq Str.trimStart
  cases h with
  | done hw => rw [dropWhile_all (blank_ws hw)]
  | tok hw hs _ _ =>
    obtain ⟨c, s', rfl, h1, h2⟩ := written_first hs (by simpa using ht)
    rw [List.cons_append, Parser.dropWhile_ws _ _ _ (blank_ws hw) h1]
    split
    · rename_i heq; simp at heq; exact absurd heq.1 h2
    · rfl

theorem stripEq_eq (ws text : Str) (h : ws.all Str.isWs = true) : stripEq (ws ++ '=' :: text) = text := by
  unfold stripEq Str.trimStart
  rw [Parser.dropWhile_ws ws '=' text h (by decide)]
  rfl

theorem reads_delivers : ∀ (ts : List Token) (s : St), Lx.Delivers s.rest ts →
    ∃ s', Reads s (s.look :: ts) s' ∧ s'.look = .eof
  | [], s, h => by
    cases hr : s.rest with
    | eof p => exact ⟨⟨.eof, p, .eof p⟩, ⟨rfl, _, by simp [bump, hr], rfl⟩, rfl⟩
    | bad f => rw [hr] at h; exact False.elim h
    | cons t p r => rw [hr] at h; exact False.elim h
  | t :: ts, s, h => by
    cases hr : s.rest with
    | eof p => rw [hr] at h; exact False.elim h
    | bad f => rw [hr] at h; exact False.elim h
    | cons u p r =>
      rw [hr] at h
      obtain ⟨rfl, h⟩ := h
      obtain ⟨s', h1, h2⟩ := reads_delivers ts ⟨u, p, r⟩ h
      exact ⟨s', ⟨rfl, ⟨u, p, r⟩, by simp [bump, hr], h1⟩, h2⟩

theorem init_delivers {ts : List Token} {k : Toks} (h : Lx.Delivers k ts) (hne : ts ≠ []) :
    ∃ s s', init k = .ok s ∧ Reads s ts s' ∧ s'.look = .eof := by
  cases ts with
  | nil => exact absurd rfl hne
  | cons t ts =>
    cases k with
    | eof p => exact False.elim h
    | bad f => exact False.elim h
    | cons u p r =>
      obtain ⟨rfl, h⟩ := h
      obtain ⟨s', h1, h2⟩ := reads_delivers ts ⟨u, p, r⟩ h
      exact ⟨_, s', rfl, h1, h2⟩

theorem init_sim_delivers {ts : List Token} {k k' : Toks} (h : Lx.Delivers k ts) (h' : Lx.Delivers k' ts) :
    TSim k k' := by
  induction ts generalizing k k' with
  | nil =>
    cases k <;> first | exact False.elim h | (cases k' <;> first | exact False.elim h' | exact trivial)
  | cons t ts ih =>
    cases k <;> first | exact False.elim h | (cases k' <;> first | exact False.elim h' | exact ⟨h.1.trans h'.1.symm, ih h.2 h'.2⟩)

theorem init_sim {ts : List Token} {k k' : Toks} (h : Lx.Delivers k ts) (h' : Lx.Delivers k' ts) :
    RSim SSim (init k) (init k') := by
  have hs := init_sim_delivers h h'
  cases k <;> cases k' <;> first
    | exact False.elim hs
    | (cases ts <;> exact False.elim h)
    | exact ⟨rfl, trivial⟩
    | exact ⟨hs.1, hs.2⟩

theorem progToks_first (e : Src) (es : List Src) : ∃ t r, progToks e es = t :: r ∧ starts t = true := by
  obtain ⟨t, r, h1, h2, _⟩ := head_toks e
  cases es with
  | nil => exact ⟨t, r, by rw [progToks, h1], h2⟩
  | cons f fs => exact ⟨t, r ++ .semi :: progToks f fs, by rw [progToks, h1]; rfl, h2⟩

theorem parse_progText {e : Src} {es : List Src} {text : Str} (h : ProgText e es text) :
    parse text = .ok (progExpr e es) := by
  obtain ⟨t, r, ht, hst⟩ := progToks_first e es
  have hhead : (progToks e es).head? ≠ some .eq := by
    rw [ht]; intro h; simp at h; rw [h] at hst; simp [starts] at hst
  have hstrip := stripEq_spells h hhead
  have hd : ∀ n, text.length < n → Lx.Delivers (Toks.of n (Lx.init text)) (progToks e es) :=
    fun n hn => Lx.lex_spells h n 0 0 hn (.inr hhead)
  obtain ⟨s, s', hi, hr, he⟩ := init_delivers (hd (text.length + 1) (by omega)) (by rw [ht]; simp)
  obtain ⟨N, hN⟩ := program_ok e es s s' hr (by rw [he]; rfl)
  try dsimp only at *
  have hp := parse_eq text (N + fuelFor text) (by omega)
  have hlen : text.length < fuelFor text := by unfold fuelFor; omega
  unfold parseWith parseTextWith at hp
  rw [hstrip, Toks.of_stable (N + fuelFor text) (text.length + 1) (Lx.init text)
    (show text.length < _ by omega) (show text.length < _ by omega), hi] at hp
  simp only [bind, Except.bind] at hp
  rw [hN _ (by omega)] at hp
  cases hx : parse text with
  | ok v => rw [hx] at hp; simp [Except.mapError, pure, Except.pure] at hp; rw [hp]
  | error f => rw [hx] at hp; simp [Except.mapError, pure, Except.pure] at hp

theorem sameParse_of {a b : Str} {n : Nat} (ha : fuelFor a ≤ n) (hb : fuelFor b ≤ n)
    (h : RSim VSim (parseTextWith n (stripEq a)) (parseTextWith n (stripEq b))) : SameParse (parse a) (parse b) := by
  have h1 := parse_eq a n ha
  have h2 := parse_eq b n hb
  unfold parseWith at h1 h2
  have : RSim (fun x y : Expr => x = y) (parseWith n a) (parseWith n b) := by
    unfold parseWith
    refine RSim.bind h ?_
    rintro ⟨x, s⟩ ⟨y, s'⟩ ⟨h1, _⟩
    exact h1
  rw [parse_eq a n ha, parse_eq b n hb] at this
  generalize parse a = pa at *
  generalize parse b = pb at *
  cases pa <;> cases pb
  · rename_i f g; cases f <;> cases g <;> exact this
  · exact False.elim this
  · exact False.elim this
  · exact this

theorem sameParse_spells {ts : List Token} {a b : Str} (ha : Spells ts a) (hb : Spells ts b)
    (hh : ts.head? ≠ some .eq) : SameParse (parse a) (parse b) := by
  refine sameParse_of (n := fuelFor a + fuelFor b) (by omega) (by omega) ?_
  rw [stripEq_spells ha hh, stripEq_spells hb hh]
  unfold parseTextWith
  have la : a.length < fuelFor a := by unfold fuelFor; omega
  have lb : b.length < fuelFor b := by unfold fuelFor; omega
  refine RSim.bind (init_sim (Lx.lex_spells ha _ 0 0 (by omega) (.inr hh))
    (Lx.lex_spells hb _ 0 0 (by omega) (.inr hh))) ?_
  intro s s' h
  exact program_sim _ s s' h

theorem parse_eqPrefix (ws text : Str) (hws : ws.all Str.isWs = true)
    (ht : ∀ r, text.dropWhile Str.isWs ≠ '=' :: r) : parse (ws ++ '=' :: text) = parse text := by
  have hs : stripEq text = text := by
    unfold stripEq Str.trimStart
    split
    · rename_i heq; exact absurd heq (ht _)
    · rfl
  have h1 := parse_eq (ws ++ '=' :: text) (fuelFor text + fuelFor (ws ++ '=' :: text)) (by omega)
  have h2 := parse_eq text (fuelFor text + fuelFor (ws ++ '=' :: text)) (by omega)
  unfold parseWith at h1 h2
  rw [stripEq_eq ws text hws] at h1
  rw [hs, h1] at h2
  generalize parse text = a at *
  generalize parse (ws ++ '=' :: text) = b at *
  cases a <;> cases b <;> simp [Except.mapError] at h2 <;> rw [h2]

end Parser
