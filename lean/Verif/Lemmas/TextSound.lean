import Verif.Lemmas.LexSound
import Verif.Lemmas.ParseSound
import Verif.Lemmas.Front
/-! The parser's states and the text they stand at. -/

namespace Parser
open Spec Lib

/-- The parser is in state `s` with the text of `l` ahead, the lookahead included. -/
def At (l : Lx) (s : St) : Prop :=
  (∃ m l1, l.next = .ok (s.look, l1) ∧ s.look ≠ .eof ∧ s.rest = Toks.of m l1 ∧ l1.rest.length < m) ∨
  (s.look = .eof ∧ s.rest = .eof s.pos ∧ Blank l.rest)

theorem next_length {l l' : Lx} {t : Token} (h : l.next = .ok (t, l')) (ht : t ≠ .eof) : l'.rest.length < l.rest.length := by
  rcases Lx.next_took h with ⟨rfl, _⟩ | ⟨_, ws, s, h1, _, h3, _⟩
  · exact absurd rfl ht
  · rw [h1]
    have : s ≠ [] := by
      rintro rfl
      cases h3 with
      | number hn _ => obtain ⟨c, s', h, _⟩ := Lx.numeral_first hn; simp at h
      | name hn => obtain ⟨c, s', h, _⟩ := hn; simp at h
      | tru h => simp [SameWord] at h
      | fls h => simp [SameWord] at h
      | null h => simp [SameWord] at h
      | symbol h => simp [symbols] at h
    have : 0 < s.length := List.length_pos_iff.2 this
    simp only [List.length_append]
    omega

/-- The state after asking for the tokens of `l`. -/
theorem toks_at {l : Lx} {m : Nat} {p : Nat} {t : Token} {r : Toks} (hm : l.rest.length < m)
    (h : Toks.of m l = .cons t p r) : At l ⟨t, p, r⟩ := by
  obtain ⟨m, rfl⟩ : ∃ k, m = k + 1 := ⟨m - 1, by omega⟩
  rw [Toks.of] at h
  split at h
  · cases h
  · cases h
  · rename_i t' l1 hne hx
    cases h
    have hne : t ≠ .eof := hne
    refine .inl ⟨m, l1, hx, hne, rfl, ?_⟩
    have := next_length hx hne
    omega

theorem toks_eof {l : Lx} {m : Nat} {p : Nat} (h : Toks.of m l = .eof p) : Blank l.rest := by
  cases m with
  | zero => cases h
  | succ m =>
    rw [Toks.of] at h
    split at h
    · cases h
    · rename_i l1 hx
      rcases Lx.next_took hx with ⟨_, h⟩ | ⟨h, _⟩
      · exact h
      · exact absurd rfl h
    · cases h

theorem bump_at {l : Lx} {s m : St} (h : At l s) (hne : s.look ≠ .eof) (hb : bump s = .ok m) :
    ∃ l1, l.next = .ok (s.look, l1) ∧ At l1 m := by
  rcases h with ⟨k, l1, h1, h2, h3, h4⟩ | ⟨h1, _⟩
  · refine ⟨l1, h1, ?_⟩
    unfold bump at hb
    split at hb
    · rename_i t p r hr
      cases hb
      rw [h3] at hr
      exact toks_at h4 hr
    · rename_i p hr
      cases hb
      rw [h3] at hr
      exact .inr ⟨rfl, rfl, toks_eof hr⟩
    · cases hb
  · exact absurd h1 hne

/-- The tokens read are spelled by the text passed over. -/
theorem reads_at {ts : List Token} : ∀ {l : Lx} {s s' : St}, At l s → Reads s ts s' → .eof ∉ ts →
    ∃ l', At l' s' ∧ SpellsTo ts l.rest l'.rest := by
  induction ts with
  | nil => intro l s s' h hr _; cases hr; exact ⟨l, h, .done⟩
  | cons t ts ih =>
    intro l s s' h hr hne
    obtain ⟨rfl, m, hb, hr⟩ := hr
    have hl : s.look ≠ .eof := fun h => hne (by simp [h])
    obtain ⟨l1, h1, h2⟩ := bump_at h hl hb
    obtain ⟨l', h3, h4⟩ := ih h2 hr (fun h => hne (by simp [h]))
    rcases Lx.next_took h1 with ⟨h, _⟩ | ⟨_, ws, sp, h5, h6, h7, h8⟩
    · exact absurd h hl
    · exact ⟨l', h3, by rw [h5]; exact .tok h6 h7 h8 h4⟩

theorem at_starts {l : Lx} {s : St} (h : At l s) : (s.look = .eof ∧ Blank l.rest) ∨ (s.look ≠ .eof ∧ StartsWith s.look l.rest) := by
  rcases h with ⟨k, l1, h1, h2, _⟩ | ⟨h1, _, h3⟩
  · rcases Lx.next_took h1 with ⟨h, _⟩ | ⟨_, ws, sp, h5, h6, h7, h8⟩
    · exact absurd h h2
    · exact .inr ⟨h2, l1.rest, by rw [h5]; exact .tok h6 h7 h8 .done⟩
  · exact .inl ⟨h1, h3⟩

theorem mem_wrap {b : Bool} {ts : List Token} {t : Token} (h : t ∈ wrap b ts) (h1 : t ≠ .lparen) (h2 : t ≠ .rparen) : t ∈ ts := by
  unfold wrap at h
  split at h
  · simp only [List.mem_cons, List.mem_append, List.not_mem_nil, or_false] at h
    rcases h with h | h | h
    · exact absurd h h1
    · exact h
    · exact absurd h h2
  · exact h

theorem mem_commas {ls : List (List Token)} {t : Token} (h : t ∈ commas ls) (h1 : t ≠ .comma) : ∃ l ∈ ls, t ∈ l := by
  induction ls with
  | nil => simp [commas] at h
  | cons a ls ih =>
    cases ls with
    | nil => exact ⟨a, by simp, h⟩
    | cons b ls =>
      rw [commas_cons (by simp)] at h
      rcases List.mem_append.1 h with h | h
      · exact ⟨a, by simp, h⟩
      · rcases List.mem_cons.1 h with h | h
        · exact absurd h h1
        · obtain ⟨l, h2, h3⟩ := ih h
          exact ⟨l, List.mem_cons_of_mem _ h2, h3⟩

theorem eof_wrap {b : Bool} {ts : List Token} (h : Token.eof ∉ ts) : Token.eof ∉ wrap b ts :=
  fun hx => h (mem_wrap hx (by simp) (by simp))

theorem eof_commas {ls : List (List Token)} (h : ∀ l ∈ ls, Token.eof ∉ l) : Token.eof ∉ commas ls := by
  intro hx
  obtain ⟨l, h1, h2⟩ := mem_commas hx (by simp)
  exact h l h1 h2

mutual
theorem eof_toks : (e : Src) → .eof ∉ e.toks
  | .num n => by rw [Src.toks]; simp
  | .str s => by rw [Src.toks]; simp
  | .null => by rw [Src.toks]; simp
  | .tru => by rw [Src.toks]; simp
  | .fls => by rw [Src.toks]; simp
  | .var x => by rw [Src.toks]; simp
  | .un op e => by
    rw [Src.toks]
    have := eof_wrap (b := e.prec < 8) (eof_toks e)
    cases op <;> simp [unTok, this]
  | .bin l op r => by
    rw [Src.toks]
    have h1 := fun b => eof_wrap (b := b) (eof_toks l)
    have h2 := fun b => eof_wrap (b := b) (eof_toks r)
    split
    · simp [h1, h2]
    · cases op <;> simp [opTok, h1, h2]
  | .tern c t e => by
    rw [Src.toks]
    have h1 := fun b b' => eof_wrap (b := b) (eof_wrap (b := b') (eof_toks c))
    simp [h1, eof_toks t, eof_toks e]
  | .assign x v => by
    rw [Src.toks]
    have h1 := fun b => eof_wrap (b := b) (eof_toks v)
    simp [h1]
  | .call name args => by rw [Src.toks]; simp [eof_commas (eof_args args)]
  | .arr items => by rw [Src.toks]; simp [eof_commas (eof_items items)]
  | .obj ms c => by
    have : Token.eof ∉ lastComma ms c := by unfold lastComma; split <;> simp
    rw [Src.toks]; simp [eof_commas (eof_members ms), this]
  | .paren e => by rw [Src.toks]; simp [eof_toks e]
  | .prop t p => by
    rw [Src.toks]; have h1 := fun b => eof_wrap (b := b) (eof_toks t); simp [h1]
  | .safeProp t p => by
    rw [Src.toks]; have h1 := fun b => eof_wrap (b := b) (eof_toks t); simp [h1]
  | .meth t name args => by
    rw [Src.toks]; have h1 := fun b => eof_wrap (b := b) (eof_toks t); simp [h1, eof_commas (eof_args args)]
  | .pred t name => by
    rw [Src.toks]; have h1 := fun b => eof_wrap (b := b) (eof_toks t); simp [h1]
  | .safeMeth t name args => by
    rw [Src.toks]; have h1 := fun b => eof_wrap (b := b) (eof_toks t); simp [h1, eof_commas (eof_args args)]
  | .index t i => by
    rw [Src.toks]
    have h1 := fun b => eof_wrap (b := b) (eof_toks t)
    have h2 := fun b => eof_wrap (b := b) (eof_toks i)
    simp [h1, h2]
  | .slice t a b => by
    rw [Src.toks]
    have h1 := fun b => eof_wrap (b := b) (eof_toks t)
    have h2 : Token.eof ∉ startToks a := by
      cases a with
      | none => simp [startToks]
      | some e => rw [startToks]; exact eof_wrap (eof_toks e)
    have h3 : Token.eof ∉ endToks b := by
      cases b with
      | none => simp [endToks]
      | some e => rw [endToks]; exact eof_toks e
    simp [h1, h2, h3]
  | .cast e ty name h => by
    rw [Src.toks]; have h1 := fun b => eof_wrap (b := b) (eof_toks e); simp [h1]
theorem eof_args : (as : List (Bool × Src)) → ∀ l ∈ argToks as, .eof ∉ l
  | [] => by simp [argToks]
  | (b, e) :: rest => by
    intro l hl
    rw [argToks] at hl
    rcases List.mem_cons.1 hl with rfl | h
    · split <;> simp [eof_toks e]
    · exact eof_args rest l h
theorem eof_items : (as : List Src) → ∀ l ∈ itemToks as, .eof ∉ l
  | [] => by simp [itemToks]
  | e :: rest => by
    intro l hl
    rw [itemToks] at hl
    rcases List.mem_cons.1 hl with rfl | h
    · exact eof_toks e
    · exact eof_items rest l h
theorem eof_members : (as : List (Key × Src)) → ∀ l ∈ memberToks as, .eof ∉ l
  | [] => by simp [memberToks]
  | (k, e) :: rest => by
    intro l hl
    rw [memberToks] at hl
    rcases List.mem_cons.1 hl with rfl | h
    · cases k <;> simp [Key.tok, eof_toks e]
    · exact eof_members rest l h
end

theorem eof_prog (e : Src) (es : List Src) : .eof ∉ progToks e es := by
  induction es generalizing e with
  | nil => rw [progToks]; exact eof_toks e
  | cons f es ih => rw [progToks]; simp [eof_toks e, ih f]

/-- Reading one written token. -/
theorem next_written {ws s r : Str} {t : Token} (hws : Blank ws) (hw : Written t s) (hg : NoGlue t s r) {p ls : Nat}
    (hp : 0 < p ∨ t ≠ .eq) :
    t ≠ .eof ∧ ∃ p' ls', 0 < p' ∧ (⟨ws ++ (s ++ r), p, ls⟩ : Lx).next = .ok (t, ⟨r, p', ls'⟩) := by
  obtain ⟨c, s', rfl, hsp, hne, htok⟩ := Lx.token_written hw hg
  have hsk := Lx.skipWs_blank hws (c :: s' ++ r) p (by simpa using hsp)
  have hpos : c :: s' = c!"=" → 0 < p + ws.length := by
    intro he
    rcases hp with hp | hp
    · omega
    · exfalso
      obtain ⟨d, u, h1, _, h3⟩ := written_first hw hp
      rw [he] at h1
      simp at h1
      exact h3 h1.1.symm
  obtain ⟨p', ls', hlt, htk⟩ := htok (p + ws.length) hpos
  refine ⟨hne, p', ls', by omega, ?_⟩
  unfold Lx.next
  simp only
  rw [hsk]
  exact htk

/-- The first tokens of a token stream. -/
def Leads : Toks → List Token → Prop
  | _, [] => True
  | .cons t _ rest, u :: us => t = u ∧ Leads rest us
  | _, _ :: _ => False

theorem lex_leads {ts : List Token} {text rest : Str} (h : SpellsTo ts text rest) : ∀ (n p ls : Nat), text.length < n →
    (0 < p ∨ ts.head? ≠ some .eq) → Leads (Toks.of n ⟨text, p, ls⟩) ts := by
  induction h with
  | done => intro n p ls _ _; cases h : Toks.of n _ <;> exact trivial
  | @tok ws s r rest t ts hws hw hg _ ih =>
    intro n p ls hn hp
    obtain ⟨n, rfl⟩ : ∃ k, n = k + 1 := ⟨n - 1, by omega⟩
    obtain ⟨hne, p', ls', hlt, hx⟩ := next_written (ls := ls) hws hw hg (p := p) (by simpa using hp)
    have := next_length hx hne
    rw [Toks.of, hx]
    split
    · rename_i heq; simp at heq
    · rename_i heq; simp only [Except.ok.injEq, Prod.mk.injEq] at heq; exact absurd heq.1 hne
    · rename_i heq
      simp only [Except.ok.injEq, Prod.mk.injEq] at heq
      obtain ⟨rfl, rfl⟩ := heq
      exact ⟨rfl, ih n p' ls' (by simp only at this; omega) (.inl hlt)⟩

theorem reads_leads : ∀ (ts : List Token) (s : St) (t : Token), Leads s.rest (ts ++ [t]) →
    ∃ s', Reads s (s.look :: ts) s' ∧ s'.look = t
  | [], s, t, h => by
    cases hr : s.rest with
    | eof p => rw [hr] at h; exact False.elim h
    | bad f => rw [hr] at h; exact False.elim h
    | cons u p r =>
      rw [hr] at h
      exact ⟨⟨u, p, r⟩, ⟨rfl, _, by simp [bump, hr], rfl⟩, h.1⟩
  | u :: ts, s, t, h => by
    cases hr : s.rest with
    | eof p => rw [hr] at h; exact False.elim h
    | bad f => rw [hr] at h; exact False.elim h
    | cons v p r =>
      rw [hr] at h
      obtain ⟨rfl, h⟩ := h
      obtain ⟨s', h1, h2⟩ := reads_leads ts ⟨v, p, r⟩ t h
      exact ⟨s', ⟨rfl, ⟨v, p, r⟩, by simp [bump, hr], h1⟩, h2⟩

theorem init_leads {ts : List Token} {t : Token} {k : Toks} (h : Leads k (ts ++ [t])) (hne : ts ≠ []) :
    ∃ s s', init k = .ok s ∧ Reads s ts s' ∧ s'.look = t := by
  cases ts with
  | nil => exact absurd rfl hne
  | cons u ts =>
    cases k with
    | eof p => exact False.elim h
    | bad f => exact False.elim h
    | cons v p r =>
      obtain ⟨rfl, h⟩ := h
      obtain ⟨s', h1, h2⟩ := reads_leads ts ⟨v, p, r⟩ t h
      exact ⟨_, s', rfl, h1, h2⟩

theorem spellsTo_append {ts us : List Token} {a b c : Str} (h : SpellsTo ts a b) (h' : SpellsTo us b c) :
    SpellsTo (ts ++ us) a c := by
  induction h with
  | done => exact h'
  | tok h1 h2 h3 _ ih => exact .tok h1 h2 h3 (ih h')

theorem spellsTo_split {ts us : List Token} {a c : Str} (h : SpellsTo (ts ++ us) a c) :
    ∃ b, SpellsTo ts a b ∧ SpellsTo us b c := by
  induction ts generalizing a with
  | nil => exact ⟨a, .done, h⟩
  | cons t ts ih =>
    cases h with
    | tok h1 h2 h3 h4 =>
      obtain ⟨b, h5, h6⟩ := ih h4
      exact ⟨b, .tok h1 h2 h3 h5, h6⟩

theorem spells_of_to {ts us : List Token} {a b : Str} (h : SpellsTo ts a b) (h' : Spells us b) : Spells (ts ++ us) a := by
  induction h with
  | done => exact h'
  | tok h1 h2 h3 _ ih => exact .tok h1 h2 h3 (ih h')

/-- Nothing is stripped from a text whose first token is not `=`. -/
theorem stripEq_spellsTo {t : Token} {ts : List Token} {text rest : Str} (h : SpellsTo (t :: ts) text rest) (ht : t ≠ .eq) :
    stripEq text = text := by
  unfold stripEq Str.trimStart
  cases h with
  | tok hw hs _ _ =>
    obtain ⟨c, s', rfl, h1, h2⟩ := written_first hs ht
    rw [List.cons_append, Parser.dropWhile_ws _ _ _ (blank_ws hw) h1]
    split
    · rename_i heq; simp at heq; exact absurd heq.1 h2
    · rfl

/-- From a run of `program` on the state of a text to `parse`. -/
theorem parse_of_program {text : Str} {v : Expr} {s s' : St} (hstrip : stripEq text = text)
    (hi : init (Toks.of (text.length + 1) (Lx.init text)) = .ok s) (hp : Ev (fun n => program n s) (.ok (v, s'))) :
    parse text = .ok v := by
  obtain ⟨N, hN⟩ := hp
  try dsimp only at *
  have hp := parse_eq text (N + fuelFor text) (by omega)
  have hlen : text.length < fuelFor text := by unfold fuelFor; omega
  unfold parseWith parseTextWith at hp
  rw [hstrip, Toks.of_stable (N + fuelFor text) (text.length + 1) (Lx.init text)
    (show text.length < _ by omega) (show text.length < _ by omega), hi] at hp
  simp only [bind, Except.bind] at hp
  rw [hN _ (by omega)] at hp
  cases hx : parse text with
  | ok v => rw [hx] at hp; simp [Except.mapError, pure, Except.pure] at hp; rw [hp]
  | error f => rw [hx] at hp; simp [Except.mapError, pure, Except.pure] at hp

theorem starts_ne_eq {e : Src} {es : List Src} : ∃ t r, progToks e es = t :: r ∧ t ≠ .eq := by
  obtain ⟨t, r, ht, hst⟩ := progToks_first e es
  exact ⟨t, r, ht, by rintro rfl; simp [starts] at hst⟩

theorem parse_tail {e : Src} {es : List Src} {text rest : Str} {t : Token} (h : SpellsTo (progToks e es) text rest)
    (ht : StartsWith t rest) (hs : stops t = true) : parse text = .ok (progExpr e es) := by
  obtain ⟨r, hr⟩ := ht
  obtain ⟨u, us, hu, hne⟩ := starts_ne_eq (e := e) (es := es)
  have hlead := lex_leads (spellsTo_append h hr) (text.length + 1) 0 0 (by omega) (.inr (by rw [hu]; simpa using hne))
  obtain ⟨s, s', h1, h2, h3⟩ := init_leads hlead (by rw [hu]; simp)
  exact parse_of_program (stripEq_spellsTo (hu ▸ h) hne) h1 (program_ok e es s s' h2 (by rw [h3]; exact hs))

theorem parse_semi {e : Src} {es : List Src} {text : Str} (h : Spells (progToks e es ++ [.semi]) text) :
    parse text = .ok (progExpr e es) := by
  obtain ⟨u, us, hu, hne⟩ := starts_ne_eq (e := e) (es := es)
  have hhead : (progToks e es ++ [Token.semi]).head? ≠ some .eq := by rw [hu]; simpa using hne
  obtain ⟨s, s', h1, h2, h3⟩ := init_delivers (Lx.lex_spells h (text.length + 1) 0 0 (by omega) (.inr hhead)) (by simp)
  exact parse_of_program (stripEq_spells h hhead) h1 (program_semi_ok e es s s' h2 h3)

theorem takeWhile_all (p : Char → Bool) (s : Str) : ∀ c ∈ s.takeWhile p, p c = true := by
  induction s with
  | nil => simp
  | cons a s ih =>
    intro c hc
    rw [List.takeWhile_cons] at hc
    split at hc
    · rename_i ha
      rcases List.mem_cons.1 hc with rfl | h
      · exact ha
      · exact ih c h
    · simp at hc

theorem stripEq_body (text : Str) : Body text (stripEq text) := by
  unfold stripEq Str.trimStart
  split
  · rename_i r h
    refine .inr ⟨text.takeWhile Str.isWs, takeWhile_all _ _, ?_⟩
    have h' : text.dropWhile Str.isWs = '=' :: r := h
    rw [← h', List.takeWhile_append_dropWhile]
  · exact .inl rfl

/-- What a parsed text looks like. -/
theorem parse_shape {text : Str} {v : Expr} (h : parse text = .ok v) :
    ∃ e es tr, v = progExpr e es ∧ ∃ rest, SpellsTo (progToks e es ++ tr) (stripEq text) rest ∧
      ((tr = [.semi] ∧ Blank rest) ∨ (tr = [] ∧ Blank rest) ∨
        (tr = [] ∧ ∃ t, StartsWith t rest ∧ t ≠ .semi ∧ (strength t = 0 ∨ 10 ≤ strength t))) := by
  have hp := parse_eq text (fuelFor text) (by omega)
  rw [h] at hp
  unfold parseWith at hp
  obtain ⟨⟨v', s'⟩, h1, h2⟩ := bind_inv hp
  have := pure_inv h2
  subst this
  unfold parseTextWith at h1
  obtain ⟨s, h3, h4⟩ := bind_inv h1
  obtain ⟨e, es, tr, rfl, hr, htr, hst⟩ := sound_program _ _ _ _ h4
  refine ⟨e, es, tr, rfl, ?_⟩
  have hlen : (Lx.init (stripEq text)).rest.length < fuelFor text := by
    have : (stripEq text).length ≤ text.length := by
      rcases stripEq_body text with h | ⟨ws, _, h⟩
      · rw [h]
      · have := congrArg List.length h
        simp at this; omega
    show (stripEq text).length < _
    unfold fuelFor; omega
  have hat : At (Lx.init (stripEq text)) s := by
    cases hk : Toks.of (fuelFor text) (Lx.init (stripEq text)) with
    | cons t p r => rw [hk] at h3; cases h3; exact toks_at hlen hk
    | eof p => rw [hk] at h3; cases h3; exact .inr ⟨rfl, rfl, toks_eof hk⟩
    | bad f =>
      rw [hk] at h3
      exfalso
      have : s.look = .eof := by
        cases f with
        | none => cases h3
        | some f => cases f <;> cases h3; rfl
      obtain ⟨t, r, ht, hst⟩ := progToks_first e es
      rw [ht] at hr
      rw [← hr.1, this] at hst
      simp [starts] at hst
  have heof : Token.eof ∉ progToks e es ++ tr := by
    have : Token.eof ∉ tr := by rcases htr with ⟨rfl, _⟩ | ⟨rfl, _⟩ <;> simp
    simp [eof_prog, this]
  obtain ⟨l', h5, h6⟩ := reads_at hat hr heof
  refine ⟨l'.rest, h6, ?_⟩
  rcases at_starts h5 with ⟨h7, h8⟩ | ⟨h7, h8⟩
  · rcases htr with ⟨rfl, _⟩ | ⟨rfl, _⟩
    · exact .inr (.inl ⟨rfl, h8⟩)
    · exact .inl ⟨rfl, h8⟩
  · rcases htr with ⟨rfl, h9⟩ | ⟨rfl, h9⟩
    · exact .inr (.inr ⟨rfl, _, h8, h9, hst⟩)
    · exact absurd h9 h7

end Parser
