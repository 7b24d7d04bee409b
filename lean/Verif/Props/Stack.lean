import Verif.Lemmas.StackRoom
import Verif.Props.Sizes
/-! C146: how much stack parsing takes. -/

open Spec

namespace Stack

namespace Spec

/-- The characters after which an expression can nest one more: brackets, `?`, and the operators with an operand of
their own level to the right. -/
def opening (c : Char) : Bool := c ∈ c!"([{?^!+-"

/-- How many of them a text has. -/
def openings (s : Str) : Nat := s.countP opening

/-- `1*1*…*1`, with `n` times signs. -/
def products : Nat → Str
  | 0 => c!"1"
  | n + 1 => c!"1*" ++ products n

end Spec

open Stack.Spec
open Sizes.Spec (parens signs depth)

/-! ### The same result, unless the stack is exhausted -/

theorem lib_parse (text : Str) : Lib.parse text =
    outcome (Parser.parseTextWith (Parser.fuelFor (Lib.stripEq text)) (Lib.stripEq text)) := by
  have hb : Parser.fuelFor (Lib.stripEq text) ≤ Parser.fuelFor text := Parser.fuel_strip text _ (Nat.le_refl _)
  unfold Lib.parse Lib.parseWith
  rcases Parser.parseText_cases (Lib.stripEq text) with ⟨_, w, h⟩ | ⟨_, e, st, _, h⟩ | ⟨_, m, a, p, h⟩ <;>
    rw [h _ hb, h _ (Nat.le_refl _)] <;> rfl

theorem parseText_fit (d : Nat) (s : Str) :
    Fit (Parser.fuelFor s ≤ d) (parseText d s) (Parser.parseTextWith (Parser.fuelFor s) s) := by
  unfold parseText Parser.parseTextWith
  exact Fit.bindR fun st => program_same _ _ _

/-- C146, the result: on a stack of any size the result of parsing is the one of `parse`, or the stack is exhausted. -/
theorem C146_same (d : Nat) (text : Str) :
    parse d text = Lib.parse text ∨ parse d text = .error exhausted := by
  rcases parseText_fit d (Lib.stripEq text) with h | ⟨_, h⟩
  · left; rw [lib_parse]; unfold parse; rw [h]
  · right; unfold parse; rw [h]; rfl

/-- Both happen for one text, with stacks of two sizes. -/
example : parse 26 c!"(1)" = .ok (.number (F64.ofNat 1)) ∧ parse 25 c!"(1)" = .error exhausted := by
  constructor <;> kernel_rfl

theorem parseText_more (d : Nat) (s : Str) :
    Fit (Parser.fuelFor s ≤ d) (parseText d s) (parseText (d + 1) s) := by
  unfold parseText
  exact Fit.bindR fun st => program_more _ _ _

/-- C146, more stack: once a stack is large enough for a text, so is every larger one, and the result stays. -/
theorem C146_more (d d' : Nat) (text : Str) (hd : d ≤ d') (h : parse d text ≠ .error exhausted) :
    parse d' text = parse d text := by
  induction hd with
  | refl => rfl
  | @step m _ ih =>
    rw [← ih]
    rcases parseText_more m (Lib.stripEq text) with h' | ⟨_, h'⟩
    · unfold parse; rw [h']
    · exfalso
      apply h
      rw [← ih]
      unfold parse; rw [h']; rfl

/-- The hypothesis of `C146_more`: `39` is large enough for this text. -/
example : parse 39 c!"[1, (2), {a: 3}]" ≠ .error exhausted := by
  have h : (parse 39 c!"[1, (2), {a: 3}]").isOk = true := by kernel_rfl
  intro e; rw [e] at h; cases h

/-! ### Enough stack -/

theorem count_dropWhile (p : Char → Bool) (s : Str) : openings (s.dropWhile p) ≤ openings s :=
  (List.dropWhile_sublist p).countP_le

theorem strip_openings (s : Str) : openings (Lib.stripEq s) ≤ openings s := by
  unfold Lib.stripEq Str.trimStart
  have := count_dropWhile Str.isWs s
  split
  · rename_i rest h
    rw [h] at this
    refine Nat.le_trans ?_ this
    simp [openings, List.countP_cons]
  · exact Nat.le_refl _

theorem skipWs_openings (s : Str) (p : Nat) : openings (Lx.skipWs s p).1 ≤ openings s := by
  induction s generalizing p with
  | nil => simp [Lx.skipWs]
  | cons c cs ih =>
    unfold Lx.skipWs
    split
    · refine Nat.le_trans (ih _) ?_
      simp [openings, List.countP_cons]
    · exact Nat.le_refl _

theorem numTail_openings : ∀ (s : Str) (b : Bool), openings (Lx.numTail b s).2.1 ≤ openings s
  | [], b => by simp [Lx.numTail]
  | c :: cs, b => by
    have h1 := numTail_openings cs b
    have h2 := numTail_openings cs true
    have h3 : openings cs ≤ openings (c :: cs) := by simp [openings, List.countP_cons]
    unfold Lx.numTail
    split
    · exact Nat.le_trans h1 h3
    · split
      · split
        · exact h3
        · split
          · exact Nat.le_trans h2 h3
          · exact Nat.le_refl _
      · exact Nat.le_refl _

theorem strBody_openings (q : Char) : ∀ (n : Nat) (s : Str) (p : Nat) (b r : Str) (p' : Nat), s.length ≤ n →
    Lx.strBody q s p = .ok (b, r, p') → openings r ≤ openings s
  | _, [], p, b, r, p', _, h => by simp [Lx.strBody] at h
  | 0, c :: cs, p, b, r, p', hn, h => by simp at hn
  | n + 1, c :: cs, p, b, r, p', hn, h => by
    have h3 : openings cs ≤ openings (c :: cs) := by simp [openings, List.countP_cons]
    simp only [List.length_cons] at hn
    unfold Lx.strBody at h
    split at h
    · cases h; exact h3
    · split at h
      · split at h
        · cases h
        · rename_i e cs'
          have h4 : openings cs' ≤ openings (e :: cs') := by simp [openings, List.countP_cons]
          split at h
          · rename_i hs
            cases h
            simp only [List.length_cons] at hn
            have := strBody_openings q n _ _ _ _ _ (by omega) hs
            omega
          · cases h
      · split at h
        · rename_i hs
          cases h
          have := strBody_openings q n _ _ _ _ _ (by omega) hs
          omega
        · cases h

theorem number_openings {c : Char} {r : Str} {p : Nat} {t : Token} {l : Lx} (h : Lx.number c r p = .ok (t, l)) :
    wt t + openings l.rest ≤ openings r := by
  unfold Lx.number at h
  have := numTail_openings r (c = '.')
  revert h this
  generalize Lx.numTail (c = '.') r = x
  obtain ⟨a, b, e⟩ := x
  intro h this
  simp only at h
  split at h
  · cases h; simpa [wt] using this
  · cases h

theorem one_openings {c : Char} {t u : Token} {r : Str} {p : Nat} {l : Lx} (h : Lx.one t r p = .ok (u, l))
    (hc : wt t ≤ openings [c]) : wt u + openings l.rest ≤ openings (c :: r) := by
  unfold Lx.one at h
  cases h
  simp only [openings, List.countP_cons, List.countP_nil] at *
  omega

theorem two_openings {t u : Token} {r : Str} {p : Nat} {l : Lx} (h : Lx.two t r p = .ok (u, l))
    (hc : wt t = 0) : wt u + openings l.rest ≤ openings r := by
  unfold Lx.two at h
  split at h
  · cases h
  · cases h; simp [hc]

theorem keyword_wt (s : Str) : wt (Lx.keyword s) = 0 := by
  unfold Lx.keyword
  repeat' split
  all_goals rfl

theorem tail_openings (c : Char) (r : Str) : openings r ≤ openings (c :: r) := by
  simp [openings, List.countP_cons]

theorem symbol_openings {c : Char} {r : Str} {p : Nat} {t : Token} {l : Lx} (h : Lx.symbol c r p = .ok (t, l)) :
    wt t + openings l.rest ≤ openings (c :: r) := by
  have ht := tail_openings c r
  unfold Lx.symbol at h
  split at h
  · unfold Lx.dots at h
    split at h
    · rename_i r'
      cases h
      have := tail_openings '.' r'; have := tail_openings '.' ('.' :: r')
      simp only [wt]; omega
    · split at h
      · have := number_openings h; omega
      · exact one_openings h (by simp [wt])
    · exact one_openings h (by simp [wt])
  split at h
  · unfold Lx.string at h
    split at h
    · rename_i hs
      cases h
      have := strBody_openings _ _ _ _ _ _ _ (Nat.le_refl _) hs
      simp only [wt]; omega
    · cases h
  split at h
  · rename_i hc; subst hc
    unfold Lx.withEq at h
    split at h
    · rename_i r'
      have := two_openings h rfl; have := tail_openings '=' r'; omega
    · exact one_openings h (by decide)
  split at h
  · unfold Lx.colons at h
    split at h
    · rename_i r'
      have := two_openings h rfl; have := tail_openings ':' r'; omega
    · rename_i r'
      have := two_openings h rfl; have := tail_openings '=' r'; omega
    · exact one_openings h (by simp [wt])
  split at h
  · unfold Lx.withEq at h
    split at h
    · rename_i r'
      have := two_openings h rfl; have := tail_openings '=' r'; omega
    · exact one_openings h (by simp [wt])
  split at h
  · unfold Lx.withEq at h
    split at h
    · rename_i r'
      have := two_openings h rfl; have := tail_openings '=' r'; omega
    · exact one_openings h (by simp [wt])
  split at h
  · unfold Lx.equals at h
    split at h
    · rename_i r'
      have := two_openings h rfl; have := tail_openings '=' r'; omega
    · have := two_openings h rfl; omega
  split at h
  · unfold Lx.ampersand at h
    split at h
    · rename_i r'
      have := two_openings h rfl; have := tail_openings '&' r'; omega
    · rename_i r'
      have := two_openings h rfl; have := tail_openings '.' r'; omega
    · cases h
  split at h
  · unfold Lx.bar at h
    split at h
    · rename_i r'
      have := two_openings h rfl; have := tail_openings '|' r'; omega
    · cases h
  · cases h

theorem token_openings {c : Char} {r : Str} {p : Nat} {t : Token} {l : Lx} (h : Lx.token c r p = .ok (t, l)) :
    wt t + openings l.rest ≤ openings (c :: r) := by
  have ht := tail_openings c r
  unfold Lx.token at h
  split at h
  · have := number_openings h; omega
  split at h
  · unfold Lx.identifier at h
    cases h
    have := count_dropWhile Lx.isIdent r
    simp only [keyword_wt]; omega
  split at h
  · rename_i u hu
    refine one_openings h ?_
    unfold Lx.simple at hu
    split at hu <;> first | (cases hu; done) | (cases hu; decide)
  · exact symbol_openings h

theorem next_openings {l l' : Lx} {t : Token} (h : l.next = .ok (t, l')) :
    wt t + openings l'.rest ≤ openings l.rest := by
  unfold Lx.next at h
  have := skipWs_openings l.rest l.pos
  split at h
  · cases h; simp [wt, openings]
  · rename_i heq
    rw [heq] at this
    exact Nat.le_trans (token_openings h) this

theorem toks_openings : ∀ (n : Nat) (l : Lx), wts (Toks.of n l) ≤ openings l.rest
  | 0, l => by simp [Toks.of, wts]
  | n + 1, l => by
    rw [Toks.of]
    cases h : l.next with
    | error f => simp [wts]
    | ok v =>
      obtain ⟨t, l'⟩ := v
      have h1 := next_openings h
      have h2 := toks_openings n l'
      cases t <;> simp only [wts] <;> omega

theorem init_openings {n : Nat} {s : Str} {st : St} (h : Parser.init (Toks.of n (Lx.init s)) = .ok st) :
    ahead st ≤ openings s := by
  have := toks_openings n (Lx.init s)
  revert h this
  cases Toks.of n (Lx.init s) with
  | cons t p r => intro h this; cases h; exact this
  | eof p => intro h _; cases h; simp [ahead, wt, wts]
  | bad f =>
    intro h _
    cases f with
    | none => cases h
    | some f =>
      cases f with
      | panic w => cases h
      | err m a p => cases h; simp [ahead, wt, wts]

theorem stmts_room : ∀ (n d : Nat) (s : St), 13 + 13 * ahead s ≤ d →
    Both (ahead s) (stmts n d s) (Parser.stmts n s)
  | 0, d, s, _ => by rw [stmts, Parser.stmts]; exact Both.error
  | n + 1, d, s, h => by
    rw [stmts.eq_2, Parser.stmts.eq_2]
    split
    · refine Both.bump fun s1 h1 => ?_
      split
      · exact Both.pure (by omega)
      · refine Both.bind ((room n).expr _ _ (by omega)) fun a s2 h2 => ?_
        exact Both.bind (stmts_room n _ _ (by omega)) fun a s3 h3 => Both.pure (by omega)
    · exact Both.pure (by omega)

theorem program_room (n d : Nat) (s : St) (h : 13 + 13 * ahead s ≤ d) : program n d s = Parser.program n s := by
  unfold program Parser.program
  have := Both.bind (p := ahead s) (k := fun x => do
      let (es, s) ← stmts n d x.2
      match es with
      | [] => return (x.1, s)
      | _ :: _ => return (.seq (x.1 :: es), s)) (k' := fun x => do
      let (es, s) ← Parser.stmts n x.2
      match es with
      | [] => return (x.1, s)
      | _ :: _ => return (.seq (x.1 :: es), s)) ((room n).expr d s h) (fun a s1 h1 => by
        refine Both.bind (stmts_room n d s1 (by omega)) fun es s2 h2 => ?_
        dsimp only
        cases es <;> exact Both.pure (by omega))
  exact this.1

theorem err_bind {α β : Type} (f : Option Fail) (k : α → PRes β) : ((.error f : PRes α) >>= k) = .error f := rfl

/-- C146, enough stack: thirteen calls, and thirteen for every character of the text after which an expression can
nest, are enough, however long the text is and whether it is an expression or not. -/
theorem C146_enough (d : Nat) (text : Str) (h : 13 * (openings text + 1) ≤ d) : parse d text = Lib.parse text := by
  have hs := strip_openings text
  have e : parseText d (Lib.stripEq text) =
      Parser.parseTextWith (Parser.fuelFor (Lib.stripEq text)) (Lib.stripEq text) := by
    unfold parseText Parser.parseTextWith
    generalize hf : Parser.fuelFor (Lib.stripEq text) = fuel
    cases hi : Parser.init (Toks.of fuel (Lx.init (Lib.stripEq text))) with
    | error f => rw [err_bind, err_bind]
    | ok st =>
      have := init_openings hi
      rw [Parser.ok_bind, Parser.ok_bind]
      exact program_room _ _ _ (by omega)
  rw [lib_parse]
  unfold parse
  rw [e]

/-- The hypothesis of `C146_enough`, for a text with four such characters. -/
example : 13 * (openings c!"SUM(1, -2) * [:x].length()" + 1) ≤ 65 := by decide

/-! ### Stack that is needed -/

/-- With less stack than for `D` calls the function exhausts it. -/
def Bel {α : Type} (c : Nat) (f : Nat → Nat → PRes α) (D : Nat) : Prop := ∀ d, d < D → ∀ n, 2 * d + c ≤ n → f n d = overflow

theorem Bel.weak {α : Type} {f : Nat → Nat → PRes α} {D : Nat} (h : Bel 2 f D) : Bel 3 f D :=
  fun d hd n hn => h d hd n (by omega)

theorem Bel.frame {α β : Type} {f : Nat → Nat → PRes α} {g : Nat → Nat → PRes β} {D : Nat}
    (h0 : ∀ n, f (n + 1) 0 = overflow) (hs : ∀ n d, g n d = overflow → f (n + 1) (d + 1) = overflow)
    (h : Bel 3 g D) : Bel 2 f (D + 1) := by
  intro d hd n hn
  obtain ⟨m, rfl⟩ : ∃ m, n = m + 1 := ⟨n - 1, by omega⟩
  cases d with
  | zero => exact h0 m
  | succ d => exact hs m d (h d (by omega) m (by omega))

theorem ov_bind {α β : Type} (k : α → PRes β) : ((overflow : PRes α) >>= k) = overflow := rfl

theorem bel_unary {s : St} {D : Nat} (h : Bel 2 (fun n d => atom n d s) D) (hp : Parser.prefixOp s.look = none) :
    Bel 2 (fun n d => unary n d s) (D + 4) := by
  have h1 : Bel 2 (fun n d => postfixE n d s) (D + 1) :=
    Bel.frame (fun n => by rw [postfixE]) (fun n d e => by rw [postfixE, e, ov_bind]) h.weak
  have h2 : Bel 2 (fun n d => castE n d s) (D + 2) :=
    Bel.frame (fun n => by rw [castE]) (fun n d e => by rw [castE, e, ov_bind]) h1.weak
  have h3 : Bel 2 (fun n d => power n d s) (D + 3) :=
    Bel.frame (fun n => by rw [power]) (fun n d e => by rw [power, e, ov_bind]) h2.weak
  exact Bel.frame (fun n => by rw [unary]) (fun n d e => by rw [unary]; simp only [hp]; exact e) h3.weak

theorem bel_expr {s : St} {D : Nat} (h : Bel 2 (fun n d => unary n d s) D) (hc : s.look ≠ .colon) :
    Bel 2 (fun n d => expr n d s) (D + 8) := by
  have h6 : Bel 3 (fun n d => level n d 6 s) D := by
    intro d hd n hn
    obtain ⟨m, rfl⟩ : ∃ m, n = m + 1 := ⟨n - 1, by omega⟩
    have := h d hd m (by omega)
    dsimp only at *
    cases d with
    | zero => rw [level]; simpa using this
    | succ d => rw [level]; simpa using this
  have step : ∀ k D, k < 6 → Bel 3 (fun n d => level n d (k + 1) s) D → Bel 2 (fun n d => level n d k s) (D + 1) := by
    intro k D hk h
    refine Bel.frame (fun n => ?_) (fun n d e => ?_) h
    · rw [level, if_neg (by omega)]
    · rw [level, if_neg (by omega), e, ov_bind]
  have h5 := step 5 D (by omega) h6
  have h4 := step 4 _ (by omega) h5.weak
  have h3 := step 3 _ (by omega) h4.weak
  have h2 := step 2 _ (by omega) h3.weak
  have h1 := step 1 _ (by omega) h2.weak
  have h0 := step 0 _ (by omega) h1.weak
  have ht : Bel 2 (fun n d => ternary n d s) (D + 7) :=
    Bel.frame (fun n => by rw [ternary]) (fun n d e => by rw [ternary, e, ov_bind]) h0.weak
  exact Bel.frame (fun n => by rw [expr])
    (fun n d e => by rw [expr, if_neg (by intro h; exact hc h.1)]; exact e) ht.weak

theorem bel_paren {s s' : St} {D : Nat} (hl : s.look = .lparen) (hb : Parser.bump s = .ok s')
    (h : Bel 2 (fun n d => expr n d s') D) : Bel 2 (fun n d => expr n d s) (D + 13) := by
  refine bel_expr (D := D + 5) (bel_unary (D := D + 1) ?_ (by rw [hl]; rfl)) (by rw [hl]; simp)
  refine Bel.frame (fun n => by rw [atom]) (fun n d e => ?_) h.weak
  rw [atom]; simp only [hl]; rw [hb, Parser.ok_bind, e, ov_bind]

theorem bel_number {s : St} {x : F64} (hl : s.look = .number x) : Bel 2 (fun n d => expr n d s) 13 := by
  refine bel_expr (D := 5) (bel_unary (D := 1) ?_ (by rw [hl]; rfl)) (by rw [hl]; simp)
  intro d hd n hn
  obtain ⟨m, rfl⟩ : ∃ m, n = m + 1 := ⟨n - 1, by omega⟩
  obtain rfl : d = 0 := by omega
  exact atom.eq_2 _ _

theorem bel_sign {s s' : St} {D : Nat} (hl : s.look = .minus) (hb : Parser.bump s = .ok s')
    (h : Bel 2 (fun n d => unary n d s') D) : Bel 2 (fun n d => unary n d s) (D + 1) := by
  refine Bel.frame (fun n => by rw [unary]) (fun n d e => ?_) h.weak
  rw [unary]; simp only [hl, Parser.prefixOp]; rw [hb, Parser.ok_bind, e, ov_bind]

theorem bel_parens : ∀ (n : Nat) (s s' : St) (ts : List Token),
    Parser.Reads s ((Sizes.parensSrc n).toks ++ ts) s' → Bel 2 (fun n d => expr n d s) (13 * (n + 1))
  | 0, s, s', ts, h => by
    have : s.look = .number (F64.ofNat 1) := h.1
    exact bel_number this
  | n + 1, s, s', ts, h => by
    simp only [Sizes.parensSrc, Src.toks, List.cons_append, List.append_assoc] at h
    obtain ⟨h1, m, h2, h3⟩ := h
    exact bel_paren h1 h2 (bel_parens n m s' _ h3)

theorem bel_signs : ∀ (n : Nat) (s s' : St), Parser.Reads s (Sizes.signsSrc n).toks s' →
    Bel 2 (fun n d => unary n d s) (5 + n)
  | 0, s, s', h => by
    have hl : s.look = .number (F64.ofNat 1) := h.1
    refine bel_unary (D := 1) ?_ (by rw [hl]; rfl)
    intro d hd n hn
    obtain ⟨m, rfl⟩ : ∃ m, n = m + 1 := ⟨n - 1, by omega⟩
    obtain rfl : d = 0 := by omega
    exact atom.eq_2 _ _
  | n + 1, s, s', h => by
    rw [Sizes.signs_toks] at h
    obtain ⟨h1, m, h2, h3⟩ := h
    exact bel_sign h1 h2 (bel_signs n m s' h3)

/-- A text whose first expression exhausts the stack. -/
theorem parse_bel {ts : List Token} {text : Str} {D d : Nat} (hs : Spells ts text) (hne : ts ≠ [])
    (he : ts.head? ≠ some .eq) (hf : 2 * d + 2 ≤ Parser.fuelFor text) (hd : d < D)
    (h : ∀ s s', Parser.Reads s ts s' → Bel 2 (fun n d => expr n d s) D) : parse d text = .error exhausted := by
  unfold parse
  rw [Parser.stripEq_spells hs he]
  have hd' := Lx.lex_spells hs (Parser.fuelFor text) 0 0 (by unfold Parser.fuelFor; omega) (.inr he)
  obtain ⟨s, s', hi, hr, _⟩ := Parser.init_delivers hd' hne
  have hx := h s s' hr d hd _ hf
  dsimp only at hx
  unfold parseText
  have : Parser.init (Toks.of (Parser.fuelFor text) (Lx.init text)) = .ok s := hi
  rw [this, Parser.ok_bind]
  unfold program
  rw [hx, ov_bind]
  rfl

theorem openings_parens (n : Nat) : openings (parens n) = n := by
  unfold openings parens
  rw [List.countP_append, List.countP_append, List.countP_replicate, List.countP_replicate]
  have h1 : opening '(' = true := by decide
  have h2 : opening ')' = false := by decide
  have h3 : List.countP opening c!"1" = 0 := by decide
  simp [h1, h2, h3]

/-- C146, how much a text needs: a one in `n` pairs of parentheses, which is a valid expression (C140), is parsed on a
stack for `13 * (n + 1)` nested calls and on no smaller one. -/
theorem C146_parens (n d : Nat) :
    parse d (parens n) = if d < 13 * (n + 1) then .error exhausted else .ok (.number (F64.ofNat 1)) := by
  split
  · rename_i h
    have hs := Sizes.parens_spell n [] [] (.inl rfl) .done
    have hs' : Spells (Sizes.parensSrc n).toks (parens n) := by
      have := Parser.spells_of_to hs (.done (ws := []) (by simp [Blank]))
      simpa [parens] using this
    refine parse_bel (D := 13 * (n + 1)) hs' ?_ ?_ ?_ h ?_
    · cases n <;> simp [Sizes.parensSrc, Src.toks]
    · cases n <;> simp [Sizes.parensSrc, Src.toks]
    · unfold Parser.fuelFor parens
      simp only [List.length_append, List.length_replicate, List.length_cons, List.length_nil]; omega
    · intro s s' hr
      exact bel_parens n s s' [] (by simpa using hr)
  · rename_i h
    rw [C146_enough d _ (by rw [openings_parens]; omega), Sizes.C140_parens]

/-- C146, signs: a one after `n` minus signs needs a call for each. -/
theorem C146_signs (n d : Nat) (h : d < 13 + n) : parse d (signs n) = .error exhausted := by
  have hs := Sizes.signs_spell n
  have hs' : Spells (Sizes.signsSrc n).toks (signs n) := by
    have := Parser.spells_of_to hs (.done (ws := []) (by simp [Blank]))
    simpa using this
  refine parse_bel (D := 13 + n) hs' ?_ ?_ ?_ h ?_
  · cases n with
    | zero => simp [Sizes.signsSrc, Src.toks]
    | succ n => rw [Sizes.signs_toks]; simp
  · cases n with
    | zero => simp [Sizes.signsSrc, Src.toks]
    | succ n => rw [Sizes.signs_toks]; simp
  · unfold Parser.fuelFor signs
    simp only [List.length_append, List.length_replicate, List.length_cons, List.length_nil]; omega
  · intro s s' hr
    have h1 := bel_signs n s s' hr
    have : s.look ≠ .colon := by
      cases n with
      | zero => have : s.look = .number (F64.ofNat 1) := hr.1; rw [this]; simp
      | succ n => rw [Sizes.signs_toks] at hr; rw [hr.1]; simp
    have e : 13 + n = 5 + n + 8 := by omega
    rw [e]; exact bel_expr h1 this

/-- The hypothesis of `C146_signs`, and a stack on which the text is parsed. -/
example : 15 < 13 + 3 ∧ (parse 16 (signs 3)).isOk = true := ⟨by decide, by kernel_rfl⟩

/-- C146: no stack is large enough for every text. For every size there is a valid expression, of at most two
characters for every thirteen calls and one more, on which parsing exhausts it. -/
theorem C146_no_stack_suffices (d : Nat) :
    ∃ text e, Lib.parse text = .ok e ∧ parse d text = .error exhausted ∧ 13 * text.length ≤ 2 * d + 13 := by
  refine ⟨parens (d / 13), _, Sizes.C140_parens _, ?_, ?_⟩
  · rw [C146_parens, if_pos (by omega)]
  · unfold parens
    simp only [List.length_append, List.length_replicate, List.length_cons, List.length_nil]; omega

/-! ### Stack and size -/

/-- `n` times signs. -/
def productsSrc : Nat → Src
  | 0 => .num (F64.ofNat 1)
  | n + 1 => .bin (productsSrc n) .mul (.num (F64.ofNat 1))

theorem products_toks (n : Nat) : (productsSrc (n + 1)).toks = (productsSrc n).toks ++ [.star, .number (F64.ofNat 1)] := by
  have : opPrec .mul ≤ (productsSrc n).prec := by cases n <;> simp [productsSrc, Src.prec, opPrec]
  have e : (decide ((productsSrc n).prec < opPrec .mul)) = false := by simpa using this
  have e' : (decide ((Src.num (F64.ofNat 1)).prec < opPrec .mul + 1)) = false := by simp [Src.prec, opPrec]
  simp only [productsSrc, Src.toks, e, e']
  simp [wrap, opTok]

theorem products_toks' (n : Nat) : (productsSrc (n + 1)).toks = .number (F64.ofNat 1) :: .star :: (productsSrc n).toks := by
  induction n with
  | zero => rw [products_toks]; simp [productsSrc, Src.toks]
  | succ n ih => rw [products_toks, ih, List.cons_append, List.cons_append, ← products_toks, ih]

theorem products_spell (n : Nat) : SpellsTo (productsSrc n).toks (products n) [] := by
  induction n with
  | zero => exact Sizes.to_one_end
  | succ n ih =>
    rw [products_toks']
    have h := Sizes.to_sym (t := .star) (s := c!"*") (by simp [symbols]) (by simp [NoGlue]) ih
    exact Sizes.to_one '*' _ (by decide) (by decide) rfl h

theorem products_depth (n : Nat) : depth (productsSrc n).toExpr = n + 1 := by
  induction n with
  | zero => rfl
  | succ n ih => simp only [productsSrc, Src.toExpr, depth, ih]; omega

theorem openings_products (n : Nat) : openings (products n) = 0 := by
  induction n with
  | zero => decide
  | succ n ih =>
    have e : openings (products (n + 1)) = openings c!"1*" + openings (products n) := List.countP_append
    rw [e, ih]; decide

/-- C146, stack and size: how much stack parsing takes does not depend on the length, nor on how deep the tree is:
`1*1*…*1` with `n` operators is parsed on a stack for thirteen nested calls, and its tree is `n + 1` deep. -/
theorem C146_products (n : Nat) : ∃ e, parse 13 (products n) = .ok e ∧ depth e = n + 1 := by
  refine ⟨(productsSrc n).toExpr, ?_, products_depth n⟩
  rw [C146_enough 13 _ (by rw [openings_products]), Sizes.parse_to (e := productsSrc n) (es := []) (products_spell n)]
  rfl

end Stack
