import Verif.Spec.Syntax
import Verif.Lemmas.ParseMono
/-! Parsing the tokens of a printed expression gives the expression back. -/

namespace Parser
open Spec

/-- `f` has the value `r` for all large enough fuel. -/
def Ev {α : Type} (f : Nat → PRes α) (r : PRes α) : Prop := ∃ N, ∀ n, N ≤ n → f n = r

theorem Ev.step {α : Type} {f : Nat → PRes α} {r : PRes α} (h : ∃ N, ∀ n, N ≤ n → f (n + 1) = r) : Ev f r := by
  obtain ⟨N, h⟩ := h
  refine ⟨N + 1, fun n hn => ?_⟩
  try dsimp only at *
  obtain ⟨m, rfl⟩ : ∃ m, n = m + 1 := ⟨n - 1, by omega⟩
  exact h m (by omega)

/-- From state `s` the lexer delivers `ts` (the lookahead first) and the parser is then in `s'`. -/
def Reads : St → List Token → St → Prop
  | s, [], s' => s = s'
  | s, t :: ts, s' => s.look = t ∧ ∃ m, bump s = .ok m ∧ Reads m ts s'

theorem reads_append (s s' : St) (a b : List Token) :
    Reads s (a ++ b) s' ↔ ∃ m, Reads s a m ∧ Reads m b s' := by
  induction a generalizing s with
  | nil => simp [Reads]
  | cons t ts ih =>
    simp only [List.cons_append, Reads]
    constructor
    · rintro ⟨h1, m, h2, h3⟩
      obtain ⟨m2, h4, h5⟩ := (ih m).1 h3
      exact ⟨m2, ⟨h1, m, h2, h4⟩, h5⟩
    · rintro ⟨m2, ⟨h1, m, h2, h3⟩, h4⟩
      exact ⟨h1, m, h2, (ih m).2 ⟨m2, h3, h4⟩⟩

/-- How strongly a token continues an expression to its left; 0 if it does not. -/
def strength : Token → Nat
  | .dot | .safeNav | .lbracket => 11
  | .dcolon => 10
  | .caret => 9
  | .star | .slash | .percent => 7
  | .plus | .minus => 6
  | .gt | .lt | .ge | .le => 5
  | .eq | .ne => 4
  | .and => 3
  | .or => 2
  | .qmark => 1
  | _ => 0

/-- The token `t` may follow an expression printed as `ts` in a context of level `k`. -/
structure Fol (k : Nat) (ts : List Token) (t : Token) : Prop where
  stop : strength t < max k 1
  nolp : t ≠ .lparen
  noas : t ≠ .assign
  noq : t = .qmark → endsProp ts = false

/-- The parsing function of each level. -/
def pl (k n : Nat) (s : St) : PRes (Expr × St) :=
  if k = 0 then expr n s
  else if k = 1 then ternary n s
  else if k ≤ 7 then level n (k - 2) s
  else if k = 8 then unary n s
  else if k = 9 then power n s
  else if k = 10 then castE n s
  else postfixE n s

/-- Tokens an expression can start with. -/
def starts : Token → Bool
  | .number _ | .ident _ | .str _ | .true | .false | .null | .plus | .minus | .bang
  | .lparen | .colon | .lbracket | .lbrace => true
  | _ => false

/-- What the first tokens of an expression of precedence `p` look like. -/
def Head (p : Nat) (ts : List Token) : Prop :=
  ∃ t r, ts = t :: r ∧ starts t = true ∧ (9 ≤ p → prefixOp t = none) ∧
    (1 ≤ p → t = .colon → ∃ x r', r = .ident x :: r' ∧ r'.head? ≠ some .assign)

theorem Head.wrap {p k : Nat} {ts : List Token} (h : Head p ts) : Head (max p k) (wrap (p < k) ts) := by
  unfold Spec.wrap
  split
  · exact ⟨.lparen, _, rfl, rfl, fun _ => rfl, by simp⟩
  · rename_i hk
    simp at hk
    have : max p k = p := by omega
    rw [this]; exact h

theorem Head.mono {p q : Nat} {ts : List Token} (h : Head p ts) (hq : q ≤ p) : Head q ts := by
  obtain ⟨t, r, h1, h2, h3, h4⟩ := h
  exact ⟨t, r, h1, h2, fun h => h3 (by omega), fun h => h4 (by omega)⟩

theorem Head.append {p : Nat} {ts us : List Token} {u : Token} (h : Head p ts) (hu : u ≠ .assign) :
    Head p (ts ++ u :: us) := by
  obtain ⟨t, r, rfl, h2, h3, h4⟩ := h
  refine ⟨t, r ++ u :: us, rfl, h2, h3, fun h h' => ?_⟩
  obtain ⟨x, r', h5, h6⟩ := h4 h h'
  refine ⟨x, r' ++ u :: us, by rw [h5]; rfl, ?_⟩
  cases r' with
  | nil => simpa using hu
  | cons a b => simpa using h6

theorem opTok_ne_assign (op : BinaryOp) : opTok op ≠ .assign := by cases op <;> simp [opTok]

theorem head_toks : (e : Src) → Head e.prec e.toks
  | .num n => ⟨_, _, by rw [Src.toks], rfl, fun _ => rfl, by simp⟩
  | .str s => ⟨_, _, by rw [Src.toks], rfl, fun _ => rfl, by simp⟩
  | .null => ⟨_, _, by rw [Src.toks], rfl, fun _ => rfl, by simp⟩
  | .tru => ⟨_, _, by rw [Src.toks], rfl, fun _ => rfl, by simp⟩
  | .fls => ⟨_, _, by rw [Src.toks], rfl, fun _ => rfl, by simp⟩
  | .var x => ⟨_, _, by rw [Src.toks], rfl, fun _ => rfl, fun _ _ => ⟨x, [], rfl, by simp⟩⟩
  | .un op e => by
    rw [Src.toks]
    refine ⟨_, _, rfl, by cases op <;> rfl, ?_, ?_⟩
    · intro h; simp [Src.prec] at h
    · intro _ h; cases op <;> simp [unTok] at h
  | .bin l op r => by
    rw [Src.toks]
    split
    · rename_i h; subst h
      exact ((head_toks l).wrap (k := 10)).append (by simp) |>.mono (by simp [Src.prec, opPrec]; omega)
    · exact ((head_toks l).wrap (k := opPrec op)).append (opTok_ne_assign op) |>.mono (by simp [Src.prec]; omega)
  | .tern c t e => by
    rw [Src.toks]
    have h := (head_toks c).wrap (k := 2)
    have h' : Head 1 (wrap (endsProp (wrap (c.prec < 2) c.toks)) (wrap (c.prec < 2) c.toks)) := by
      generalize wrap (c.prec < 2) c.toks = ts at *
      unfold wrap
      split
      · exact ⟨.lparen, _, rfl, rfl, fun _ => rfl, by simp⟩
      · exact h.mono (by omega)
    exact h'.append (by simp)
  | .assign x v => by
    rw [Src.toks]
    exact ⟨_, _, rfl, rfl, fun _ => rfl, by simp [Src.prec]⟩
  | .call name args => ⟨_, _, by rw [Src.toks], rfl, fun _ => rfl, by simp⟩
  | .arr items => ⟨_, _, by rw [Src.toks], rfl, fun _ => rfl, by simp⟩
  | .obj ms c => ⟨_, _, by rw [Src.toks], rfl, fun _ => rfl, by simp⟩
  | .paren e => ⟨_, _, by rw [Src.toks], rfl, fun _ => rfl, by simp⟩
  | .prop t p => by
    rw [Src.toks]; exact ((head_toks t).wrap (k := 11)).append (by simp) |>.mono (by simp [Src.prec]; omega)
  | .safeProp t p => by
    rw [Src.toks]; exact ((head_toks t).wrap (k := 11)).append (by simp) |>.mono (by simp [Src.prec]; omega)
  | .meth t name args => by
    rw [Src.toks]; exact ((head_toks t).wrap (k := 11)).append (by simp) |>.mono (by simp [Src.prec]; omega)
  | .pred t name => by
    rw [Src.toks]; exact ((head_toks t).wrap (k := 11)).append (by simp) |>.mono (by simp [Src.prec]; omega)
  | .safeMeth t name args => by
    rw [Src.toks]; exact ((head_toks t).wrap (k := 11)).append (by simp) |>.mono (by simp [Src.prec]; omega)
  | .index t i => by
    rw [Src.toks]; exact ((head_toks t).wrap (k := 11)).append (by simp) |>.mono (by simp [Src.prec]; omega)
  | .slice t a b => by
    rw [Src.toks]; exact ((head_toks t).wrap (k := 11)).append (by simp) |>.mono (by simp [Src.prec]; omega)
  | .cast e ty name h => by
    rw [Src.toks]; exact ((head_toks e).wrap (k := 11)).append (by simp) |>.mono (by simp [Src.prec]; omega)

/-! ### Going from one level to the next weaker one -/

theorem ok_bind {α β : Type} (a : α) (k : α → PRes β) : ((.ok a : PRes α) >>= k) = k a := rfl

theorem post_stop {v : Expr} {s : St} (h : strength s.look < 11) :
    Ev (fun n => postLoop n v s) (.ok (v, s)) := by
  refine Ev.step ⟨0, fun n _ => ?_⟩
  try dsimp only at *
  rw [postLoop]
  split
  · rename_i hl; rw [hl] at h; simp [strength] at h
  · rename_i hl; rw [hl] at h; simp [strength] at h
  · rename_i hl; rw [hl] at h; simp [strength] at h
  · rfl

theorem post_of_atom {v : Expr} {s s' : St} {r : PRes (Expr × St)}
    (h : Ev (fun n => atom n s) (.ok (v, s'))) (h2 : Ev (fun n => postLoop n v s') r) :
    Ev (fun n => postfixE n s) r := by
  obtain ⟨N, h⟩ := h
  obtain ⟨M, h2⟩ := h2
  refine Ev.step ⟨N + M, fun n hn => ?_⟩
  try dsimp only at *
  rw [postfixE, h n (by omega), ok_bind]
  exact h2 n (by omega)

theorem loop_stop {k : Nat} {v : Expr} {s : St} (h : opAt k s.look = none) :
    Ev (fun n => levelLoop n k v s) (.ok (v, s)) := by
  refine Ev.step ⟨0, fun n _ => ?_⟩
  try dsimp only at *
  rw [levelLoop, h]; rfl

theorem level_of_next {k : Nat} {v : Expr} {s s' : St} {r : PRes (Expr × St)} (hk : k < 6)
    (h : Ev (fun n => level n (k + 1) s) (.ok (v, s'))) (h2 : Ev (fun n => levelLoop n k v s') r) :
    Ev (fun n => level n k s) r := by
  obtain ⟨N, h⟩ := h
  obtain ⟨M, h2⟩ := h2
  refine Ev.step ⟨N + M, fun n hn => ?_⟩
  try dsimp only at *
  rw [level, if_neg (by omega), h n (by omega), ok_bind]
  exact h2 n (by omega)

theorem level6_of_unary {s : St} {r : PRes (Expr × St)} (h : Ev (fun n => unary n s) r) :
    Ev (fun n => level n 6 s) r := by
  obtain ⟨N, h⟩ := h
  refine Ev.step ⟨N, fun n hn => ?_⟩
  try dsimp only at *
  rw [level, if_pos (by omega)]
  exact h n hn

theorem opAt_strength {k : Nat} {t : Token} {op : BinaryOp} (h : opAt k t = some op) :
    strength t = k + 2 ∧ k < 6 ∧ t = opTok op ∧ opPrec op = k + 2 := by
  unfold opAt at h
  split at h <;> cases h <;> simp [strength, opTok, opPrec]

theorem opAt_none {k j : Nat} {t : Token} (h : strength t < max k 1) (hj : k ≤ j + 2) :
    opAt j t = none := by
  cases hx : opAt j t with
  | none => rfl
  | some op => have := opAt_strength hx; omega

/-- One step down: what parses at level `k + 1` parses at level `k`. -/
theorem pl_step {k : Nat} (hk : k ≤ 10) {v : Expr} {s s' : St}
    (h : Ev (fun n => pl (k + 1) n s) (.ok (v, s'))) (hs : strength s'.look < max k 1)
    (hp : k = 8 → prefixOp s.look = none) (ha : k = 0 → ¬ (s.look = .colon ∧ isAssign s = true)) :
    Ev (fun n => pl k n s) (.ok (v, s')) := by
  have hcases : k = 0 ∨ k = 1 ∨ (∃ j, k = j + 2 ∧ j < 6) ∨ k = 8 ∨ k = 9 ∨ k = 10 := by
    rcases Nat.lt_or_ge k 2 with h | h
    · omega
    · rcases Nat.lt_or_ge k 8 with h' | h'
      · exact .inr (.inr (.inl ⟨k - 2, by omega, by omega⟩))
      · omega
  rcases hcases with rfl | rfl | ⟨j, rfl, hj⟩ | rfl | rfl | rfl
  · obtain ⟨N, h⟩ := h
    refine Ev.step ⟨N, fun n hn => ?_⟩
    try dsimp only at *
    show expr (n + 1) s = _
    rw [expr, if_neg (ha rfl)]
    exact h n hn
  · obtain ⟨N, h⟩ := h
    refine Ev.step ⟨N, fun n hn => ?_⟩
    try dsimp only at *
    show ternary (n + 1) s = _
    have hh : level n 0 s = .ok (v, s') := h n hn
    rw [ternary, hh, ok_bind]
    simp only
    rw [if_neg]
    · rfl
    · intro hq; rw [hq] at hs; simp [strength] at hs
  · have e1 : (fun n => pl (j + 2) n s) = fun n => level n j s := by
      funext n; unfold pl
      rw [if_neg (by omega), if_neg (by omega), if_pos (by omega)]; rfl
    rw [e1]
    have h2 : Ev (fun n => level n (j + 1) s) (.ok (v, s')) := by
      rcases Nat.lt_or_ge j 5 with h5 | h5
      · have e2 : (fun n => pl (j + 2 + 1) n s) = fun n => level n (j + 1) s := by
          funext n; unfold pl
          rw [if_neg (by omega), if_neg (by omega), if_pos (by omega)]; rfl
        rw [e2] at h; exact h
      · have : j = 5 := by omega
        subst this
        exact level6_of_unary h
    exact level_of_next hj h2 (loop_stop (opAt_none hs (by omega)))
  · obtain ⟨N, h⟩ := h
    refine Ev.step ⟨N, fun n hn => ?_⟩
    try dsimp only at *
    show unary (n + 1) s = _
    rw [unary, hp rfl]
    exact h n hn
  · obtain ⟨N, h⟩ := h
    refine Ev.step ⟨N, fun n hn => ?_⟩
    try dsimp only at *
    show power (n + 1) s = _
    have hh : castE n s = .ok (v, s') := h n hn
    rw [power, hh, ok_bind]
    simp only
    rw [if_neg]
    · rfl
    · intro hq; rw [hq] at hs; simp [strength] at hs
  · obtain ⟨N, h⟩ := h
    refine Ev.step ⟨N, fun n hn => ?_⟩
    try dsimp only at *
    show castE (n + 1) s = _
    have hh : postfixE n s = .ok (v, s') := h n hn
    rw [castE, hh, ok_bind]
    simp only
    rw [if_neg]
    · rfl
    · intro hq; rw [hq] at hs; simp [strength] at hs

theorem not_assign {p : Nat} (hp : 1 ≤ p) {ts : List Token} {s s' : St} (hh : Head p ts) (hr : Reads s ts s')
    (hl : s'.look ≠ .assign) : ¬ (s.look = .colon ∧ isAssign s = true) := by
  rintro ⟨h1, h2⟩
  obtain ⟨t, r, rfl, _, _, h4⟩ := hh
  obtain ⟨h5, m, h6, h7⟩ := hr
  obtain ⟨x, r', rfl, h9⟩ := h4 hp (by rw [← h5, h1])
  obtain ⟨_, m2, h10, h11⟩ := h7
  unfold isAssign at h2
  split at h2
  · rename_i y q q2 rr hrest
    rw [bump, hrest] at h6
    simp at h6
    subst h6
    simp [bump] at h10
    subst h10
    cases r' with
    | nil => simp only [Reads] at h11; subst h11; exact hl rfl
    | cons a b => obtain ⟨h12, _⟩ := h11; simp at h12; subst h12; simp at h9
  · simp at h2

/-- Several steps down. -/
theorem pl_down {p : Nat} {ts : List Token} {v : Expr} {s s' : St} (hh : Head p ts) (hr : Reads s ts s')
    (j k : Nat) (hj : j ≤ 11) (hjp : j ≤ p) (hkj : k ≤ j) (h : Ev (fun n => pl j n s) (.ok (v, s')))
    (hf : Fol k ts s'.look) : Ev (fun n => pl k n s) (.ok (v, s')) := by
  obtain ⟨d, rfl⟩ : ∃ d, j = k + d := ⟨j - k, by omega⟩
  induction d with
  | zero => exact h
  | succ d ih =>
    apply ih (by omega) (by omega) (by omega)
    refine pl_step (by omega) h ?_ ?_ ?_
    · have := hf.stop; omega
    · intro h8
      obtain ⟨t, r, rfl, _, h3, _⟩ := hh
      rw [hr.1]; exact h3 (by omega)
    · intro h0
      exact not_assign (by omega) hh hr hf.noas

/-! ### What each construct does at its own level -/

/-- The tokens of `e` parse at the level of `e`. For the loops (postfix and left-associative operators) this is
stated as "continue the loop with `e`". -/
structure P (e : Src) : Prop where
  atom : e.prec = 12 → ∀ s s', Reads s e.toks s' → Ev (fun n => Parser.atom n s) (.ok (e.toExpr, s'))
  post : e.prec = 11 → ∀ s s', Reads s e.toks s' → s'.look ≠ .lparen →
    (s'.look = .qmark → endsProp e.toks = false) →
    ∀ r, Ev (fun n => postLoop n e.toExpr s') r → Ev (fun n => postfixE n s) r
  lev : ∀ k, e.prec = k + 2 → k < 6 → ∀ s s', Reads s e.toks s' → Fol (k + 3) e.toks s'.look →
    ∀ r, Ev (fun n => levelLoop n k e.toExpr s') r → Ev (fun n => level n k s) r
  other : e.prec = 10 ∨ e.prec = 9 ∨ e.prec = 8 ∨ e.prec = 1 ∨ e.prec = 0 → ∀ s s', Reads s e.toks s' →
    Fol e.prec e.toks s'.look → Ev (fun n => pl e.prec n s) (.ok (e.toExpr, s'))

theorem prec_cases (e : Src) : e.prec = 12 ∨ e.prec = 11 ∨ (∃ k, e.prec = k + 2 ∧ k < 6) ∨
    (e.prec = 10 ∨ e.prec = 9 ∨ e.prec = 8 ∨ e.prec = 1 ∨ e.prec = 0) := by
  cases e with
  | bin l op r =>
    cases op
    · exact .inr (.inr (.inl ⟨4, rfl, by omega⟩))
    · exact .inr (.inr (.inl ⟨4, rfl, by omega⟩))
    · exact .inr (.inr (.inl ⟨5, rfl, by omega⟩))
    · exact .inr (.inr (.inl ⟨5, rfl, by omega⟩))
    · exact .inr (.inr (.inl ⟨5, rfl, by omega⟩))
    · simp [Src.prec, opPrec]
    · exact .inr (.inr (.inl ⟨3, rfl, by omega⟩))
    · exact .inr (.inr (.inl ⟨3, rfl, by omega⟩))
    · exact .inr (.inr (.inl ⟨3, rfl, by omega⟩))
    · exact .inr (.inr (.inl ⟨3, rfl, by omega⟩))
    · exact .inr (.inr (.inl ⟨2, rfl, by omega⟩))
    · exact .inr (.inr (.inl ⟨2, rfl, by omega⟩))
    · exact .inr (.inr (.inl ⟨1, rfl, by omega⟩))
    · exact .inr (.inr (.inl ⟨0, rfl, by omega⟩))
  | _ => simp [Src.prec]

/-- Unparenthesised: `e` parses at every level up to its own. -/
theorem P.bare {e : Src} (h : P e) {k : Nat} (hk : k ≤ e.prec) (hk' : k ≤ 11) {s s' : St}
    (hr : Reads s e.toks s') (hf : Fol k e.toks s'.look) :
    Ev (fun n => pl k n s) (.ok (e.toExpr, s')) := by
  rcases prec_cases e with hp | hp | ⟨j, hp, hj⟩ | hp
  · refine pl_down (head_toks e) hr 11 k (by omega) (by omega) (by omega) ?_ hf
    exact post_of_atom (h.atom hp s s' hr) (post_stop (by have := hf.stop; omega))
  · refine pl_down (head_toks e) hr 11 k (by omega) (by omega) (by omega) ?_ hf
    exact h.post hp s s' hr hf.nolp hf.noq _ (post_stop (by have := hf.stop; omega))
  · refine pl_down (head_toks e) hr (j + 2) k (by omega) (by omega) (by omega) ?_ hf
    have e1 : (fun n => pl (j + 2) n s) = fun n => level n j s := by
      funext n; unfold pl
      rw [if_neg (by omega), if_neg (by omega), if_pos (by omega)]; rfl
    rw [e1]
    refine h.lev j hp hj s s' hr ⟨?_, hf.nolp, hf.noas, hf.noq⟩ _ (loop_stop (opAt_none hf.stop (by omega)))
    have := hf.stop; omega
  · refine pl_down (head_toks e) hr e.prec k (by omega) (by omega) (by omega) ?_ hf
    refine h.other hp s s' hr ⟨?_, hf.nolp, hf.noas, hf.noq⟩
    have := hf.stop; omega

/-- In parentheses it is an atom. -/
theorem P.paren {e : Src} (h : P e) {s s' : St} (hr : Reads s (.lparen :: (e.toks ++ [.rparen])) s') :
    Ev (fun n => Parser.atom n s) (.ok (e.toExpr, s')) := by
  obtain ⟨h1, m, h2, h3⟩ := hr
  obtain ⟨m2, h4, h5, m3, h6, h7⟩ := (reads_append _ _ _ _).1 h3
  simp only [Reads] at h7; subst h7
  have := h.bare (k := 0) (by omega) (by omega) h4
    ⟨by rw [h5]; simp [strength], by rw [h5]; simp, by rw [h5]; simp, by rw [h5]; simp⟩
  obtain ⟨N, hN⟩ := this
  refine Ev.step ⟨N, fun n hn => ?_⟩
  try dsimp only at *
  have hh : expr n m = .ok (e.toExpr, m2) := hN n hn
  rw [Parser.atom]
  rw [h1]
  simp only
  rw [h2, ok_bind, hh, ok_bind]
  simp only
  rw [if_pos h5, h6]; rfl

/-- A parenthesis at the front: what that means for `Head`. -/
theorem head_paren (ts : List Token) : Head 12 (.lparen :: ts) := ⟨.lparen, _, rfl, rfl, fun _ => rfl, by simp⟩

/-- With the parentheses `wrap` adds, `e` parses at every level. -/
theorem P.full {e : Src} (h : P e) {k : Nat} (hk : k ≤ 11) {b : Bool} (hb : e.prec < k → b = true) {s s' : St}
    (hr : Reads s (wrap b e.toks) s') (hf : Fol k (wrap b e.toks) s'.look) :
    Ev (fun n => pl k n s) (.ok (e.toExpr, s')) := by
  cases b with
  | true =>
    have hr' : Reads s (.lparen :: (e.toks ++ [.rparen])) s' := hr
    refine pl_down (head_paren _) hr' 11 k (by omega) (by omega) (by omega) ?_ hf
    exact post_of_atom (h.paren hr') (post_stop (by have := hf.stop; omega))
  | false =>
    exact h.bare (by by_cases hlt : e.prec < k; · simp at hb; omega
                     · omega) hk hr hf

/-- Postfix targets: continue the postfix loop. -/
theorem P.postCont {e : Src} (h : P e) {s s' : St} (hr : Reads s (wrap (e.prec < 11) e.toks) s')
    (hl : s'.look ≠ .lparen) (hq : s'.look ≠ .qmark) {r : PRes (Expr × St)}
    (h2 : Ev (fun n => postLoop n e.toExpr s') r) : Ev (fun n => postfixE n s) r := by
  by_cases hp : e.prec < 11
  · simp only [hp, decide_true] at hr
    exact post_of_atom (h.paren hr) h2
  · simp only [hp, decide_false] at hr
    have hr : Reads s e.toks s' := hr
    rcases prec_cases e with hp' | hp' | ⟨j, hp', hj⟩ | hp'
    · exact post_of_atom (h.atom hp' s s' hr) h2
    · exact h.post hp' s s' hr hl (fun h => absurd h hq) _ h2
    · omega
    · omega

/-- Left operands: continue the operator loop. -/
theorem P.levCont {e : Src} (h : P e) {k : Nat} (hk : k < 6) {s s' : St}
    (hr : Reads s (wrap (e.prec < k + 2) e.toks) s') (hf : Fol (k + 3) (wrap (e.prec < k + 2) e.toks) s'.look)
    {r : PRes (Expr × St)} (h2 : Ev (fun n => levelLoop n k e.toExpr s') r) :
    Ev (fun n => level n k s) r := by
  by_cases hp : e.prec = k + 2
  · have hlt : ¬ e.prec < k + 2 := by omega
    simp only [hlt, decide_false] at hr hf
    exact h.lev k hp hk s s' hr hf _ h2
  · refine level_of_next hk ?_ h2
    have hfull := h.full (k := k + 3) (by omega) (b := decide (e.prec < k + 2)) (by
      intro hlt; simp; omega) hr hf
    rcases Nat.lt_or_ge k 5 with h5 | h5
    · have e2 : (fun n => pl (k + 3) n s) = fun n => level n (k + 1) s := by
        funext n; unfold pl
        rw [if_neg (by omega), if_neg (by omega), if_pos (by omega)]; rfl
      rw [e2] at hfull; exact hfull
    · have : k = 5 := by omega
      subst this
      exact level6_of_unary hfull

theorem endsProp_append (a b : List Token) (h : endsProp b = true) : endsProp (a ++ b) = true := by
  unfold endsProp at *
  rw [List.reverse_append]
  split at h
  · rename_i x t hb; rw [hb]; simp
  · simp at h

theorem Fol.suffix {k : Nat} {a b : List Token} {t : Token} (h : Fol k (a ++ b) t) : Fol k b t := by
  refine ⟨h.stop, h.nolp, h.noas, fun hq => ?_⟩
  have := h.noq hq
  cases hb : endsProp b with
  | false => rfl
  | true => rw [endsProp_append a b hb] at this; simp at this

theorem Fol.weaken {k j : Nat} {a : List Token} {t : Token} (h : Fol k a t) (hs : strength t < max j 1) :
    Fol j a t := ⟨hs, h.nolp, h.noas, h.noq⟩

/-- Tokens that never continue an expression. -/
theorem Fol.closed {k : Nat} {a : List Token} {t : Token}
    (h : t = .rparen ∨ t = .comma ∨ t = .rbracket ∨ t = .rbrace ∨ t = .colon ∨ t = .semi ∨ t = .eof) : Fol k a t := by
  rcases h with rfl | rfl | rfl | rfl | rfl | rfl | rfl <;>
    exact ⟨by simp only [strength]; omega, by simp, by simp, by simp⟩

macro "not_lev" : tactic => `(tactic| (intro k hk; simp [Src.prec] at hk; omega))

theorem P_of_atom {e : Src} (hp : e.prec = 12)
    (h : ∀ s s', Reads s e.toks s' → Ev (fun n => Parser.atom n s) (.ok (e.toExpr, s'))) : P e where
  atom _ := h
  post h11 := by omega
  lev k hk := by omega
  other ho := by omega

theorem P_of_post {e : Src} (hp : e.prec = 11)
    (h : ∀ s s', Reads s e.toks s' → s'.look ≠ .lparen →
    (s'.look = .qmark → endsProp e.toks = false) →
    ∀ r, Ev (fun n => postLoop n e.toExpr s') r → Ev (fun n => postfixE n s) r) : P e where
  atom _ := by omega
  post _ := h
  lev k hk := by omega
  other ho := by omega

theorem P_of_other {e : Src} (hp : e.prec = 10 ∨ e.prec = 9 ∨ e.prec = 8 ∨ e.prec = 1 ∨ e.prec = 0)
    (h : ∀ s s', Reads s e.toks s' → Fol e.prec e.toks s'.look → Ev (fun n => pl e.prec n s) (.ok (e.toExpr, s'))) :
    P e where
  atom _ := by omega
  post _ := by omega
  lev k hk := by omega
  other _ := h

/-! #### Atoms -/

theorem P_single {e : Src} {t : Token} {v : Expr} (hp : e.prec = 12) (ht : e.toks = [t]) (hv : e.toExpr = v)
    (h : ∀ n s m, s.look = t → bump s = .ok m → Parser.atom (n + 1) s = .ok (v, m)) : P e := by
  refine P_of_atom hp fun s s' hr => ?_
  rw [ht] at hr
  obtain ⟨h1, m, h2, h3⟩ := hr
  simp only [Reads] at h3; subst h3
  exact Ev.step ⟨0, fun n _ => by rw [hv]; exact h n s m h1 h2⟩

theorem P_num (x : F64) : P (.num x) :=
  P_single rfl (by rw [Src.toks]) (by rw [Src.toExpr]) fun n s m h1 h2 => by rw [Parser.atom, h1]; simp only; rw [h2]; rfl
theorem P_str (x : Str) : P (.str x) :=
  P_single rfl (by rw [Src.toks]) (by rw [Src.toExpr]) fun n s m h1 h2 => by rw [Parser.atom, h1]; simp only; rw [h2]; rfl
theorem P_null : P .null :=
  P_single rfl (by rw [Src.toks]) (by rw [Src.toExpr]) fun n s m h1 h2 => by rw [Parser.atom, h1]; simp only; rw [h2]; rfl
theorem P_tru : P .tru :=
  P_single rfl (by rw [Src.toks]) (by rw [Src.toExpr]) fun n s m h1 h2 => by rw [Parser.atom, h1]; simp only; rw [h2]; rfl
theorem P_fls : P .fls :=
  P_single rfl (by rw [Src.toks]) (by rw [Src.toExpr]) fun n s m h1 h2 => by rw [Parser.atom, h1]; simp only; rw [h2]; rfl

theorem P_var (x : Str) : P (.var x) := by
  refine P_of_atom rfl fun s s' hr => ?_
  rw [Src.toks] at hr; rw [Src.toExpr]
  obtain ⟨h1, m, h2, h3, m2, h4, h5⟩ := hr
  simp only [Reads] at h5; subst h5
  refine Ev.step ⟨0, fun n _ => ?_⟩
  try dsimp only at *
  rw [Parser.atom, h1]; simp only; rw [h2, ok_bind]; simp only [h3]; rw [h4]; rfl

/-! #### Lists -/

theorem starts_ne {ts : List Token} {p : Nat} (h : Head p ts) {s s' : St} (hr : Reads s ts s') :
    starts s.look = true := by
  obtain ⟨t, r, rfl, h2, _⟩ := h
  rw [hr.1]; exact h2

theorem P.expr {e : Src} (h : P e) {s s' : St} (hr : Reads s e.toks s') (hf : Fol 0 e.toks s'.look) :
    Ev (fun n => expr n s) (.ok (e.toExpr, s')) := h.bare (k := 0) (by omega) (by omega) hr hf

theorem arg_ok {sp : Bool} {e : Src} (h : P e) {s s' : St}
    (hr : Reads s (if sp then .ellipsis :: e.toks else e.toks) s')
    (hf : s'.look = .comma ∨ s'.look = .rparen) :
    Ev (fun n => arg n s) (.ok (if sp then .spread e.toExpr else e.toExpr, s')) := by
  have hfol : ∀ ts, Fol 0 ts s'.look := fun ts => Fol.closed (by rcases hf with h | h <;> simp [h])
  cases sp with
  | true =>
    obtain ⟨h1, m, h2, h3⟩ := hr
    obtain ⟨N, hN⟩ := h.expr h3 (hfol _)
    refine Ev.step ⟨N, fun n hn => ?_⟩
    try dsimp only at *
    rw [arg, if_pos h1, h2, ok_bind, hN n hn]; rfl
  | false =>
    have hr : Reads s e.toks s' := hr
    obtain ⟨N, hN⟩ := h.expr hr (hfol _)
    refine Ev.step ⟨N, fun n hn => ?_⟩
    try dsimp only at *
    have := starts_ne (head_toks e) hr
    rw [arg, if_neg]
    · exact hN n hn
    · intro h; rw [h] at this; simp [starts] at this

theorem argsLoop_ok (msg : String) : ∀ (as : List (Bool × Src)), as ≠ [] → (∀ a ∈ as, P a.2) → ∀ s s',
    Reads s (commas (argToks as) ++ [.rparen]) s' →
    Ev (fun n => argsLoop n msg s) (.ok (argExprs as, s')) := by
  intro as
  induction as with
  | nil => simp
  | cons a rest ih =>
    intro _ hP s s' hr
    obtain ⟨sp, e⟩ := a
    have hPe : P e := hP (sp, e) (by simp)
    cases rest with
    | nil =>
      simp only [argToks, commas] at hr
      obtain ⟨m, h1, h2, m2, h3, h4⟩ := (reads_append _ _ _ _).1 hr
      simp only [Reads] at h4; subst h4
      obtain ⟨N, hN⟩ := arg_ok hPe h1 (.inr h2)
      refine Ev.step ⟨N, fun n hn => ?_⟩
      try dsimp only at *
      rw [argsLoop, hN n hn, ok_bind]
      simp only
      rw [if_neg (by rw [h2]; simp), if_pos h2, h3]
      simp only [argExprs]; rfl
    | cons b rest =>
      obtain ⟨sp2, e2⟩ := b
      have hr : Reads s (((if sp then .ellipsis :: e.toks else e.toks) ++
          .comma :: commas (argToks ((sp2, e2) :: rest))) ++ [.rparen]) s' := by
        simpa only [argToks, commas] using hr
      rw [List.append_assoc] at hr
      obtain ⟨m, h1, h2, m2, h3, h4⟩ := (reads_append _ _ _ _).1 hr
      obtain ⟨N, hN⟩ := arg_ok hPe h1 (.inl h2)
      obtain ⟨M, hM⟩ := ih (by simp) (fun a ha => hP a (by simp [ha])) m2 s' h4
      refine Ev.step ⟨N + M, fun n hn => ?_⟩
      try dsimp only at *
      rw [argsLoop, hN n (by omega), ok_bind]
      simp only
      rw [if_pos h2, h3, ok_bind, hM n (by omega)]
      simp only [argExprs]; rfl

theorem commas_head {ts : List Token} {rest : List (List Token)} (hne : ts ≠ []) :
    ∃ t r r', ts = t :: r ∧ commas (ts :: rest) = t :: r' := by
  cases ts with
  | nil => exact absurd rfl hne
  | cons t r =>
    cases rest with
    | nil => exact ⟨t, r, r, rfl, rfl⟩
    | cons b rest => exact ⟨t, r, _, rfl, rfl⟩

theorem args_ok (msg : String) (as : List (Bool × Src)) (hP : ∀ a ∈ as, P a.2) (s s' : St)
    (hr : Reads s (commas (argToks as) ++ [.rparen]) s') :
    Ev (fun n => args n msg s) (.ok (argExprs as, s')) := by
  cases as with
  | nil =>
    simp only [argToks, commas, List.nil_append] at hr
    obtain ⟨h1, m, h2, h3⟩ := hr
    simp only [Reads] at h3; subst h3
    refine Ev.step ⟨0, fun n _ => ?_⟩
    try dsimp only at *
    rw [args, if_pos h1, h2]; simp only [argExprs]; rfl
  | cons a rest =>
    obtain ⟨N, hN⟩ := argsLoop_ok msg (a :: rest) (by simp) hP s s' hr
    refine Ev.step ⟨N, fun n hn => ?_⟩
    try dsimp only at *
    rw [args, if_neg]
    · exact hN n hn
    · obtain ⟨sp, e⟩ := a
      obtain ⟨t, r, ht, hs, _⟩ := head_toks e
      intro h
      rw [argToks] at hr
      obtain ⟨t', r1, r2, h1, h2⟩ := commas_head (ts := if sp = true then .ellipsis :: e.toks else e.toks)
        (rest := argToks rest) (by cases sp <;> simp [ht])
      rw [h2] at hr
      have := hr.1
      rw [h] at this; subst this
      cases sp with
      | true => simp at h1
      | false => simp [ht] at h1; rw [h1.1] at hs; simp [starts] at hs

theorem itemsLoop_ok : ∀ (as : List Src), as ≠ [] → (∀ a ∈ as, P a) → ∀ s s',
    Reads s (commas (itemToks as) ++ [.rbracket]) s' →
    Ev (fun n => itemsLoop n s) (.ok (itemExprs as, s')) := by
  intro as
  induction as with
  | nil => simp
  | cons e rest ih =>
    intro _ hP s s' hr
    have hPe : P e := hP e (by simp)
    cases rest with
    | nil =>
      simp only [itemToks, commas] at hr
      obtain ⟨m, h1, h2, m2, h3, h4⟩ := (reads_append _ _ _ _).1 hr
      simp only [Reads] at h4; subst h4
      obtain ⟨N, hN⟩ := hPe.expr h1 (Fol.closed (by simp [h2]))
      refine Ev.step ⟨N, fun n hn => ?_⟩
      try dsimp only at *
      rw [itemsLoop, hN n hn, ok_bind]
      simp only
      rw [if_neg (by rw [h2]; simp), if_pos h2, h3]
      simp only [itemExprs]; rfl
    | cons e2 rest =>
      have hr : Reads s ((e.toks ++ .comma :: commas (itemToks (e2 :: rest))) ++ [.rbracket]) s' := by
        simpa only [itemToks, commas] using hr
      rw [List.append_assoc] at hr
      obtain ⟨m, h1, h2, m2, h3, h4⟩ := (reads_append _ _ _ _).1 hr
      obtain ⟨N, hN⟩ := hPe.expr h1 (Fol.closed (by simp [h2]))
      obtain ⟨M, hM⟩ := ih (by simp) (fun a ha => hP a (by simp [ha])) m2 s' h4
      refine Ev.step ⟨N + M, fun n hn => ?_⟩
      try dsimp only at *
      rw [itemsLoop, hN n (by omega), ok_bind]
      simp only
      rw [if_pos h2, h3, ok_bind, hM n (by omega)]
      simp only [itemExprs]; rfl

theorem key_ok (k : Key) (s m : St) (h1 : s.look = k.tok) (h2 : bump s = .ok m) :
    membersLoop.match_1 (fun _ => PRes (Str × St)) s.look
      (fun k => do let s ← bump s; return (k, s)) (fun k => do let s ← bump s; return (k, s))
      (fun _ => err s "Expected identifier or string key in object literal") = .ok (k.text, m) := by
  cases k with
  | ident x => rw [h1]; simp only [Key.tok]; rw [h2]; rfl
  | quoted x => rw [h1]; simp only [Key.tok]; rw [h2]; rfl

theorem membersLoop_ok (c : Bool) : ∀ (as : List (Key × Src)), as ≠ [] → (∀ a ∈ as, P a.2) → ∀ s s',
    Reads s (commas (memberToks as) ++ (lastComma as c ++ [.rbrace])) s' →
    Ev (fun n => membersLoop n s) (.ok (memberExprs as, s')) := by
  intro as
  induction as with
  | nil => simp
  | cons a rest ih =>
    intro _ hP s s' hr
    obtain ⟨k, e⟩ := a
    have hPe : P e := hP (k, e) (by simp)
    cases rest with
    | nil =>
      simp only [memberToks, commas] at hr
      cases c with
      | true =>
        have hr : Reads s ((k.tok :: .colon :: e.toks) ++ [.comma, .rbrace]) s' := hr
        obtain ⟨m0, ⟨h1, m1, h2, h3, m2, h4, h5⟩, h6, m3, h7, h8, m4, h9, h10⟩ := (reads_append _ _ _ _).1 hr
        simp only [Reads] at h10; subst h10
        obtain ⟨N, hN⟩ := hPe.expr h5 (Fol.closed (by simp [h6]))
        refine Ev.step ⟨N, fun n hn => ?_⟩
        try dsimp only at *
        have hkey := key_ok k s m1 h1 h2
        rw [membersLoop]
        rw [hkey, ok_bind]
        simp only
        rw [if_pos h3, h4, ok_bind, hN n hn, ok_bind]
        simp only
        rw [if_pos h6, h7, ok_bind, if_pos h8, h9]
        simp only [memberExprs]; rfl
      | false =>
      simp only [lastComma, List.nil_append] at hr
      obtain ⟨m0, ⟨h1, m1, h2, h3, m2, h4, h5⟩, h6, m3, h7, h8⟩ := (reads_append _ _ _ _).1 hr
      simp only [Reads] at h8; subst h8
      obtain ⟨N, hN⟩ := hPe.expr h5 (Fol.closed (by simp [h6]))
      refine Ev.step ⟨N, fun n hn => ?_⟩
      try dsimp only at *
      have hkey := key_ok k s m1 h1 h2
      rw [membersLoop]
      rw [hkey, ok_bind]
      simp only
      rw [if_pos h3, h4, ok_bind, hN n hn, ok_bind]
      simp only
      rw [if_neg (by rw [h6]; simp), if_pos h6, h7]
      simp only [memberExprs]; rfl
    | cons b rest =>
      obtain ⟨k2, e2⟩ := b
      have hr : Reads s (((k.tok :: .colon :: e.toks) ++ .comma :: commas (memberToks ((k2, e2) :: rest))) ++
          (lastComma ((k2, e2) :: rest) c ++ [.rbrace])) s' := by
        have hl : lastComma ((k, e) :: (k2, e2) :: rest) c = lastComma ((k2, e2) :: rest) c := by cases c <;> rfl
        rw [hl] at hr
        simpa only [memberToks, commas] using hr
      rw [List.append_assoc] at hr
      obtain ⟨m0, ⟨h1, m1, h2, h3, m2, h4, h5⟩, h6, m3, h7, h8⟩ := (reads_append _ _ _ _).1 hr
      obtain ⟨N, hN⟩ := hPe.expr h5 (Fol.closed (by simp [h6]))
      obtain ⟨M, hM⟩ := ih (by simp) (fun a ha => hP a (by simp [ha])) m3 s' h8
      refine Ev.step ⟨N + M, fun n hn => ?_⟩
      try dsimp only at *
      have hkey := key_ok k s m1 h1 h2
      rw [membersLoop]
      rw [hkey, ok_bind]
      simp only
      rw [if_pos h3, h4, ok_bind, hN n (by omega), ok_bind]
      simp only
      have hnb : m3.look ≠ .rbrace := by
        rw [memberToks] at h8
        obtain ⟨t', r1, r2, h9, h10⟩ := commas_head (ts := k2.tok :: .colon :: e2.toks)
          (rest := memberToks rest) (by simp)
        rw [h10] at h8
        rw [h8.1]
        simp at h9
        rw [← h9.1]
        cases k2 <;> simp [Key.tok]
      rw [if_pos h6, h7, ok_bind, if_neg hnb, hM n (by omega)]
      simp only [memberExprs]; rfl

theorem P_call {name : Str} {args : List (Bool × Src)} (hP : ∀ a ∈ args, P a.2) : P (.call name args) := by
  refine P_of_atom rfl fun s s' hr => ?_
  rw [Src.toks] at hr; rw [Src.toExpr]
  obtain ⟨h1, m, h2, h3, m2, h4, h5⟩ := hr
  obtain ⟨N, hN⟩ := args_ok "Expected ',' or ')' in argument list" args hP m2 s' h5
  refine Ev.step ⟨N, fun n hn => ?_⟩
  try dsimp only at *
  rw [Parser.atom, h1]; simp only; rw [h2, ok_bind, if_pos h3, h4, ok_bind, hN n hn]; rfl

theorem P_arr {items : List Src} (hP : ∀ a ∈ items, P a) : P (.arr items) := by
  refine P_of_atom rfl fun s s' hr => ?_
  rw [Src.toks] at hr; rw [Src.toExpr]
  obtain ⟨h1, m, h2, h3⟩ := hr
  cases items with
  | nil =>
    simp only [itemToks, commas, List.nil_append] at h3
    obtain ⟨h4, m2, h5, h6⟩ := h3
    simp only [Reads] at h6; subst h6
    refine Ev.step ⟨0, fun n hn => ?_⟩
    try dsimp only at *
    rw [Parser.atom, h1]; simp only; rw [h2, ok_bind, if_pos h4, h5]; simp only [itemExprs]; rfl
  | cons e rest =>
    obtain ⟨N, hN⟩ := itemsLoop_ok (e :: rest) (by simp) hP m s' h3
    refine Ev.step ⟨N, fun n hn => ?_⟩
    try dsimp only at *
    have hne : m.look ≠ .rbracket := by
      obtain ⟨t, r, ht, hs, _⟩ := head_toks e
      rw [itemToks] at h3
      obtain ⟨t', r1, r2, h9, h10⟩ := commas_head (ts := e.toks) (rest := itemToks rest) (by simp [ht])
      rw [h10] at h3
      rw [h3.1]
      rw [ht] at h9; simp at h9
      rw [← h9.1]
      intro h; rw [h] at hs; simp [starts] at hs
    rw [Parser.atom, h1]; simp only; rw [h2, ok_bind, if_neg hne, hN n hn]; rfl

theorem P_paren {e : Src} (h : P e) : P (.paren e) := by
  refine P_of_atom rfl fun s s' hr => ?_
  rw [Src.toks] at hr; rw [Src.toExpr]
  exact h.paren hr

theorem P_obj {ms : List (Key × Src)} (hP : ∀ a ∈ ms, P a.2) (c : Bool) : P (.obj ms c) := by
  refine P_of_atom rfl fun s s' hr => ?_
  rw [Src.toks] at hr; rw [Src.toExpr]
  obtain ⟨h1, m, h2, h3⟩ := hr
  cases ms with
  | nil =>
    simp only [memberToks, commas, lastComma, List.nil_append] at h3
    obtain ⟨h4, m2, h5, h6⟩ := h3
    simp only [Reads] at h6; subst h6
    refine Ev.step ⟨0, fun n hn => ?_⟩
    try dsimp only at *
    rw [Parser.atom, h1]; simp only; rw [h2, ok_bind, if_pos h4, h5]; simp only [memberExprs]; rfl
  | cons a rest =>
    obtain ⟨k, e⟩ := a
    obtain ⟨N, hN⟩ := membersLoop_ok c ((k, e) :: rest) (by simp) hP m s' h3
    refine Ev.step ⟨N, fun n hn => ?_⟩
    try dsimp only at *
    have hne : m.look ≠ .rbrace := by
      rw [memberToks] at h3
      obtain ⟨t', r1, r2, h9, h10⟩ := commas_head (ts := k.tok :: .colon :: e.toks)
        (rest := memberToks rest) (by simp)
      rw [h10] at h3
      rw [h3.1]
      simp at h9
      rw [← h9.1]
      cases k <;> simp [Key.tok]
    rw [Parser.atom, h1]; simp only; rw [h2, ok_bind, if_neg hne, hN n hn]; rfl

/-! #### Postfix -/

theorem P_prop {t : Src} (h : P t) (p : Str) : P (.prop t p) := by
  refine P_of_post rfl fun s s' hr hl hq r hev => ?_
  have hends : endsProp (Src.prop t p).toks = true := by
    rw [Src.toks]; exact endsProp_append _ _ rfl
  rw [Src.toks] at hr; rw [Src.toExpr] at hev
  obtain ⟨m, h1, h2, m2, h3, h4, m3, h5, h6⟩ := (reads_append _ _ _ _).1 hr
  simp only [Reads] at h6; subst h6
  refine h.postCont h1 (by rw [h2]; simp) (by rw [h2]; simp) ?_
  obtain ⟨N, hN⟩ := hev
  refine Ev.step ⟨N, fun n hn => ?_⟩
  try dsimp only at *
  rw [postLoop, h2]; simp only; rw [h3, ok_bind]; simp only [h4]; rw [h5, ok_bind]
  split
  · rename_i hx; rw [hq hx] at hends; simp at hends
  · rename_i hx; exact absurd hx hl
  · exact hN n hn

theorem P_safeProp {t : Src} (h : P t) (p : Str) : P (.safeProp t p) := by
  refine P_of_post rfl fun s s' hr hl hq r hev => ?_
  rw [Src.toks] at hr; rw [Src.toExpr] at hev
  obtain ⟨m, h1, h2, m2, h3, h4, m3, h5, h6⟩ := (reads_append _ _ _ _).1 hr
  simp only [Reads] at h6; subst h6
  refine h.postCont h1 (by rw [h2]; simp) (by rw [h2]; simp) ?_
  obtain ⟨N, hN⟩ := hev
  refine Ev.step ⟨N, fun n hn => ?_⟩
  try dsimp only at *
  rw [postLoop, h2]; simp only; rw [h3, ok_bind]; simp only [h4]; rw [h5, ok_bind]
  split
  · rename_i hx; exact absurd hx hl
  · exact hN n hn

theorem P_pred {t : Src} (h : P t) (p : Str) : P (.pred t p) := by
  refine P_of_post rfl fun s s' hr hl hq r hev => ?_
  rw [Src.toks] at hr; rw [Src.toExpr] at hev
  obtain ⟨m, h1, h2, m2, h3, h4, m3, h5, h6, m4, h7, h8⟩ := (reads_append _ _ _ _).1 hr
  simp only [Reads] at h8; subst h8
  refine h.postCont h1 (by rw [h2]; simp) (by rw [h2]; simp) ?_
  obtain ⟨N, hN⟩ := hev
  refine Ev.step ⟨N, fun n hn => ?_⟩
  try dsimp only at *
  rw [postLoop, h2]; simp only; rw [h3, ok_bind]; simp only [h4]; rw [h5, ok_bind]
  simp only [h6]; rw [h7, ok_bind]
  exact hN n hn

theorem P_meth {t : Src} (h : P t) (name : Str) {as : List (Bool × Src)} (hP : ∀ a ∈ as, P a.2) :
    P (.meth t name as) := by
  refine P_of_post rfl fun s s' hr hl hq r hev => ?_
  rw [Src.toks] at hr; rw [Src.toExpr] at hev
  obtain ⟨m, h1, h2, m2, h3, h4, m3, h5, h6, m4, h7, h8⟩ := (reads_append _ _ _ _).1 hr
  refine h.postCont h1 (by rw [h2]; simp) (by rw [h2]; simp) ?_
  obtain ⟨N, hN⟩ := hev
  obtain ⟨M, hM⟩ := args_ok "Expected ',' or ')' in method args" as hP m4 s' h8
  refine Ev.step ⟨N + M, fun n hn => ?_⟩
  try dsimp only at *
  rw [postLoop, h2]; simp only; rw [h3, ok_bind]; simp only [h4]; rw [h5, ok_bind]
  simp only [h6]; rw [h7, ok_bind, hM n (by omega), ok_bind]
  exact hN n (by omega)

theorem P_safeMeth {t : Src} (h : P t) (name : Str) {as : List (Bool × Src)} (hP : ∀ a ∈ as, P a.2) :
    P (.safeMeth t name as) := by
  refine P_of_post rfl fun s s' hr hl hq r hev => ?_
  rw [Src.toks] at hr; rw [Src.toExpr] at hev
  obtain ⟨m, h1, h2, m2, h3, h4, m3, h5, h6, m4, h7, h8⟩ := (reads_append _ _ _ _).1 hr
  refine h.postCont h1 (by rw [h2]; simp) (by rw [h2]; simp) ?_
  obtain ⟨N, hN⟩ := hev
  obtain ⟨M, hM⟩ := args_ok "Expected ',' or ')' in safe method args" as hP m4 s' h8
  refine Ev.step ⟨N + M, fun n hn => ?_⟩
  try dsimp only at *
  rw [postLoop, h2]; simp only; rw [h3, ok_bind]; simp only [h4]; rw [h5, ok_bind]
  simp only [h6]; rw [h7, ok_bind, hM n (by omega), ok_bind]
  exact hN n (by omega)

/-- The first tokens of an index or slice start. -/
theorem noColon_head (i : Src) : ∃ t r, wrap (startsColon i.toks) i.toks = t :: r ∧ starts t = true ∧ t ≠ .colon := by
  obtain ⟨t, r, ht, hs, _⟩ := head_toks i
  by_cases hc : startsColon i.toks = true
  · rw [hc]; exact ⟨.lparen, _, rfl, rfl, by simp⟩
  · have : startsColon i.toks = false := by simpa using hc
    rw [this]
    refine ⟨t, r, ht, hs, ?_⟩
    rintro rfl
    rw [ht] at this; simp [startsColon] at this

theorem P.noColon {i : Src} (h : P i) {s s' : St} (hr : Reads s (wrap (startsColon i.toks) i.toks) s')
    (hf : s'.look = .rbracket ∨ s'.look = .colon) : Ev (fun n => Parser.expr n s) (.ok (i.toExpr, s')) :=
  h.full (k := 0) (by omega) (by intro h; omega) hr (Fol.closed (by rcases hf with h | h <;> simp [h]))

theorem P_index {t i : Src} (h : P t) (hi : P i) : P (.index t i) := by
  refine P_of_post rfl fun s s' hr hl hq r hev => ?_
  rw [Src.toks] at hr; rw [Src.toExpr] at hev
  obtain ⟨m, h1, h2, m2, h3, h4⟩ := (reads_append _ _ _ _).1 hr
  obtain ⟨m3, h5, h6, m4, h7, h8⟩ := (reads_append _ _ _ _).1 h4
  simp only [Reads] at h8; subst h8
  refine h.postCont h1 (by rw [h2]; simp) (by rw [h2]; simp) ?_
  obtain ⟨N, hN⟩ := hev
  obtain ⟨M, hM⟩ := hi.noColon h5 (.inl h6)
  obtain ⟨t0, r0, h10, h11, h12⟩ := noColon_head i
  rw [h10] at h5
  refine Ev.step ⟨N + M, fun n hn => ?_⟩
  try dsimp only at *
  rw [postLoop, h2]; simp only; rw [h3, ok_bind]
  split
  · rename_i hx; rw [h5.1] at hx; rw [hx] at h11; simp [starts] at h11
  · rename_i hx; rw [h5.1] at hx; exact absurd hx h12
  · rw [hM n (by omega), ok_bind]
    simp only [h6]; rw [h7, ok_bind]
    exact hN n (by omega)

theorem sliceEnd_ok {b : Option Src} (hb : ∀ e, b = some e → P e) {s s' : St}
    (hr : Reads s (.colon :: (endToks b ++ [.rbracket])) s') :
    Ev (fun n => sliceEnd n s) (.ok (optExpr b, s')) := by
  obtain ⟨h1, m, h2, h3⟩ := hr
  cases b with
  | none =>
    simp only [endToks, List.nil_append] at h3
    obtain ⟨h4, m2, h5, h6⟩ := h3
    simp only [Reads] at h6; subst h6
    refine Ev.step ⟨0, fun n hn => ?_⟩
    try dsimp only at *
    rw [sliceEnd, h2, ok_bind, if_pos h4, h5]; simp only [optExpr]; rfl
  | some e =>
    simp only [endToks] at h3
    obtain ⟨m2, h4, h5, m3, h6, h7⟩ := (reads_append _ _ _ _).1 h3
    simp only [Reads] at h7; subst h7
    obtain ⟨N, hN⟩ := (hb e rfl).expr h4 (Fol.closed (by simp [h5]))
    refine Ev.step ⟨N, fun n hn => ?_⟩
    try dsimp only at *
    have := starts_ne (head_toks e) h4
    rw [sliceEnd, h2, ok_bind, if_neg, hN n hn, ok_bind]
    · simp only
      rw [if_pos h5, h6]; simp only [optExpr]; rfl
    · intro h; rw [h] at this; simp [starts] at this

theorem P_slice {t : Src} {a b : Option Src} (h : P t) (ha : ∀ e, a = some e → P e) (hb : ∀ e, b = some e → P e) :
    P (.slice t a b) := by
  refine P_of_post rfl fun s s' hr hl hq r hev => ?_
  rw [Src.toks] at hr; rw [Src.toExpr] at hev
  obtain ⟨m, h1, h2, m2, h3, h4⟩ := (reads_append _ _ _ _).1 hr
  obtain ⟨m3, h5, h6⟩ := (reads_append _ _ _ _).1 h4
  refine h.postCont h1 (by rw [h2]; simp) (by rw [h2]; simp) ?_
  obtain ⟨N, hN⟩ := hev
  obtain ⟨K, hK⟩ := sliceEnd_ok hb h6
  cases a with
  | none =>
    simp only [startToks, Reads] at h5; subst h5
    simp only [optExpr] at hN
    refine Ev.step ⟨N + K, fun n hn => ?_⟩
    try dsimp only at *
    rw [postLoop, h2]; simp only; rw [h3, ok_bind]
    simp only [h6.1]; rw [hK n (by omega), ok_bind]
    exact hN n (by omega)
  | some e =>
    simp only [startToks] at h5
    simp only [optExpr] at hN
    obtain ⟨M, hM⟩ := (ha e rfl).noColon h5 (.inr h6.1)
    obtain ⟨t0, r0, h10, h11, h12⟩ := noColon_head e
    rw [h10] at h5
    refine Ev.step ⟨N + M + K, fun n hn => ?_⟩
    try dsimp only at *
    rw [postLoop, h2]; simp only; rw [h3, ok_bind]
    split
    · rename_i hx; rw [h5.1] at hx; rw [hx] at h11; simp [starts] at h11
    · rename_i hx; rw [h5.1] at hx; exact absurd hx h12
    · rw [hM n (by omega), ok_bind]
      simp only [h6.1]; rw [hK n (by omega), ok_bind]
      exact hN n (by omega)

/-! #### Casts, operators, ternary, assignment -/

theorem castType_of {ty : CastTy} {name : Str} (h : IsTypeName ty name) : castType name = some ty := by
  unfold IsTypeName at h
  unfold castType
  cases ty <;> simp only [typeNames, List.mem_cons, List.not_mem_nil, or_false] at h
  all_goals first
    | (rcases h with h | h <;> simp only [h] <;> decide)
    | (simp only [h]; decide)

theorem P_cast {e : Src} (h : P e) (ty : CastTy) (name : Str) (hn : IsTypeName ty name) : P (.cast e ty name hn) := by
  refine P_of_other (by simp [Src.prec]) fun s s' hr hf => ?_
  rw [Src.toks] at hr; rw [Src.toExpr]
  obtain ⟨m, h1, h2, m2, h3, h4, m3, h5, h6⟩ := (reads_append _ _ _ _).1 hr
  simp only [Reads] at h6; subst h6
  obtain ⟨N, hN⟩ := h.postCont h1 (by rw [h2]; simp) (by rw [h2]; simp) (post_stop (by rw [h2]; simp [strength]))
  show Ev (fun n => castE n s) _
  refine Ev.step ⟨N, fun n hn' => ?_⟩
  try dsimp only at *
  rw [castE, hN n hn', ok_bind]
  simp only
  rw [if_pos h2, h3, ok_bind]
  simp only [h4]
  rw [h5, ok_bind, castType_of hn]; rfl

theorem P_un {e : Src} (h : P e) (op : UnaryOp) : P (.un op e) := by
  refine P_of_other (by simp [Src.prec]) fun s s' hr hf => ?_
  rw [Src.toks] at hr hf; rw [Src.toExpr]
  obtain ⟨h1, m, h2, h3⟩ := hr
  have hf' : Fol 8 (wrap (e.prec < 8) e.toks) s'.look := Fol.suffix (a := [unTok op]) hf
  obtain ⟨N, hN⟩ := h.full (k := 8) (by omega) (by simp) h3 hf'
  show Ev (fun n => unary n s) _
  refine Ev.step ⟨N, fun n hn => ?_⟩
  try dsimp only at *
  have hop : prefixOp s.look = some op := by rw [h1]; cases op <;> rfl
  have hh : unary n m = .ok (e.toExpr, s') := hN n hn
  rw [unary, hop]; simp only
  rw [h2, ok_bind, hh]; rfl

theorem P_pow {l r : Src} (hl : P l) (hr' : P r) : P (.bin l .pow r) := by
  refine P_of_other (by simp [Src.prec, opPrec]) fun s s' hr hf => ?_
  rw [Src.toks] at hr hf; rw [Src.toExpr]
  simp only [if_true] at hr hf
  obtain ⟨m, h1, h2, m2, h3, h4⟩ := (reads_append _ _ _ _).1 hr
  have hf' : Fol 9 (wrap (r.prec < 8) r.toks) s'.look :=
    Fol.suffix (a := [Token.caret]) (Fol.suffix hf)
  have hst : strength s'.look < 8 := by
    have h9 := hf'.stop
    have : ∀ t, strength t ≠ 8 := by intro t; cases t <;> simp [strength]
    have := this s'.look
    omega
  obtain ⟨N, hN⟩ := hl.full (k := 10) (by omega) (by simp) h1
    ⟨by rw [h2]; simp [strength], by rw [h2]; simp, by rw [h2]; simp, by rw [h2]; simp⟩
  obtain ⟨M, hM⟩ := hr'.full (k := 8) (by omega) (by simp) h4 (hf'.weaken (by omega))
  show Ev (fun n => power n s) _
  refine Ev.step ⟨N + M, fun n hn => ?_⟩
  try dsimp only at *
  have hh : castE n s = .ok (l.toExpr, m) := hN n (by omega)
  have hh2 : unary n m2 = .ok (r.toExpr, s') := hM n (by omega)
  rw [power, hh, ok_bind]
  simp only
  rw [if_pos h2, h3, ok_bind, hh2]; rfl

theorem opPrec_level {op : BinaryOp} (h : op ≠ .pow) : ∃ k, opPrec op = k + 2 ∧ k < 6 ∧
    opAt k (opTok op) = some op ∧ strength (opTok op) = k + 2 := by
  cases op
  · exact ⟨4, rfl, by omega, rfl, rfl⟩
  · exact ⟨4, rfl, by omega, rfl, rfl⟩
  · exact ⟨5, rfl, by omega, rfl, rfl⟩
  · exact ⟨5, rfl, by omega, rfl, rfl⟩
  · exact ⟨5, rfl, by omega, rfl, rfl⟩
  · exact absurd rfl h
  · exact ⟨3, rfl, by omega, rfl, rfl⟩
  · exact ⟨3, rfl, by omega, rfl, rfl⟩
  · exact ⟨3, rfl, by omega, rfl, rfl⟩
  · exact ⟨3, rfl, by omega, rfl, rfl⟩
  · exact ⟨2, rfl, by omega, rfl, rfl⟩
  · exact ⟨2, rfl, by omega, rfl, rfl⟩
  · exact ⟨1, rfl, by omega, rfl, rfl⟩
  · exact ⟨0, rfl, by omega, rfl, rfl⟩

theorem P_bin {l r : Src} (hl : P l) (hr' : P r) (op : BinaryOp) (hop : op ≠ .pow) : P (.bin l op r) := by
  obtain ⟨k, hk, hk6, hat, hst⟩ := opPrec_level hop
  have hp : (Src.bin l op r).prec = k + 2 := hk
  refine ⟨by omega, by omega, ?_, by omega⟩
  intro k' hk' hk6' s s' hr hf rr hev
  have : k' = k := by omega
  subst this
  rw [Src.toks, if_neg hop, hk] at hr hf
  rw [Src.toExpr] at hev
  obtain ⟨m, h1, h2, m2, h3, h4⟩ := (reads_append _ _ _ _).1 hr
  have hf' : Fol (k' + 3) (wrap (r.prec < k' + 3) r.toks) s'.look :=
    Fol.suffix (a := [opTok op]) (Fol.suffix hf)
  have hne : opTok op ≠ .lparen ∧ opTok op ≠ .qmark := by cases op <;> simp [opTok]
  refine hl.levCont hk6 h1 ⟨by rw [h2, hst]; omega, by rw [h2]; exact hne.1, by rw [h2]; exact opTok_ne_assign op,
    fun h => absurd (h2 ▸ h) hne.2⟩ ?_
  have hfull := hr'.full (k := k' + 3) (by omega) (by simp) h4 hf'
  have hlev : Ev (fun n => level n (k' + 1) m2) (.ok (r.toExpr, s')) := by
    rcases Nat.lt_or_ge k' 5 with h5 | h5
    · have e2 : (fun n => pl (k' + 3) n m2) = fun n => level n (k' + 1) m2 := by
        funext n; unfold pl
        rw [if_neg (by omega), if_neg (by omega), if_pos (by omega)]; rfl
      rw [e2] at hfull; exact hfull
    · have : k' = 5 := by omega
      subst this
      exact level6_of_unary hfull
  obtain ⟨N, hN⟩ := hev
  obtain ⟨M, hM⟩ := hlev
  refine Ev.step ⟨N + M, fun n hn => ?_⟩
  try dsimp only at *
  rw [levelLoop, h2, hat]
  simp only
  rw [h3, ok_bind, hM n (by omega), ok_bind]
  exact hN n (by omega)

theorem P_tern {c t e : Src} (hc : P c) (ht : P t) (he : P e) : P (.tern c t e) := by
  refine P_of_other (by simp [Src.prec]) fun s s' hr hf => ?_
  rw [Src.toks] at hr hf; rw [Src.toExpr]
  obtain ⟨m, h1, h2, m2, h3, h4⟩ := (reads_append _ _ _ _).1 hr
  obtain ⟨m3, h5, h6, m4, h7, h8⟩ := (reads_append _ _ _ _).1 h4
  have hf' : Fol 1 e.toks s'.look := by
    have h := Fol.suffix hf
    have h := Fol.suffix (a := [Token.qmark]) h
    have h := Fol.suffix h
    exact Fol.suffix (a := [Token.colon]) h
  obtain ⟨N, hN⟩ := ht.expr h5 (Fol.closed (by simp [h6]))
  obtain ⟨M, hM⟩ := he.expr h8 (hf'.weaken hf'.stop)
  have hcond : Ev (fun n => level n 0 s) (.ok (c.toExpr, m)) := by
    have hfol : ∀ ts, endsProp ts = false → Fol 2 ts m.look := fun ts h => by
      rw [h2]; exact ⟨by simp [strength], by simp, by simp, fun _ => h⟩
    have hwr : ∀ ts, endsProp (Token.lparen :: (ts ++ [Token.rparen])) = false := by
      intro ts; unfold endsProp; simp
    cases hb : endsProp (wrap (c.prec < 2) c.toks) with
    | false =>
      rw [hb] at h1
      exact hc.full (k := 2) (by omega) (by simp) h1 (hfol _ hb)
    | true =>
      rw [hb] at h1
      by_cases hp : c.prec < 2
      · -- the condition is already in parentheses: this case does not arise
        simp only [hp, decide_true] at hb
        have := hwr c.toks
        unfold wrap at hb; simp only [if_true] at hb
        rw [this] at hb; simp at hb
      · simp only [hp, decide_false] at h1
        exact hc.full (k := 2) (by omega) (b := true) (by simp) h1 (hfol _ (hwr _))
  obtain ⟨K, hK⟩ := hcond
  show Ev (fun n => ternary n s) _
  refine Ev.step ⟨N + M + K, fun n hn => ?_⟩
  try dsimp only at *
  rw [ternary, hK n (by omega), ok_bind]
  simp only
  rw [if_pos h2, h3, ok_bind, hN n (by omega), ok_bind]
  simp only
  rw [if_pos h6, h7, ok_bind, hM n (by omega)]; rfl

theorem P_assign {v : Src} (h : P v) (x : Str) : P (.assign x v) := by
  refine P_of_other (by simp [Src.prec]) fun s s' hr hf => ?_
  rw [Src.toks] at hr hf; rw [Src.toExpr]
  obtain ⟨h1, m, h2, h3, m2, h4, h5, m3, h6, h7⟩ := hr
  have hf' : Fol 0 (wrap (v.prec < 1) v.toks) s'.look :=
    Fol.suffix (a := [Token.colon, Token.ident x, Token.assign]) hf
  obtain ⟨N, hN⟩ := h.full (k := 1) (by omega) (by simp) h7 (hf'.weaken hf'.stop)
  show Ev (fun n => Parser.expr n s) _
  refine Ev.step ⟨N, fun n hn => ?_⟩
  try dsimp only at *
  have his : isAssign s = true := by
    unfold isAssign
    unfold bump at h2
    split at h2
    · rename_i t p r hrest
      simp at h2; subst h2
      simp only at h3; subst h3
      unfold bump at h4
      simp only at h4
      split at h4
      · rename_i t' p' r' hrest'
        simp at h4; subst h4; simp only at h5; subst h5
        rw [hrest]
      · simp at h4; subst h4; simp at h5
      · simp at h4
    · simp at h2; subst h2; simp at h3
    · simp at h2
  have hh : ternary n m3 = .ok (v.toExpr, s') := hN n hn
  rw [Parser.expr, if_pos ⟨h1, his⟩, h2, ok_bind]
  simp only [h3]
  rw [h4, ok_bind, if_pos h5, h6, ok_bind, hh]; rfl

/-! ### All of it -/

mutual
theorem P_all : (e : Src) → P e
  | .num n => P_num n
  | .str s => P_str s
  | .null => P_null
  | .tru => P_tru
  | .fls => P_fls
  | .var x => P_var x
  | .un op e => P_un (P_all e) op
  | .bin l op r =>
    if h : op = .pow then h ▸ P_pow (P_all l) (P_all r) else P_bin (P_all l) (P_all r) op h
  | .tern c t e => P_tern (P_all c) (P_all t) (P_all e)
  | .assign x v => P_assign (P_all v) x
  | .call _ args => P_call (P_args args)
  | .arr items => P_arr (P_items items)
  | .obj ms c => P_obj (P_members ms) c
  | .paren e => P_paren (P_all e)
  | .prop t p => P_prop (P_all t) p
  | .safeProp t p => P_safeProp (P_all t) p
  | .meth t name args => P_meth (P_all t) name (P_args args)
  | .pred t name => P_pred (P_all t) name
  | .safeMeth t name args => P_safeMeth (P_all t) name (P_args args)
  | .index t i => P_index (P_all t) (P_all i)
  | .slice t a b => P_slice (P_all t) (P_opt a) (P_opt b)
  | .cast e ty name h => P_cast (P_all e) ty name h
theorem P_args : (as : List (Bool × Src)) → ∀ a ∈ as, P a.2
  | [] => by simp
  | (b, e) :: rest => by
    intro a ha
    rcases List.mem_cons.1 ha with h | h
    · rw [h]; exact P_all e
    · exact P_args rest a h
theorem P_items : (as : List Src) → ∀ a ∈ as, P a
  | [] => by simp
  | e :: rest => by
    intro a ha
    rcases List.mem_cons.1 ha with h | h
    · rw [h]; exact P_all e
    · exact P_items rest a h
theorem P_members : (as : List (Key × Src)) → ∀ a ∈ as, P a.2
  | [] => by simp
  | (k, e) :: rest => by
    intro a ha
    rcases List.mem_cons.1 ha with h | h
    · rw [h]; exact P_all e
    · exact P_members rest a h
theorem P_opt : (o : Option Src) → ∀ e, o = some e → P e
  | none => by simp
  | some e => by
    intro e' h
    have := P_all e
    simp at h; subst h; exact this
end

theorem Fol.stops {a : List Token} {t : Token} (h : Spec.stops t = true) : Fol 0 a t := by
  cases t <;> first | (simp [Spec.stops] at h; done) | exact ⟨by simp [strength], by simp, by simp, by simp⟩

theorem stmts_ok (e : Src) (rest : List Src) (s s' : St) (hr : Reads s (progToks e rest) s') (he : stops s'.look = true) :
    ∃ m, Ev (fun n => expr n s) (.ok (e.toExpr, m)) ∧ Ev (fun n => stmts n m) (.ok (rest.map Src.toExpr, s')) := by
  induction rest generalizing e s with
  | nil =>
    simp only [progToks] at hr
    refine ⟨s', (P_all e).expr hr (Fol.stops he), ?_⟩
    refine Ev.step ⟨0, fun n _ => ?_⟩
    try dsimp only at *
    rw [stmts, if_neg (by intro h; rw [h] at he; simp [stops] at he)]; rfl
  | cons f rest ih =>
    simp only [progToks] at hr
    obtain ⟨m, h1, h2, m2, h3, h4⟩ := (reads_append _ _ _ _).1 hr
    refine ⟨m, (P_all e).expr h1 (Fol.closed (by simp [h2])), ?_⟩
    obtain ⟨m3, ⟨N, hN⟩, ⟨M, hM⟩⟩ := ih f m2 h4
    refine Ev.step ⟨N + M, fun n hn => ?_⟩
    try dsimp only at *
    have hne : m2.look ≠ .eof := by
      have : starts m2.look = true := by
        cases rest with
        | nil => simp only [progToks] at h4; exact starts_ne (head_toks f) h4
        | cons g rest =>
          simp only [progToks] at h4
          obtain ⟨m5, h5, _⟩ := (reads_append _ _ _ _).1 h4
          exact starts_ne (head_toks f) h5
      intro h; rw [h] at this; simp [starts] at this
    rw [stmts, if_pos h2, h3, ok_bind, if_neg hne, hN n (by omega), ok_bind]
    simp only
    rw [hM n (by omega)]; rfl

/-- Parsing the tokens of a program gives the program, at the end of the input or before a token that cannot continue it. -/
theorem program_ok (e : Src) (rest : List Src) (s s' : St) (hr : Reads s (progToks e rest) s') (he : stops s'.look = true) :
    Ev (fun n => program n s) (.ok (progExpr e rest, s')) := by
  obtain ⟨m, ⟨N, hN⟩, ⟨M, hM⟩⟩ := stmts_ok e rest s s' hr he
  refine ⟨N + M, fun n hn => ?_⟩
  try dsimp only at *
  unfold program
  rw [hN n (by omega), ok_bind]
  simp only
  rw [hM n (by omega), ok_bind]
  cases rest with
  | nil => rfl
  | cons f rest => rfl

/-- The statements of a program with a `;` after the last one. -/
theorem stmts_semi_ok (e : Src) (rest : List Src) (s s' : St) (hr : Reads s (progToks e rest ++ [.semi]) s')
    (he : s'.look = .eof) :
    ∃ m, Ev (fun n => expr n s) (.ok (e.toExpr, m)) ∧ Ev (fun n => stmts n m) (.ok (rest.map Src.toExpr, s')) := by
  induction rest generalizing e s with
  | nil =>
    simp only [progToks] at hr
    obtain ⟨m, h1, h2, m2, h3, h4⟩ := (reads_append _ _ _ _).1 hr
    cases h4
    refine ⟨m, (P_all e).expr h1 (Fol.closed (by simp [h2])), ?_⟩
    refine Ev.step ⟨0, fun n _ => ?_⟩
    try dsimp only at *
    rw [stmts, if_pos h2, h3, ok_bind, if_pos he]; rfl
  | cons f rest ih =>
    simp only [progToks, List.append_assoc, List.cons_append] at hr
    obtain ⟨m, h1, h2, m2, h3, h4⟩ := (reads_append _ _ _ _).1 hr
    refine ⟨m, (P_all e).expr h1 (Fol.closed (by simp [h2])), ?_⟩
    obtain ⟨m3, ⟨N, hN⟩, ⟨M, hM⟩⟩ := ih f m2 h4
    refine Ev.step ⟨N + M, fun n hn => ?_⟩
    try dsimp only at *
    have hne : m2.look ≠ .eof := by
      have : starts m2.look = true := by
        cases rest with
        | nil =>
          simp only [progToks] at h4
          obtain ⟨m5, h5, _⟩ := (reads_append _ _ _ _).1 h4
          exact starts_ne (head_toks f) h5
        | cons g rest =>
          simp only [progToks, List.append_assoc] at h4
          obtain ⟨m5, h5, _⟩ := (reads_append _ _ _ _).1 h4
          exact starts_ne (head_toks f) h5
      intro h; rw [h] at this; simp [starts] at this
    rw [stmts, if_pos h2, h3, ok_bind, if_neg hne, hN n (by omega), ok_bind]
    simp only
    rw [hM n (by omega)]; rfl

/-- Parsing the tokens of a program and a final `;` gives the program. -/
theorem program_semi_ok (e : Src) (rest : List Src) (s s' : St) (hr : Reads s (progToks e rest ++ [.semi]) s')
    (he : s'.look = .eof) : Ev (fun n => program n s) (.ok (progExpr e rest, s')) := by
  obtain ⟨m, ⟨N, hN⟩, ⟨M, hM⟩⟩ := stmts_semi_ok e rest s s' hr he
  refine ⟨N + M, fun n hn => ?_⟩
  try dsimp only at *
  unfold program
  rw [hN n (by omega), ok_bind]
  simp only
  rw [hM n (by omega), ok_bind]
  cases rest with
  | nil => rfl
  | cons f rest => rfl

end Parser
