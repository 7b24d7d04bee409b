import Verif.Lemmas.ParsePrint
/-! Whatever the parser returns, the tokens it consumed are the written form of a tree it stands for. -/

namespace Parser
open Spec

theorem bind_inv {α β : Type} {x : PRes α} {f : α → PRes β} {b : β} (h : (x >>= f) = .ok b) :
    ∃ a, x = .ok a ∧ f a = .ok b := by
  cases x with
  | error e => simp [bind, Except.bind] at h
  | ok a => exact ⟨a, rfl, h⟩

theorem pure_inv {α : Type} {a b : α} (h : (pure a : PRes α) = .ok b) : a = b := by
  simpa [pure, Except.pure] using h

theorem err_inv {α : Type} {s : St} {m : String} {b : α} (h : (err s m : PRes α) = .ok b) : False := by
  simp [err] at h

theorem reads_one {s m : St} {t : Token} (h1 : s.look = t) (h2 : bump s = .ok m) : Reads s [t] m := ⟨h1, m, h2, rfl⟩

theorem reads_trans {s m s' : St} {a b : List Token} (h1 : Reads s a m) (h2 : Reads m b s') : Reads s (a ++ b) s' :=
  (reads_append _ _ _ _).2 ⟨m, h1, h2⟩

/-- The tokens of `e`, read from `s`, lead to `s'`; `e` may stand in a context of level `k`. If they end in a
property name, the next token is not `?`; and the next token is no operator that a context of level
`k` would have to take. -/
structure Got (k : Nat) (s : St) (e : Src) (v : Expr) (s' : St) : Prop where
  tree : e.toExpr = v
  reads : Reads s e.toks s'
  prec : k ≤ e.prec
  noq : ∀ pre, endsProp (pre ++ e.toks) = true → s'.look ≠ .qmark
  stop : strength s'.look < max k 1 ∨ 10 ≤ strength s'.look

def G (k : Nat) (s : St) (v : Expr) (s' : St) : Prop := ∃ e, Got k s e v s'

theorem wrap_false {b : Bool} {ts : List Token} (h : b = false) : wrap b ts = ts := by rw [h]; rfl

theorem wrap_ge {p k : Nat} {ts : List Token} (h : k ≤ p) : wrap (decide (p < k)) ts = ts :=
  wrap_false (by simpa using h)

theorem endsProp_last {a b : List Token} {t : Token} (h : endsProp (a ++ (b ++ [t])) = true) : ∃ x, t = .ident x := by
  unfold endsProp at h
  rw [← List.append_assoc, List.reverse_append] at h
  simp only [List.reverse_cons, List.reverse_nil, List.nil_append, List.cons_append] at h
  split at h
  · rename_i x r hx; simp at hx; exact ⟨x, hx.1⟩
  · simp at h

theorem endsProp_last2 {a b : List Token} {t u : Token} (h : endsProp (a ++ (b ++ [t, u])) = true) : t = .dot := by
  unfold endsProp at h
  rw [← List.append_assoc, List.reverse_append] at h
  simp only [List.reverse_cons, List.reverse_nil, List.nil_append, List.cons_append] at h
  split at h
  · rename_i x r hx; simp at hx; exact hx.2.1
  · simp at h

theorem strength_ne8 (t : Token) : strength t ≠ 8 := by cases t <;> simp [strength]

theorem strength_qmark {t : Token} : strength t = 1 → t = .qmark := by cases t <;> simp [strength]

theorem strength_op {k : Nat} {t : Token} (hk : k < 6) (h : opAt k t = none) : strength t ≠ k + 2 := by
  have : k = 0 ∨ k = 1 ∨ k = 2 ∨ k = 3 ∨ k = 4 ∨ k = 5 := by omega
  rcases this with rfl | rfl | rfl | rfl | rfl | rfl <;> cases t <;> simp_all [strength, opAt]

theorem strength_caret {t : Token} (h : t ≠ .caret) : strength t ≠ 9 := by cases t <;> simp_all [strength]

theorem startsColon_false {s s' : St} {ts : List Token} (h : Reads s ts s') (hc : s.look ≠ .colon) :
    startsColon ts = false := by
  cases ts with
  | nil => rfl
  | cons t ts =>
    have := h.1
    unfold startsColon
    split
    · rename_i heq; simp at heq; rw [heq.1] at this; exact absurd this hc
    · rfl

theorem typeName_of {name : Str} {ty : CastTy} (h : castType name = some ty) : IsTypeName ty name := by
  unfold castType at h
  simp only at h
  unfold IsTypeName
  repeat' split at h
  all_goals first
    | (rename_i hx; cases h; simp only [typeNames, List.mem_cons, List.not_mem_nil, or_false]; exact hx)
    | simp at h

/-- What each parsing function delivers with fuel `n`. -/
structure Sound (n : Nat) : Prop where
  expr : ∀ s v s', expr n s = .ok (v, s') → G 0 s v s'
  ternary : ∀ s v s', ternary n s = .ok (v, s') → G 1 s v s'
  level : ∀ k s v s', k ≤ 6 → level n k s = .ok (v, s') → G (k + 2) s v s'
  levelLoop : ∀ k s0 (e : Src) u s v s', k < 6 → e.toExpr = u → Reads s0 e.toks s → k + 2 ≤ e.prec →
    (∀ pre, endsProp (pre ++ e.toks) = true → s.look ≠ .qmark) →
    (strength s.look < k + 3 ∨ 10 ≤ strength s.look) → levelLoop n k u s = .ok (v, s') → G (k + 2) s0 v s'
  unary : ∀ s v s', unary n s = .ok (v, s') → G 8 s v s'
  power : ∀ s v s', power n s = .ok (v, s') → G 9 s v s'
  castE : ∀ s v s', castE n s = .ok (v, s') → G 10 s v s'
  postfixE : ∀ s v s', postfixE n s = .ok (v, s') → G 11 s v s'
  postLoop : ∀ s0 (e : Src) u s v s', e.toExpr = u → Reads s0 e.toks s → 11 ≤ e.prec →
    (∀ pre, endsProp (pre ++ e.toks) = true → s.look ≠ .qmark) → postLoop n u s = .ok (v, s') → G 11 s0 v s'
  sliceEnd : ∀ s o s', s.look = .colon → sliceEnd n s = .ok (o, s') →
    ∃ b, optExpr b = o ∧ Reads s (.colon :: (endToks b ++ [.rbracket])) s'
  args : ∀ m s as s', args n m s = .ok (as, s') →
    ∃ bs, argExprs bs = as ∧ Reads s (commas (argToks bs) ++ [.rparen]) s'
  argsLoop : ∀ m s as s', argsLoop n m s = .ok (as, s') →
    ∃ bs, argExprs bs = as ∧ Reads s (commas (argToks bs) ++ [.rparen]) s' ∧ bs ≠ []
  arg : ∀ s v s', arg n s = .ok (v, s') →
    ∃ (sp : Bool) (e : Src), (if sp then .spread e.toExpr else e.toExpr) = v ∧ Reads s (if sp then .ellipsis :: e.toks else e.toks) s'
  itemsLoop : ∀ s as s', itemsLoop n s = .ok (as, s') →
    ∃ bs, itemExprs bs = as ∧ Reads s (commas (itemToks bs) ++ [.rbracket]) s' ∧ bs ≠ []
  membersLoop : ∀ s as s', membersLoop n s = .ok (as, s') →
    ∃ bs c, memberExprs bs = as ∧ Reads s (commas (memberToks bs) ++ (lastComma bs c ++ [.rbrace])) s' ∧ bs ≠ []
  atom : ∀ s v s', atom n s = .ok (v, s') → ∃ e : Src, e.toExpr = v ∧ Reads s e.toks s' ∧ e.prec = 12 ∧
    ∀ pre, endsProp (pre ++ e.toks) = false

theorem commas_cons {a : List Token} {b : List (List Token)} (h : b ≠ []) : commas (a :: b) = a ++ .comma :: commas b := by
  cases b with
  | nil => exact absurd rfl h
  | cons x xs => rfl

section steps
variable {n : Nat} (ih : Sound n)
include ih

theorem sound_expr (s : St) (v : Expr) (s' : St) (h : Parser.expr (n + 1) s = .ok (v, s')) : G 0 s v s' := by
  rw [Parser.expr] at h
  split at h
  · rename_i hc
    obtain ⟨s1, h1, h⟩ := bind_inv h
    split at h
    · rename_i name hl
      obtain ⟨s2, h2, h⟩ := bind_inv h
      split at h
      · rename_i ha
        obtain ⟨s3, h3, h⟩ := bind_inv h
        obtain ⟨⟨w, s4⟩, h4, h⟩ := bind_inv h
        have := pure_inv h
        simp only [Prod.mk.injEq] at this
        obtain ⟨rfl, rfl⟩ := this
        obtain ⟨e, he⟩ := ih.ternary _ _ _ h4
        have hw : wrap (decide (e.prec < 1)) e.toks = e.toks := wrap_ge he.prec
        refine ⟨.assign name e, ?_, ?_, Nat.zero_le _, ?_, ?_⟩
        · rw [Src.toExpr, he.tree]
        · rw [Src.toks, hw]
          exact ⟨hc.1, s1, h1, hl, s2, h2, ha, s3, h3, he.reads⟩
        · intro pre hp
          rw [Src.toks, hw] at hp
          exact he.noq (pre ++ [.colon, .ident name, .assign]) (by simpa using hp)
        · exact he.stop
      · exact (err_inv h).elim
    · exact (err_inv h).elim
  · obtain ⟨e, he⟩ := ih.ternary _ _ _ h
    exact ⟨e, he.tree, he.reads, Nat.zero_le _, he.noq, he.stop⟩

theorem sound_ternary (s : St) (v : Expr) (s' : St) (h : Parser.ternary (n + 1) s = .ok (v, s')) : G 1 s v s' := by
  rw [Parser.ternary] at h
  obtain ⟨⟨c, s1⟩, h1, h⟩ := bind_inv h
  obtain ⟨c', hc⟩ := ih.level 0 _ _ _ (by omega) h1
  simp only at h
  split at h
  · rename_i hq
    obtain ⟨s2, h2, h⟩ := bind_inv h
    obtain ⟨⟨t, s3⟩, h3, h⟩ := bind_inv h
    obtain ⟨t', ht⟩ := ih.expr _ _ _ h3
    simp only at h
    split at h
    · rename_i hcol
      obtain ⟨s4, h4, h⟩ := bind_inv h
      obtain ⟨⟨e, s5⟩, h5, h⟩ := bind_inv h
      obtain ⟨e', he⟩ := ih.expr _ _ _ h5
      have := pure_inv h
      simp only [Prod.mk.injEq] at this
      obtain ⟨rfl, rfl⟩ := this
      have hw : wrap (decide (c'.prec < 2)) c'.toks = c'.toks := wrap_ge hc.prec
      have hnp : endsProp c'.toks = false := by
        cases hx : endsProp c'.toks with
        | false => rfl
        | true => exact absurd hq (hc.noq [] (by simpa using hx))
      have htoks : (Src.tern c' t' e').toks = c'.toks ++ .qmark :: (t'.toks ++ .colon :: e'.toks) := by
        rw [Src.toks, hw, hnp]; rfl
      refine ⟨.tern c' t' e', ?_, ?_, Nat.le_refl _, ?_, ?_⟩
      · rw [Src.toExpr, hc.tree, ht.tree, he.tree]
      · rw [htoks]
        exact reads_trans hc.reads ⟨hq, s2, h2, reads_trans ht.reads ⟨hcol, s4, h4, he.reads⟩⟩
      · intro pre hp
        rw [htoks] at hp
        exact he.noq (pre ++ (c'.toks ++ .qmark :: (t'.toks ++ [.colon]))) (by simpa using hp)
      · exact he.stop
    · exact (err_inv h).elim
  · rename_i hq
    have := pure_inv h
    simp only [Prod.mk.injEq] at this
    obtain ⟨rfl, rfl⟩ := this
    refine ⟨c', hc.tree, hc.reads, by have := hc.prec; omega, hc.noq, ?_⟩
    have h1 := hc.stop
    have h2 : strength s1.look ≠ 1 := fun h => hq (strength_qmark h)
    omega

theorem sound_level (k : Nat) (s : St) (v : Expr) (s' : St) (hk : k ≤ 6) (h : Parser.level (n + 1) k s = .ok (v, s')) :
    G (k + 2) s v s' := by
  rw [Parser.level] at h
  split at h
  · have : k = 6 := by omega
    subst this
    exact ih.unary _ _ _ h
  · obtain ⟨⟨e, s1⟩, h1, h⟩ := bind_inv h
    obtain ⟨e', he⟩ := ih.level (k + 1) _ _ _ (by omega) h1
    exact ih.levelLoop k s e' e s1 v s' (by omega) he.tree he.reads (by have := he.prec; omega) he.noq
      (by have := he.stop; omega) h

theorem sound_levelLoop (k : Nat) (s0 : St) (e : Src) (u : Expr) (s : St) (v : Expr) (s' : St) (hk : k < 6)
    (g1 : e.toExpr = u) (g2 : Reads s0 e.toks s) (g3 : k + 2 ≤ e.prec)
    (g4 : ∀ pre, endsProp (pre ++ e.toks) = true → s.look ≠ .qmark)
    (g5 : strength s.look < k + 3 ∨ 10 ≤ strength s.look)
    (h : Parser.levelLoop (n + 1) k u s = .ok (v, s')) : G (k + 2) s0 v s' := by
  rw [Parser.levelLoop] at h
  split at h
  · rename_i op hop
    obtain ⟨s1, h1, h⟩ := bind_inv h
    obtain ⟨⟨r, s2⟩, h2, h⟩ := bind_inv h
    obtain ⟨r', hr⟩ := ih.level (k + 1) _ _ _ (by omega) h2
    obtain ⟨hs, _, ht, hp⟩ := opAt_strength hop
    have hnp : op ≠ .pow := by rintro rfl; simp [opPrec] at hp; omega
    have hw1 : wrap (decide (e.prec < opPrec op)) e.toks = e.toks := wrap_ge (by omega)
    have hw2 : wrap (decide (r'.prec < opPrec op + 1)) r'.toks = r'.toks := wrap_ge (by have := hr.prec; omega)
    have htoks : (Src.bin e op r').toks = e.toks ++ opTok op :: r'.toks := by
      rw [Src.toks, if_neg hnp, hw1, hw2]
    refine ih.levelLoop k s0 (.bin e op r') _ s2 v s' hk ?_ ?_ (Nat.le_of_eq hp.symm) ?_ ?_ h
    · rw [Src.toExpr, g1, hr.tree]
    · rw [htoks]; exact reads_trans g2 ⟨ht, s1, h1, hr.reads⟩
    · intro pre hx
      rw [htoks] at hx
      exact hr.noq (pre ++ (e.toks ++ [opTok op])) (by simpa using hx)
    · have := hr.stop; omega
  · rename_i hop
    have := pure_inv h
    simp only [Prod.mk.injEq] at this
    obtain ⟨rfl, rfl⟩ := this
    refine ⟨e, g1, g2, g3, g4, ?_⟩
    have := strength_op hk hop
    omega

theorem sound_unary (s : St) (v : Expr) (s' : St) (h : Parser.unary (n + 1) s = .ok (v, s')) : G 8 s v s' := by
  rw [Parser.unary] at h
  split at h
  · rename_i op hop
    obtain ⟨s1, h1, h⟩ := bind_inv h
    obtain ⟨⟨e, s2⟩, h2, h⟩ := bind_inv h
    obtain ⟨e', he⟩ := ih.unary _ _ _ h2
    have := pure_inv h
    simp only [Prod.mk.injEq] at this
    obtain ⟨rfl, rfl⟩ := this
    have ht : s.look = unTok op := by
      revert hop
      cases s.look <;> simp [prefixOp] <;> (rintro rfl; rfl)
    have htoks : (Src.un op e').toks = unTok op :: e'.toks := by
      rw [Src.toks, wrap_ge he.prec]
    refine ⟨.un op e', ?_, ?_, Nat.le_refl _, ?_, he.stop⟩
    · rw [Src.toExpr, he.tree]
    · rw [htoks]; exact ⟨ht, s1, h1, he.reads⟩
    · intro pre hx
      rw [htoks] at hx
      exact he.noq (pre ++ [unTok op]) (by simpa using hx)
  · obtain ⟨e, he⟩ := ih.power _ _ _ h
    refine ⟨e, he.tree, he.reads, by have := he.prec; omega, he.noq, ?_⟩
    have := he.stop
    have := strength_ne8 s'.look
    omega

theorem sound_power (s : St) (v : Expr) (s' : St) (h : Parser.power (n + 1) s = .ok (v, s')) : G 9 s v s' := by
  rw [Parser.power] at h
  obtain ⟨⟨l, s1⟩, h1, h⟩ := bind_inv h
  obtain ⟨l', hl⟩ := ih.castE _ _ _ h1
  simp only at h
  split at h
  · rename_i hc
    obtain ⟨s2, h2, h⟩ := bind_inv h
    obtain ⟨⟨r, s3⟩, h3, h⟩ := bind_inv h
    obtain ⟨r', hr⟩ := ih.unary _ _ _ h3
    have := pure_inv h
    simp only [Prod.mk.injEq] at this
    obtain ⟨rfl, rfl⟩ := this
    have htoks : (Src.bin l' .pow r').toks = l'.toks ++ .caret :: r'.toks := by
      rw [Src.toks, if_pos rfl, wrap_ge hl.prec, wrap_ge hr.prec]
    refine ⟨.bin l' .pow r', ?_, ?_, Nat.le_refl _, ?_, ?_⟩
    · rw [Src.toExpr, hl.tree, hr.tree]
    · rw [htoks]; exact reads_trans hl.reads ⟨hc, s2, h2, hr.reads⟩
    · intro pre hx
      rw [htoks] at hx
      exact hr.noq (pre ++ (l'.toks ++ [.caret])) (by simpa using hx)
    · have := hr.stop; omega
  · rename_i hc
    have := pure_inv h
    simp only [Prod.mk.injEq] at this
    obtain ⟨rfl, rfl⟩ := this
    refine ⟨l', hl.tree, hl.reads, by have := hl.prec; omega, hl.noq, ?_⟩
    have := hl.stop
    have := strength_caret hc
    omega

theorem sound_castE (s : St) (v : Expr) (s' : St) (h : Parser.castE (n + 1) s = .ok (v, s')) : G 10 s v s' := by
  rw [Parser.castE] at h
  obtain ⟨⟨l, s1⟩, h1, h⟩ := bind_inv h
  obtain ⟨l', hl⟩ := ih.postfixE _ _ _ h1
  simp only at h
  split at h
  · rename_i hc
    obtain ⟨s2, h2, h⟩ := bind_inv h
    split at h
    · rename_i name hn
      obtain ⟨s3, h3, h⟩ := bind_inv h
      split at h
      · rename_i ty hty
        have := pure_inv h
        simp only [Prod.mk.injEq] at this
        obtain ⟨rfl, rfl⟩ := this
        have htoks : (Src.cast l' ty name (typeName_of hty)).toks = l'.toks ++ [.dcolon, .ident name] := by
          rw [Src.toks, wrap_ge hl.prec]
        refine ⟨.cast l' ty name (typeName_of hty), ?_, ?_, Nat.le_refl _, ?_, by omega⟩
        · rw [Src.toExpr, hl.tree]
        · rw [htoks]; exact reads_trans hl.reads ⟨hc, s2, h2, hn, s3, h3, rfl⟩
        · intro pre hx
          rw [htoks] at hx
          exact absurd (endsProp_last2 hx) (by simp)
      · simp at h
    · simp at h
  · have := pure_inv h
    simp only [Prod.mk.injEq] at this
    obtain ⟨rfl, rfl⟩ := this
    exact ⟨l', hl.tree, hl.reads, by have := hl.prec; omega, hl.noq, by omega⟩

theorem sound_postfixE (s : St) (v : Expr) (s' : St) (h : Parser.postfixE (n + 1) s = .ok (v, s')) : G 11 s v s' := by
  rw [Parser.postfixE] at h
  obtain ⟨⟨e, s1⟩, h1, h⟩ := bind_inv h
  obtain ⟨e', h2, h3, h4, h5⟩ := ih.atom _ _ _ h1
  exact ih.postLoop s e' e s1 v s' h2 h3 (by omega) (fun pre hx => by rw [h5 pre] at hx; simp at hx) h

theorem sound_sliceEnd (s : St) (o : Option Expr) (s' : St) (hl : s.look = .colon)
    (h : Parser.sliceEnd (n + 1) s = .ok (o, s')) :
    ∃ b, optExpr b = o ∧ Reads s (.colon :: (endToks b ++ [.rbracket])) s' := by
  rw [Parser.sliceEnd] at h
  obtain ⟨s1, h1, h⟩ := bind_inv h
  split at h
  · rename_i hr
    obtain ⟨s2, h2, h⟩ := bind_inv h
    have := pure_inv h
    simp only [Prod.mk.injEq] at this
    obtain ⟨rfl, rfl⟩ := this
    exact ⟨none, by rw [optExpr], hl, s1, h1, by rw [endToks]; exact ⟨hr, s2, h2, rfl⟩⟩
  · obtain ⟨⟨e, s2⟩, h2, h⟩ := bind_inv h
    obtain ⟨e', he⟩ := ih.expr _ _ _ h2
    simp only at h
    split at h
    · rename_i hr
      obtain ⟨s3, h3, h⟩ := bind_inv h
      have := pure_inv h
      simp only [Prod.mk.injEq] at this
      obtain ⟨rfl, rfl⟩ := this
      exact ⟨some e', by rw [optExpr, he.tree], hl, s1, h1, by
        rw [endToks]; exact reads_trans he.reads ⟨hr, s3, h3, rfl⟩⟩
    · exact (err_inv h).elim

theorem sound_args (m : String) (s : St) (as : List Expr) (s' : St) (h : Parser.args (n + 1) m s = .ok (as, s')) :
    ∃ bs, argExprs bs = as ∧ Reads s (commas (argToks bs) ++ [.rparen]) s' := by
  rw [Parser.args] at h
  split at h
  · rename_i hr
    obtain ⟨s1, h1, h⟩ := bind_inv h
    have := pure_inv h
    simp only [Prod.mk.injEq] at this
    obtain ⟨rfl, rfl⟩ := this
    exact ⟨[], by rw [argExprs], by rw [argToks]; exact ⟨hr, s1, h1, rfl⟩⟩
  · obtain ⟨bs, h1, h2, _⟩ := ih.argsLoop _ _ _ _ h
    exact ⟨bs, h1, h2⟩

theorem sound_argsLoop (m : String) (s : St) (as : List Expr) (s' : St) (h : Parser.argsLoop (n + 1) m s = .ok (as, s')) :
    ∃ bs, argExprs bs = as ∧ Reads s (commas (argToks bs) ++ [.rparen]) s' ∧ bs ≠ [] := by
  rw [Parser.argsLoop] at h
  obtain ⟨⟨a, s1⟩, h1, h⟩ := bind_inv h
  obtain ⟨sp, e, h2, h3⟩ := ih.arg _ _ _ h1
  simp only at h
  split at h
  · rename_i hc
    obtain ⟨s2, h4, h⟩ := bind_inv h
    obtain ⟨⟨rest, s3⟩, h5, h⟩ := bind_inv h
    have := pure_inv h
    simp only [Prod.mk.injEq] at this
    obtain ⟨rfl, rfl⟩ := this
    obtain ⟨bs, h6, h7, h8⟩ := ih.argsLoop _ _ _ _ h5
    refine ⟨(sp, e) :: bs, by rw [argExprs, h2, h6], ?_, by simp⟩
    obtain ⟨b, bs, rfl⟩ := List.exists_cons_of_ne_nil h8
    rw [argToks, commas_cons (by obtain ⟨x, y⟩ := b; simp [argToks]), List.append_assoc]
    exact reads_trans h3 ⟨hc, s2, h4, h7⟩
  · split at h
    · rename_i hr
      obtain ⟨s2, h4, h⟩ := bind_inv h
      have := pure_inv h
      simp only [Prod.mk.injEq] at this
      obtain ⟨rfl, rfl⟩ := this
      refine ⟨[(sp, e)], by rw [argExprs, h2, argExprs], ?_, by simp⟩
      rw [argToks, argToks, commas]
      exact reads_trans h3 ⟨hr, s2, h4, rfl⟩
    · exact (err_inv h).elim

theorem sound_arg (s : St) (v : Expr) (s' : St) (h : Parser.arg (n + 1) s = .ok (v, s')) :
    ∃ (sp : Bool) (e : Src), (if sp then .spread e.toExpr else e.toExpr) = v ∧ Reads s (if sp then .ellipsis :: e.toks else e.toks) s' := by
  rw [Parser.arg] at h
  split at h
  · rename_i hc
    obtain ⟨s1, h1, h⟩ := bind_inv h
    obtain ⟨⟨e, s2⟩, h2, h⟩ := bind_inv h
    have := pure_inv h
    simp only [Prod.mk.injEq] at this
    obtain ⟨rfl, rfl⟩ := this
    obtain ⟨e', he⟩ := ih.expr _ _ _ h2
    exact ⟨true, e', by rw [if_pos rfl, he.tree], by rw [if_pos rfl]; exact ⟨hc, s1, h1, he.reads⟩⟩
  · obtain ⟨e', he⟩ := ih.expr _ _ _ h
    exact ⟨false, e', by simpa using he.tree, by simpa using he.reads⟩

theorem sound_itemsLoop (s : St) (as : List Expr) (s' : St) (h : Parser.itemsLoop (n + 1) s = .ok (as, s')) :
    ∃ bs, itemExprs bs = as ∧ Reads s (commas (itemToks bs) ++ [.rbracket]) s' ∧ bs ≠ [] := by
  rw [Parser.itemsLoop] at h
  obtain ⟨⟨a, s1⟩, h1, h⟩ := bind_inv h
  obtain ⟨e, he⟩ := ih.expr _ _ _ h1
  simp only at h
  split at h
  · rename_i hc
    obtain ⟨s2, h4, h⟩ := bind_inv h
    obtain ⟨⟨rest, s3⟩, h5, h⟩ := bind_inv h
    have := pure_inv h
    simp only [Prod.mk.injEq] at this
    obtain ⟨rfl, rfl⟩ := this
    obtain ⟨bs, h6, h7, h8⟩ := ih.itemsLoop _ _ _ h5
    refine ⟨e :: bs, by rw [itemExprs, he.tree, h6], ?_, by simp⟩
    obtain ⟨b, bs, rfl⟩ := List.exists_cons_of_ne_nil h8
    rw [itemToks, commas_cons (by simp [itemToks]), List.append_assoc]
    exact reads_trans he.reads ⟨hc, s2, h4, h7⟩
  · split at h
    · rename_i hr
      obtain ⟨s2, h4, h⟩ := bind_inv h
      have := pure_inv h
      simp only [Prod.mk.injEq] at this
      obtain ⟨rfl, rfl⟩ := this
      refine ⟨[e], by rw [itemExprs, he.tree, itemExprs], ?_, by simp⟩
      rw [itemToks, itemToks, commas]
      exact reads_trans he.reads ⟨hr, s2, h4, rfl⟩
    · exact (err_inv h).elim

theorem sound_membersLoop (s : St) (as : List (Str × Expr)) (s' : St)
    (h : Parser.membersLoop (n + 1) s = .ok (as, s')) :
    ∃ bs c, memberExprs bs = as ∧ Reads s (commas (memberToks bs) ++ (lastComma bs c ++ [.rbrace])) s' ∧ bs ≠ [] := by
  rw [Parser.membersLoop] at h
  obtain ⟨⟨key, s1⟩, h1, h⟩ := bind_inv h
  have hkey : ∃ k : Key, k.text = key ∧ s.look = k.tok ∧ bump s = .ok s1 := by
    split at h1
    · rename_i k hk
      obtain ⟨s2, h2, h1⟩ := bind_inv h1
      have := pure_inv h1
      simp only [Prod.mk.injEq] at this
      obtain ⟨rfl, rfl⟩ := this
      exact ⟨.ident k, rfl, hk, h2⟩
    · rename_i k hk
      obtain ⟨s2, h2, h1⟩ := bind_inv h1
      have := pure_inv h1
      simp only [Prod.mk.injEq] at this
      obtain ⟨rfl, rfl⟩ := this
      exact ⟨.quoted k, rfl, hk, h2⟩
    · exact (err_inv h1).elim
  obtain ⟨k, rfl, hk, hb⟩ := hkey
  simp only at h
  split at h
  · rename_i hcol
    obtain ⟨s2, h2, h⟩ := bind_inv h
    obtain ⟨⟨v, s3⟩, h3, h⟩ := bind_inv h
    obtain ⟨e, he⟩ := ih.expr _ _ _ h3
    have hone : Reads s (k.tok :: .colon :: e.toks) s3 := ⟨hk, s1, hb, hcol, s2, h2, he.reads⟩
    simp only at h
    split at h
    · rename_i hc
      obtain ⟨s4, h4, h⟩ := bind_inv h
      split at h
      · rename_i hr
        obtain ⟨s5, h5, h⟩ := bind_inv h
        have := pure_inv h
        simp only [Prod.mk.injEq] at this
        obtain ⟨rfl, rfl⟩ := this
        refine ⟨[(k, e)], true, by rw [memberExprs, he.tree, memberExprs], ?_, by simp⟩
        rw [memberToks, memberToks, commas]
        exact reads_trans hone ⟨hc, s4, h4, hr, s5, h5, rfl⟩
      · obtain ⟨⟨ms, s5⟩, h5, h⟩ := bind_inv h
        have := pure_inv h
        simp only [Prod.mk.injEq] at this
        obtain ⟨rfl, rfl⟩ := this
        obtain ⟨bs, c, h6, h7, h8⟩ := ih.membersLoop _ _ _ h5
        refine ⟨(k, e) :: bs, c, by rw [memberExprs, he.tree, h6], ?_, by simp⟩
        obtain ⟨b, bs, rfl⟩ := List.exists_cons_of_ne_nil h8
        have hl : lastComma ((k, e) :: b :: bs) c = lastComma (b :: bs) c := by cases c <;> rfl
        rw [memberToks, commas_cons (by obtain ⟨x, y⟩ := b; simp [memberToks]), List.append_assoc, hl]
        exact reads_trans hone ⟨hc, s4, h4, h7⟩
    · split at h
      · rename_i hr
        obtain ⟨s4, h4, h⟩ := bind_inv h
        have := pure_inv h
        simp only [Prod.mk.injEq] at this
        obtain ⟨rfl, rfl⟩ := this
        refine ⟨[(k, e)], false, by rw [memberExprs, he.tree, memberExprs], ?_, by simp⟩
        rw [memberToks, memberToks, commas]
        exact reads_trans hone ⟨hr, s4, h4, rfl⟩
      · exact (err_inv h).elim
  · exact (err_inv h).elim

theorem sound_postLoop (s0 : St) (e : Src) (u : Expr) (s : St) (v : Expr) (s' : St) (g1 : e.toExpr = u)
    (g2 : Reads s0 e.toks s) (g3 : 11 ≤ e.prec) (g4 : ∀ pre, endsProp (pre ++ e.toks) = true → s.look ≠ .qmark)
    (h : Parser.postLoop (n + 1) u s = .ok (v, s')) : G 11 s0 v s' := by
  have hw : wrap (decide (e.prec < 11)) e.toks = e.toks := wrap_ge g3
  rw [Parser.postLoop] at h
  split at h
  · rename_i hdot
    obtain ⟨s1, h1, h⟩ := bind_inv h
    split at h
    · rename_i name hn
      obtain ⟨s2, h2, h⟩ := bind_inv h
      split at h
      · rename_i hq
        obtain ⟨s3, h3, h⟩ := bind_inv h
        have ht : (Src.pred e name).toks = e.toks ++ ([.dot, .ident name] ++ [.qmark]) := by rw [Src.toks, hw]; rfl
        refine ih.postLoop s0 (.pred e name) _ s3 v s' ?_ ?_ (Nat.le_refl _) ?_ h
        · rw [Src.toExpr, g1]; rfl
        · rw [ht]; exact reads_trans g2 ⟨hdot, s1, h1, hn, s2, h2, hq, s3, h3, rfl⟩
        · intro pre hx
          rw [ht, ← List.append_assoc e.toks] at hx
          obtain ⟨x, hx⟩ := endsProp_last hx
          simp at hx
      · rename_i hp
        obtain ⟨s3, h3, h⟩ := bind_inv h
        obtain ⟨⟨as, s4⟩, h4, h⟩ := bind_inv h
        obtain ⟨bs, h5, h6⟩ := ih.args _ _ _ _ h4
        have ht : (Src.meth e name bs).toks =
            e.toks ++ ((.dot :: .ident name :: .lparen :: commas (argToks bs)) ++ [.rparen]) := by
          rw [Src.toks, hw]; rfl
        refine ih.postLoop s0 (.meth e name bs) _ s4 v s' ?_ ?_ (Nat.le_refl _) ?_ h
        · rw [Src.toExpr, g1, h5]; rfl
        · rw [ht]; exact reads_trans g2 ⟨hdot, s1, h1, hn, s2, h2, hp, s3, h3, h6⟩
        · intro pre hx
          rw [ht, ← List.append_assoc e.toks] at hx
          obtain ⟨x, hx⟩ := endsProp_last hx
          simp at hx
      · rename_i hq hp
        have ht : (Src.prop e name).toks = e.toks ++ [.dot, .ident name] := by rw [Src.toks, hw]
        refine ih.postLoop s0 (.prop e name) _ s2 v s' ?_ ?_ (Nat.le_refl _) ?_ h
        · rw [Src.toExpr, g1]
        · rw [ht]; exact reads_trans g2 ⟨hdot, s1, h1, hn, s2, h2, rfl⟩
        · intro pre hx; exact hq
    · exact (err_inv h).elim
  · rename_i hdot
    obtain ⟨s1, h1, h⟩ := bind_inv h
    split at h
    · rename_i name hn
      obtain ⟨s2, h2, h⟩ := bind_inv h
      split at h
      · rename_i hp
        obtain ⟨s3, h3, h⟩ := bind_inv h
        obtain ⟨⟨as, s4⟩, h4, h⟩ := bind_inv h
        obtain ⟨bs, h5, h6⟩ := ih.args _ _ _ _ h4
        have ht : (Src.safeMeth e name bs).toks =
            e.toks ++ ((.safeNav :: .ident name :: .lparen :: commas (argToks bs)) ++ [.rparen]) := by
          rw [Src.toks, hw]; rfl
        refine ih.postLoop s0 (.safeMeth e name bs) _ s4 v s' ?_ ?_ (Nat.le_refl _) ?_ h
        · rw [Src.toExpr, g1, h5]; rfl
        · rw [ht]; exact reads_trans g2 ⟨hdot, s1, h1, hn, s2, h2, hp, s3, h3, h6⟩
        · intro pre hx
          rw [ht, ← List.append_assoc e.toks] at hx
          obtain ⟨x, hx⟩ := endsProp_last hx
          simp at hx
      · have ht : (Src.safeProp e name).toks = e.toks ++ [.safeNav, .ident name] := by rw [Src.toks, hw]
        refine ih.postLoop s0 (.safeProp e name) _ s2 v s' ?_ ?_ (Nat.le_refl _) ?_ h
        · rw [Src.toExpr, g1]
        · rw [ht]; exact reads_trans g2 ⟨hdot, s1, h1, hn, s2, h2, rfl⟩
        · intro pre hx
          rw [ht] at hx
          exact absurd (endsProp_last2 hx) (by simp)
    · exact (err_inv h).elim
  · rename_i hlb
    obtain ⟨s1, h1, h⟩ := bind_inv h
    have slice : ∀ (a b : Option Src) (x y : Option Expr) (s2 s3 : St), optExpr a = x → optExpr b = y →
        Reads s1 (startToks a) s2 → Reads s2 (.colon :: (endToks b ++ [.rbracket])) s3 →
        Parser.postLoop n (.slice u x y) s3 = .ok (v, s') → G 11 s0 v s' := by
      intro a b x y s2 s3 hx hy r1 r2 h
      have ht : (Src.slice e a b).toks = e.toks ++ (.lbracket :: (startToks a ++ .colon :: (endToks b ++ [.rbracket]))) := by
        rw [Src.toks, hw]
      refine ih.postLoop s0 (.slice e a b) _ s3 v s' ?_ ?_ (Nat.le_refl _) ?_ h
      · rw [Src.toExpr, g1, hx, hy]
      · rw [ht]; exact reads_trans g2 ⟨hlb, s1, h1, reads_trans r1 r2⟩
      · intro pre hp
        have e1 : (Src.slice e a b).toks = (e.toks ++ (.lbracket :: (startToks a ++ .colon :: endToks b))) ++ [.rbracket] := by
          rw [ht]; simp
        rw [e1] at hp
        obtain ⟨x, hx⟩ := endsProp_last hp
        simp at hx
    split at h
    · obtain ⟨s2, h2, h⟩ := bind_inv h
      exact (err_inv h).elim
    · rename_i hcol
      obtain ⟨⟨o, s2⟩, h2, h⟩ := bind_inv h
      obtain ⟨b, h3, h4⟩ := ih.sliceEnd _ _ _ hcol h2
      exact slice none b none o s1 s2 (by rw [optExpr]) h3 (by rw [startToks]; rfl) h4 h
    · rename_i hnr hnc
      obtain ⟨⟨first, s2⟩, h2, h⟩ := bind_inv h
      obtain ⟨i, hi⟩ := ih.expr _ _ _ h2
      have hsc := startsColon_false hi.reads hnc
      simp only at h
      split at h
      · rename_i hcol
        obtain ⟨⟨o, s3⟩, h3, h⟩ := bind_inv h
        obtain ⟨b, h4, h5⟩ := ih.sliceEnd _ _ _ hcol h3
        exact slice (some i) b (some first) o s2 s3 (by rw [optExpr, hi.tree]) h4
          (by rw [startToks, hsc]; exact hi.reads) h5 h
      · rename_i hrb
        obtain ⟨s3, h3, h⟩ := bind_inv h
        have ht : (Src.index e i).toks = e.toks ++ ((.lbracket :: i.toks) ++ [.rbracket]) := by
          rw [Src.toks, hw, hsc]; rfl
        refine ih.postLoop s0 (.index e i) _ s3 v s' ?_ ?_ (Nat.le_refl _) ?_ h
        · rw [Src.toExpr, g1, hi.tree]
        · rw [ht]; exact reads_trans g2 ⟨hlb, s1, h1, reads_trans hi.reads ⟨hrb, s3, h3, rfl⟩⟩
        · intro pre hx
          rw [ht, ← List.append_assoc e.toks] at hx
          obtain ⟨x, hx⟩ := endsProp_last hx
          simp at hx
      · exact (err_inv h).elim
  · have := pure_inv h
    simp only [Prod.mk.injEq] at this
    obtain ⟨rfl, rfl⟩ := this
    exact ⟨e, g1, g2, g3, g4, by omega⟩

omit ih in
theorem endsProp_not {pre b : List Token} {t : Token} (ht : ∀ x, t ≠ .ident x) : endsProp (pre ++ (b ++ [t])) = false := by
  cases h : endsProp (pre ++ (b ++ [t])) with
  | false => rfl
  | true => obtain ⟨x, hx⟩ := endsProp_last h; exact absurd hx (ht x)

theorem sound_atom (s : St) (v : Expr) (s' : St) (h : Parser.atom (n + 1) s = .ok (v, s')) :
    ∃ e : Src, e.toExpr = v ∧ Reads s e.toks s' ∧ e.prec = 12 ∧ ∀ pre, endsProp (pre ++ e.toks) = false := by
  have single : ∀ (e : Src) (t : Token) (u : Expr), e.toks = [t] → e.toExpr = u → e.prec = 12 → (∀ x, t ≠ .ident x) →
      s.look = t → (do let s ← bump s; return (u, s) : PRes (Expr × St)) = .ok (v, s') →
      ∃ e : Src, e.toExpr = v ∧ Reads s e.toks s' ∧ e.prec = 12 ∧ ∀ pre, endsProp (pre ++ e.toks) = false := by
    intro e t u h1 h2 h3 h4 h5 h
    obtain ⟨s1, h6, h⟩ := bind_inv h
    have := pure_inv h
    simp only [Prod.mk.injEq] at this
    obtain ⟨rfl, rfl⟩ := this
    exact ⟨e, h2, by rw [h1]; exact reads_one h5 h6, h3, fun pre => by rw [h1]; exact endsProp_not (b := []) h4⟩
  rw [Parser.atom] at h
  split at h
  · rename_i x hl
    exact single (.num x) _ _ (by rw [Src.toks]) (by rw [Src.toExpr]) rfl (by simp) hl h
  · rename_i hl
    obtain ⟨s1, h1, h⟩ := bind_inv h
    obtain ⟨⟨e, s2⟩, h2, h⟩ := bind_inv h
    obtain ⟨e', he⟩ := ih.expr _ _ _ h2
    simp only at h
    split at h
    · rename_i hr
      obtain ⟨s3, h3, h⟩ := bind_inv h
      have := pure_inv h
      simp only [Prod.mk.injEq] at this
      obtain ⟨rfl, rfl⟩ := this
      have ht : (Src.paren e').toks = (.lparen :: e'.toks) ++ [.rparen] := by rw [Src.toks]; rfl
      exact ⟨.paren e', by rw [Src.toExpr, he.tree], by
        rw [ht]; exact ⟨hl, s1, h1, reads_trans he.reads ⟨hr, s3, h3, rfl⟩⟩, rfl,
        fun pre => by rw [ht]; exact endsProp_not (by simp)⟩
    · exact (err_inv h).elim
  · rename_i x hl
    exact single (.str x) _ _ (by rw [Src.toks]) (by rw [Src.toExpr]) rfl (by simp) hl h
  · rename_i hl
    exact single .null _ _ (by rw [Src.toks]) (by rw [Src.toExpr]) rfl (by simp) hl h
  · rename_i hl
    obtain ⟨s1, h1, h⟩ := bind_inv h
    split at h
    · rename_i x hx
      obtain ⟨s2, h2, h⟩ := bind_inv h
      have := pure_inv h
      simp only [Prod.mk.injEq] at this
      obtain ⟨rfl, rfl⟩ := this
      refine ⟨.var x, by rw [Src.toExpr], by rw [Src.toks]; exact ⟨hl, s1, h1, hx, s2, h2, rfl⟩, rfl, fun pre => ?_⟩
      rw [Src.toks]
      cases hb : endsProp (pre ++ [.colon, .ident x]) with
      | false => rfl
      | true => exact absurd (endsProp_last2 (b := []) hb) (by simp)
    · exact (err_inv h).elim
  · rename_i hl
    exact single .tru _ _ (by rw [Src.toks]) (by rw [Src.toExpr]) rfl (by simp) hl h
  · rename_i hl
    exact single .fls _ _ (by rw [Src.toks]) (by rw [Src.toExpr]) rfl (by simp) hl h
  · rename_i name hl
    obtain ⟨s1, h1, h⟩ := bind_inv h
    split at h
    · rename_i hp
      obtain ⟨s2, h2, h⟩ := bind_inv h
      obtain ⟨⟨as, s3⟩, h3, h⟩ := bind_inv h
      have := pure_inv h
      simp only [Prod.mk.injEq] at this
      obtain ⟨rfl, rfl⟩ := this
      obtain ⟨bs, h5, h6⟩ := ih.args _ _ _ _ h3
      have ht : (Src.call name bs).toks = (.ident name :: .lparen :: commas (argToks bs)) ++ [.rparen] := by
        rw [Src.toks]; rfl
      exact ⟨.call name bs, by rw [Src.toExpr, h5]; rfl, by rw [ht]; exact ⟨hl, s1, h1, hp, s2, h2, h6⟩, rfl,
        fun pre => by rw [ht]; exact endsProp_not (by simp)⟩
    · exact (err_inv h).elim
  · rename_i hl
    obtain ⟨s1, h1, h⟩ := bind_inv h
    split at h
    · rename_i hr
      obtain ⟨s2, h2, h⟩ := bind_inv h
      have := pure_inv h
      simp only [Prod.mk.injEq] at this
      obtain ⟨rfl, rfl⟩ := this
      have ht : (Src.arr []).toks = [.lbracket] ++ [.rbracket] := by rw [Src.toks, itemToks]; rfl
      exact ⟨.arr [], by rw [Src.toExpr, itemExprs], by rw [ht]; exact ⟨hl, s1, h1, hr, s2, h2, rfl⟩, rfl,
        fun pre => by rw [ht]; exact endsProp_not (by simp)⟩
    · obtain ⟨⟨as, s3⟩, h3, h⟩ := bind_inv h
      have := pure_inv h
      simp only [Prod.mk.injEq] at this
      obtain ⟨rfl, rfl⟩ := this
      obtain ⟨bs, h5, h6, _⟩ := ih.itemsLoop _ _ _ h3
      have ht : (Src.arr bs).toks = (.lbracket :: commas (itemToks bs)) ++ [.rbracket] := by rw [Src.toks]; rfl
      exact ⟨.arr bs, by rw [Src.toExpr, h5], by rw [ht]; exact ⟨hl, s1, h1, h6⟩, rfl,
        fun pre => by rw [ht]; exact endsProp_not (by simp)⟩
  · rename_i hl
    obtain ⟨s1, h1, h⟩ := bind_inv h
    split at h
    · rename_i hr
      obtain ⟨s2, h2, h⟩ := bind_inv h
      have := pure_inv h
      simp only [Prod.mk.injEq] at this
      obtain ⟨rfl, rfl⟩ := this
      have ht : (Src.obj [] false).toks = [.lbrace] ++ [.rbrace] := by rw [Src.toks, memberToks]; rfl
      exact ⟨.obj [] false, by rw [Src.toExpr, memberExprs], by rw [ht]; exact ⟨hl, s1, h1, hr, s2, h2, rfl⟩, rfl,
        fun pre => by rw [ht]; exact endsProp_not (by simp)⟩
    · obtain ⟨⟨as, s3⟩, h3, h⟩ := bind_inv h
      have := pure_inv h
      simp only [Prod.mk.injEq] at this
      obtain ⟨rfl, rfl⟩ := this
      obtain ⟨bs, c, h5, h6, _⟩ := ih.membersLoop _ _ _ h3
      have ht : (Src.obj bs c).toks = (.lbrace :: (commas (memberToks bs) ++ lastComma bs c)) ++ [.rbrace] := by
        rw [Src.toks]; simp
      refine ⟨.obj bs c, by rw [Src.toExpr, h5], ?_, rfl,
        fun pre => by rw [ht]; exact endsProp_not (by simp)⟩
      rw [Src.toks]; exact ⟨hl, s1, h1, h6⟩
  · exact (err_inv h).elim

end steps

theorem sound : ∀ n, Sound n
  | 0 => by
    constructor <;> intros <;> rename_i h <;>
      first
      | (rw [Parser.expr] at h; cases h) | (rw [Parser.ternary] at h; cases h) | (rw [Parser.level] at h; cases h)
      | (rw [Parser.levelLoop] at h; cases h) | (rw [Parser.unary] at h; cases h) | (rw [Parser.power] at h; cases h)
      | (rw [Parser.castE] at h; cases h) | (rw [Parser.postfixE] at h; cases h) | (rw [Parser.postLoop] at h; cases h)
      | (rw [Parser.sliceEnd] at h; cases h) | (rw [Parser.args] at h; cases h) | (rw [Parser.argsLoop] at h; cases h)
      | (rw [Parser.arg] at h; cases h) | (rw [Parser.itemsLoop] at h; cases h) | (rw [Parser.membersLoop] at h; cases h)
      | (rw [Parser.atom] at h; cases h)
  | n + 1 =>
    have ih := sound n
    { expr := sound_expr ih
      ternary := sound_ternary ih
      level := sound_level ih
      levelLoop := sound_levelLoop ih
      unary := sound_unary ih
      power := sound_power ih
      castE := sound_castE ih
      postfixE := sound_postfixE ih
      postLoop := sound_postLoop ih
      sliceEnd := sound_sliceEnd ih
      args := sound_args ih
      argsLoop := sound_argsLoop ih
      arg := sound_arg ih
      itemsLoop := sound_itemsLoop ih
      membersLoop := sound_membersLoop ih
      atom := sound_atom ih }

/-- The tokens of the statements after the first. -/
def tailToks : List Src → List Token
  | [] => []
  | e :: es => .semi :: (e.toks ++ tailToks es)

theorem progToks_tail (e : Src) (es : List Src) : progToks e es = e.toks ++ tailToks es := by
  induction es generalizing e with
  | nil => rw [progToks, tailToks, List.append_nil]
  | cons f es ih => rw [progToks, tailToks, ih]

/-- How the statements after the first end: before a token that is not `;`, or with a `;` at the end of the
input. -/
theorem sound_stmts : ∀ n s es s', stmts n s = .ok (es, s') →
    ∃ srcs tr, es = srcs.map Src.toExpr ∧ Reads s (tailToks srcs ++ tr) s' ∧
      ((tr = [] ∧ s'.look ≠ .semi) ∨ (tr = [.semi] ∧ s'.look = .eof)) ∧
      ((strength s.look = 0 ∨ 10 ≤ strength s.look) → (strength s'.look = 0 ∨ 10 ≤ strength s'.look)) := by
  intro n
  induction n with
  | zero => intro s es s' h; rw [stmts] at h; cases h
  | succ n ih =>
    intro s es s' h
    rw [stmts] at h
    split at h
    · rename_i hs
      obtain ⟨s1, h1, h⟩ := bind_inv h
      split at h
      · rename_i he
        have := pure_inv h
        simp only [Prod.mk.injEq] at this
        obtain ⟨rfl, rfl⟩ := this
        exact ⟨[], [.semi], rfl, reads_one hs h1, .inr ⟨rfl, he⟩, fun _ => by rw [he]; simp [strength]⟩
      · obtain ⟨⟨e, s2⟩, h2, h⟩ := bind_inv h
        obtain ⟨⟨rest, s3⟩, h3, h⟩ := bind_inv h
        have := pure_inv h
        simp only [Prod.mk.injEq] at this
        obtain ⟨rfl, rfl⟩ := this
        obtain ⟨e', he⟩ := (sound n).expr _ _ _ h2
        obtain ⟨srcs, tr, rfl, h5, h6, h7⟩ := ih _ _ _ h3
        refine ⟨e' :: srcs, tr, by rw [List.map_cons, he.tree], ?_, h6, fun _ => h7 ?_⟩
        · rw [tailToks, List.cons_append, List.append_assoc]
          exact ⟨hs, s1, h1, reads_trans he.reads h5⟩
        · have := he.stop; omega
    · rename_i hs
      have := pure_inv h
      simp only [Prod.mk.injEq] at this
      obtain ⟨rfl, rfl⟩ := this
      exact ⟨[], [], rfl, rfl, .inl ⟨rfl, hs⟩, fun h => h⟩

/-- A successful parse has consumed the tokens of a program with the resulting tree. -/
theorem sound_program (n : Nat) (s : St) (v : Expr) (s' : St) (h : program n s = .ok (v, s')) :
    ∃ e es tr, v = progExpr e es ∧ Reads s (progToks e es ++ tr) s' ∧
      ((tr = [] ∧ s'.look ≠ .semi) ∨ (tr = [.semi] ∧ s'.look = .eof)) ∧
      (strength s'.look = 0 ∨ 10 ≤ strength s'.look) := by
  unfold program at h
  obtain ⟨⟨e, s1⟩, h1, h⟩ := bind_inv h
  obtain ⟨⟨es, s2⟩, h2, h⟩ := bind_inv h
  obtain ⟨e', he⟩ := (sound n).expr _ _ _ h1
  obtain ⟨srcs, tr, rfl, h5, h6, h7⟩ := sound_stmts _ _ _ _ h2
  refine ⟨e', srcs, tr, ?_⟩
  have hst : strength s2.look = 0 ∨ 10 ≤ strength s2.look := h7 (by have := he.stop; omega)
  have hr : Reads s (progToks e' srcs ++ tr) s2 := by
    rw [progToks_tail, List.append_assoc]
    exact reads_trans he.reads h5
  cases srcs with
  | nil =>
    have := pure_inv h
    simp only [Prod.mk.injEq] at this
    obtain ⟨rfl, rfl⟩ := this
    exact ⟨by rw [progExpr, he.tree], hr, h6, hst⟩
  | cons f fs =>
    have := pure_inv h
    simp only [Prod.mk.injEq] at this
    obtain ⟨rfl, rfl⟩ := this
    exact ⟨by rw [← he.tree]; rfl, hr, h6, hst⟩

end Parser
