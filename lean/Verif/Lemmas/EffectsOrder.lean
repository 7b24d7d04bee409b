import Verif.Lemmas.EffectsCalls
/-! The order of the calls an evaluation makes. -/

namespace Fx

open Fx.Spec

variable {W : Type} {calls : W → List (Str × List Value)}

/-- The calls made are some of those listed in `S`, in that order; if `strict`, they are the first of those, and all of them when the computation succeeds. -/
def Tr (calls : W → List (Str × List Value)) (strict : Bool) (S : List Str) {α : Type} (m : M W α) : Prop :=
  ∀ w, ∃ D, calls (m w).1 = calls w ++ D ∧ (D.map Prod.fst).Sublist S ∧ (strict = true → D.map Prod.fst <+: S ∧ ((∃ v, (m w).2 = .ok v) → D.map Prod.fst = S))

section
variable {st : Bool} {S T : List Str}

theorem tr_ok {α : Type} (v : α) : Tr calls st [] (lift (.ok v) : M W α) := fun w => ⟨[], (List.append_nil _).symm, List.Sublist.refl _, fun _ => ⟨List.prefix_refl _, fun _ => rfl⟩⟩

theorem tr_fail {α : Type} (f : Fail) : Tr calls st S (lift (.error f) : M W α) := fun w =>
  ⟨[], (List.append_nil _).symm, List.nil_sublist _, fun _ => ⟨List.nil_prefix, fun ⟨_, h⟩ => by cases h⟩⟩

theorem tr_lift {α : Type} (r : Res α) : Tr calls st [] (lift r : M W α) := by
  cases r
  · exact tr_fail _
  · exact tr_ok _

theorem tr_bind {α β : Type} {m : M W α} {f : α → M W β} (hm : Tr calls st S m) (hf : ∀ v, Tr calls st T (f v)) : Tr calls st (S ++ T) (m >>= f) := by
  intro w
  obtain ⟨D, h1, h2, h3⟩ := hm w
  show ∃ D, calls (match m w with | (w, .ok v) => f v w | (w, .error e) => (w, .error e)).1 = _ ∧ _ ∧ (_ → _ ∧ ((∃ v, (match m w with | (w, .ok v) => f v w | (w, .error e) => (w, .error e)).2 = .ok v) → _))
  revert h1 h3
  rcases m w with ⟨w', r⟩
  intro h1 h3
  cases r with
  | error e => exact ⟨D, h1, h2.trans (List.sublist_append_left _ _), fun hs => ⟨(h3 hs).1.trans (List.prefix_append _ _), fun ⟨_, h⟩ => by cases h⟩⟩
  | ok v =>
    obtain ⟨D', h4, h5, h6⟩ := hf v w'
    refine ⟨D ++ D', ?_, ?_, ?_⟩
    · dsimp only at h1 ⊢
      rw [h4, h1, List.append_assoc]
    · rw [List.map_append]; exact h2.append h5
    · intro hs
      rw [List.map_append, (h3 hs).2 ⟨v, rfl⟩]
      exact ⟨(List.prefix_append_right_inj _).2 (h6 hs).1, fun h => by rw [(h6 hs).2 h]⟩

/-- The last step calls nothing. -/
theorem tr_last {α β : Type} {m : M W α} {f : α → M W β} (hm : Tr calls st S m) (hf : ∀ v, Tr calls st [] (f v)) : Tr calls st S (m >>= f) := by
  have := tr_bind hm hf
  rwa [List.append_nil] at this

theorem tr_sub {α : Type} {m : M W α} (hm : Tr calls false S m) (h : S.Sublist T) : Tr calls false T m := by
  intro w
  obtain ⟨D, h1, h2, _⟩ := hm w
  exact ⟨D, h1, h2.trans h, fun h => by cases h⟩

theorem tr_none {α : Type} {m : M W α} (hm : Within calls [] m) : Tr calls st [] m := by
  intro w
  obtain ⟨D, h1, h2⟩ := hm w
  cases D with
  | nil => exact ⟨[], h1, List.Sublist.refl _, fun _ => ⟨List.prefix_refl _, fun _ => rfl⟩⟩
  | cons d _ => cases h2 d List.mem_cons_self

/-- An operand with the calls of `S`. -/
structure TrOp (calls : W → List (Str × List Value)) (st : Bool) (a : Operand W) (S : List Str) : Prop where
  run : ∀ env, Tr calls st S (a.run env)
  spread : ∀ d, a.spread = some d → ∀ env, Tr calls st S (d env)

variable {g : Reg W}

theorem tr_execute (hg : Recorded g calls) (X : Ext) (n : Str) (vs : List Value) : Tr calls st [X.upper n] (g.execute X n vs) := by
  unfold Reg.execute
  cases hf : g (X.upper n) with
  | none => exact tr_fail _
  | some f =>
    have hr : Tr calls st [X.upper n] (f.run vs) := fun w => ⟨[(X.upper n, vs)], hg _ _ hf vs w, List.Sublist.refl _, fun _ => ⟨List.prefix_refl _, fun _ => rfl⟩⟩
    dsimp only
    split
    · exact tr_fail _
    · cases f.maxArgs with
      | none => exact hr
      | some m =>
        dsimp only
        split
        · exact tr_fail _
        · exact hr

variable {as : List (Operand W)} {Ss : List (List Str)}

theorem tr_evalArgs (h : List.Forall₂ (TrOp calls st) as Ss) (env : Env) : Tr calls st Ss.flatten (evalArgs env as) := by
  induction h with
  | nil => exact tr_ok _
  | cons ha _ ih =>
    rename_i a S as Ss _
    rw [List.flatten_cons]
    unfold evalArgs
    cases hs : a.spread with
    | none => exact tr_bind (ha.run env) fun _ => tr_last ih fun _ => tr_ok _
    | some d =>
      refine tr_bind (ha.spread d hs env) fun v => ?_
      cases v <;> first | exact tr_fail _ | exact tr_last ih fun _ => tr_ok _

theorem tr_elements (h : List.Forall₂ (TrOp calls st) as Ss) (env : Env) : Tr calls st Ss.flatten (elements env as) := by
  induction h with
  | nil => exact tr_ok _
  | cons ha _ ih =>
    rw [List.flatten_cons]
    exact tr_bind (ha.run env) fun _ => tr_last ih fun _ => tr_ok _

theorem tr_lastOf (h : List.Forall₂ (TrOp calls st) as Ss) (env : Env) (v : Value) : Tr calls st Ss.flatten (lastOf env v as) := by
  induction h generalizing v with
  | nil => exact tr_ok _
  | cons ha _ ih =>
    rw [List.flatten_cons]
    exact tr_bind (ha.run env) fun v => ih v

/-- The members, with the calls of each. -/
def TrMember (calls : W → List (Str × List Value)) (st : Bool) (m : Str × (Env → M W Value)) (S : List Str) : Prop := ∀ env, Tr calls st S (m.2 env)

theorem tr_members (X : Ext) {ms : List (Str × (Env → M W Value))} (h : List.Forall₂ (TrMember calls st) ms Ss) (env : Env) (out : List (Str × Json)) :
    Tr calls st Ss.flatten (objectMembers X env out ms) := by
  induction h generalizing out with
  | nil => exact tr_ok _
  | cons hm _ ih =>
    rename_i m S ms Ss _
    obtain ⟨k, d⟩ := m
    rw [List.flatten_cons]
    exact tr_bind (hm env) fun v => tr_bind (S := []) (tr_lift _) fun j => ih _

theorem tr_ternary (h : List.Forall₂ (TrOp calls false) as Ss) (env : Env) : Tr calls false Ss.flatten (ternary env as) := by
  match as, Ss, h with
  | [], _, .nil => exact tr_fail _
  | [_], _, .cons _ .nil => exact tr_fail _
  | [_, _], _, .cons _ (.cons _ .nil) => exact tr_fail _
  | _ :: _ :: _ :: _ :: _, _, .cons _ (.cons _ (.cons _ (.cons _ _))) => exact tr_fail _
  | [_, _, _], [C, A, B], .cons hc (.cons ha (.cons hb .nil)) =>
    rw [List.flatten_cons]
    refine tr_bind (hc.run env) fun v => ?_
    cases v.asBool with
    | none => exact tr_fail _
    | some cond =>
      cases cond
      · refine tr_sub (hb.run env) ?_
        simp
      · refine tr_sub (ha.run env) ?_
        simp

theorem tr_optional {o : Option (Env → M W Value)} (h : match o with | none => S = [] | some d => ∀ env, Tr calls st S (d env)) (env : Env) : Tr calls st S (optional env o) := by
  cases o with
  | none => simp only at h; subst h; exact tr_ok _
  | some d => exact tr_last (h env) fun v => tr_ok _

theorem tr_paramName {o : Option (Operand W)} {S : Option (List Str)} (h : Option.Rel (TrOp calls st) o S) (env : Env) (d : Str) : Tr calls st (S.getD []) (paramName env d o) := by
  cases h with
  | none => exact tr_ok _
  | some h =>
    refine tr_last (h.run env) fun v => ?_
    cases v <;> exact tr_ok _

theorem rel_get (h : List.Forall₂ (TrOp calls st) as Ss) (i : Nat) : Option.Rel (TrOp calls st) as[i]? Ss[i]? := by
  induction h generalizing i with
  | nil => simp
  | cons h _ ih =>
    cases i with
    | zero => simpa using Option.Rel.some h
    | succ i => simpa using ih i

theorem tr_staticCriterion {a : Operand W} (h : TrOp calls false a S) (env : Env) : Tr calls false S (staticCriterion env a) := by
  intro w
  obtain ⟨D, h1, h2, _⟩ := h.run env w
  refine ⟨D, ?_, h2, fun h => by cases h⟩
  unfold staticCriterion
  revert h1
  rcases a.run env w with ⟨w', r⟩
  intro h1
  rcases r with f | v
  · cases f <;> exact h1
  · cases v <;> exact h1

/-- The functions with a lambda evaluate the arguments that `evaluated` lists. -/
theorem tr_higherOrder (X : Ext) (h : List.Forall₂ (TrOp calls st) as Ss) (n : Str) (f : Env → List (Operand W) → M W Value) (hf : higherOrder X n = some f) (hs : st = true → n ≠ c!"SUMIF") (env : Env) :
    Tr calls st ((evaluated n Ss.length).flatMap fun i => Ss.getD i []) (f env as) := by
  have hlen := h.length_eq
  unfold higherOrder at hf
  by_cases h1 : n = c!"FILTER"
  · rw [if_pos h1] at hf; cases hf; subst h1
    show Tr calls st ([0, 2].flatMap fun i => Ss.getD i []) _
    unfold filter
    match as, Ss, h with
    | [], _, .nil => exact tr_fail _
    | [_], _, .cons _ .nil => exact tr_fail _
    | _ :: _ :: as, _, .cons ha (.cons _ h) =>
      simp only [List.flatMap_cons, List.flatMap_nil, List.append_nil]
      refine tr_bind (ha.run _) fun v => ?_
      rw [List.head?_eq_getElem?]
      exact tr_last (tr_paramName (rel_get h 0) _ _) fun _ => tr_lift _
  rw [if_neg h1] at hf
  by_cases h2 : n = c!"FIND"
  · rw [if_pos h2] at hf; cases hf; subst h2
    show Tr calls st ([0, 2].flatMap fun i => Ss.getD i []) _
    unfold find
    match as, Ss, h with
    | [], _, .nil => exact tr_fail _
    | [_], _, .cons _ .nil => exact tr_fail _
    | _ :: _ :: as, _, .cons ha (.cons _ h) =>
      simp only [List.flatMap_cons, List.flatMap_nil, List.append_nil]
      refine tr_bind (ha.run _) fun v => ?_
      rw [List.head?_eq_getElem?]
      exact tr_last (tr_paramName (rel_get h 0) _ _) fun _ => tr_lift _
  rw [if_neg h2] at hf
  by_cases h3 : n = c!"MAP"
  · rw [if_pos h3] at hf; cases hf; subst h3
    show Tr calls st ([0, 2].flatMap fun i => Ss.getD i []) _
    unfold map
    match as, Ss, h with
    | [], _, .nil => exact tr_fail _
    | [_], _, .cons _ .nil => exact tr_fail _
    | _ :: _ :: as, _, .cons ha (.cons _ h) =>
      simp only [List.flatMap_cons, List.flatMap_nil, List.append_nil]
      refine tr_bind (ha.run _) fun v => ?_
      rw [List.head?_eq_getElem?]
      exact tr_last (tr_paramName (rel_get h 0) _ _) fun _ => tr_lift _
  rw [if_neg h3] at hf
  by_cases h4 : n = c!"REDUCE"
  · rw [if_pos h4] at hf; cases hf; subst h4
    show Tr calls st ([0, 2, 3, 4].flatMap fun i => Ss.getD i []) _
    unfold reduce
    match as, Ss, h with
    | [], _, .nil => exact tr_fail _
    | [_], _, .cons _ .nil => exact tr_fail _
    | [_, _], _, .cons _ (.cons _ .nil) => exact tr_fail _
    | _ :: _ :: _ :: as, _, .cons ha (.cons _ (.cons hi h)) =>
      simp only [List.flatMap_cons, List.flatMap_nil, List.append_nil]
      refine tr_bind (ha.run _) fun v => tr_bind (hi.run _) fun acc => ?_
      rw [List.head?_eq_getElem?]
      exact tr_bind (tr_paramName (rel_get h 0) _ _) fun _ => tr_last (tr_paramName (rel_get h 1) _ _) fun _ => tr_lift _
  rw [if_neg h4] at hf
  by_cases h5 : n = c!"SUMIF"
  · cases st
    · rw [if_pos h5] at hf; cases hf; subst h5
      show Tr calls false ([0, 2, 1].flatMap fun i => Ss.getD i []) _
      unfold sumif
      match as, Ss, h with
      | [], _, .nil => exact tr_fail _
      | [_], _, .cons _ .nil => exact tr_fail _
      | _ :: _ :: _ :: _ :: _, _, .cons _ (.cons _ (.cons _ (.cons _ _))) => exact tr_fail _
      | [_, _], _, .cons ha (.cons hl .nil) =>
        simp only [List.flatMap_cons, List.flatMap_nil, List.append_nil]
        exact tr_bind (ha.run _) fun v => tr_last (tr_staticCriterion hl _) fun _ => tr_lift _
      | [_, _, _], _, .cons ha (.cons hl (.cons hs .nil)) =>
        simp only [List.flatMap_cons, List.flatMap_nil, List.append_nil]
        exact tr_bind (ha.run _) fun v => tr_bind (hs.run _) fun _ => tr_last (tr_staticCriterion hl _) fun _ => tr_lift _
    · exact absurd h5 (hs rfl)
  rw [if_neg h5] at hf
  by_cases h6 : n = c!"AVGIF"
  · rw [if_pos h6] at hf; cases hf; subst h6
    show Tr calls st ([0].flatMap fun i => Ss.getD i []) _
    unfold avgif
    match as, Ss, h with
    | [], _, .nil => exact tr_fail _
    | [_], _, .cons _ .nil => exact tr_fail _
    | _ :: _ :: _ :: _, _, .cons _ (.cons _ (.cons _ _)) => exact tr_fail _
    | [_, _], _, .cons ha (.cons hl .nil) =>
      simp only [List.flatMap_cons, List.flatMap_nil, List.append_nil]
      exact tr_last (ha.run _) fun v => tr_lift _
  rw [if_neg h6] at hf
  by_cases h7 : n = c!"COUNTIF"
  · rw [if_pos h7] at hf; cases hf; subst h7
    show Tr calls st ([0].flatMap fun i => Ss.getD i []) _
    unfold countif
    match as, Ss, h with
    | [], _, .nil => exact tr_fail _
    | [_], _, .cons _ .nil => exact tr_fail _
    | _ :: _ :: _ :: _, _, .cons _ (.cons _ (.cons _ _)) => exact tr_fail _
    | [_, _], _, .cons ha (.cons hl .nil) =>
      simp only [List.flatMap_cons, List.flatMap_nil, List.append_nil]
      exact tr_last (ha.run _) fun v => tr_lift _
  rw [if_neg h7] at hf
  by_cases h8 : n = c!"JQ"
  · rw [if_pos h8] at hf; cases hf; subst h8
    show Tr calls st ((List.range Ss.length).flatMap fun i => Ss.getD i []) _
    unfold jq
    match as, Ss, h with
    | [], _, .nil => exact tr_fail _
    | [_], _, .cons _ .nil => exact tr_fail _
    | _ :: _ :: _ :: _, _, .cons _ (.cons _ (.cons _ _)) => exact tr_fail _
    | [_, _], [A, B], .cons ha (.cons hl .nil) =>
      show Tr calls st (A ++ (B ++ [])) _
      rw [List.append_nil]
      exact tr_bind (ha.run _) fun v => tr_last (hl.run _) fun _ => tr_lift _
  · rw [if_neg h8] at hf; cases hf

theorem flatten_range (Ss : List (List Str)) : ((List.range Ss.length).flatMap fun i => Ss.getD i []) = Ss.flatten := by
  induction Ss with
  | nil => rfl
  | cons S Ss ih =>
    rw [List.length_cons, List.range_succ_eq_map, List.flatMap_cons, List.flatMap_map, List.flatten_cons, ← ih]
    rfl

theorem tr_call (hg : Recorded g calls) (X : Ext) (h : List.Forall₂ (TrOp calls st) as Ss) (n : Str) (hs : st = true → runsCustom X g n = true ∨ (n ≠ c!"__TERNARY__" ∧ n ≠ c!"SUMIF")) (env : Env) :
    Tr calls st (if runsCustom X g n then Ss.flatten ++ [X.upper n] else (evaluated n Ss.length).flatMap fun i => Ss.getD i []) (call X g n as env) := by
  unfold call
  by_cases h1 : n = c!"__TERNARY__"
  · have hr : runsCustom X g n = false := by subst h1; rfl
    rw [if_pos h1, hr, if_neg (by decide)]
    cases st
    · subst h1
      show Tr calls false ((List.range Ss.length).flatMap fun i => Ss.getD i []) _
      rw [flatten_range]
      exact tr_ternary h env
    · rcases hs rfl with hs | hs
      · rw [hr] at hs; cases hs
      · exact absurd h1 hs.1
  by_cases h2 : n = c!"__CONST_TRUE__"
  · subst h2; exact tr_ok _
  by_cases h3 : n = c!"__CONST_FALSE__"
  · subst h3; exact tr_ok _
  rw [if_neg h1, if_neg h2, if_neg h3]
  have hr : runsCustom X g n = g.has X n := by simp [runsCustom, isConditional, isConstant, h1, h2, h3]
  rw [hr]
  cases hg' : g.has X n
  · simp only [Bool.false_eq_true, if_false]
    cases hh : (higherOrder X n : Option (Env → List (Operand W) → M W Value)) with
    | some f =>
      refine tr_higherOrder X h n f hh (fun hst => ?_) env
      rcases hs hst with hs | hs
      · rw [hr, hg'] at hs; cases hs
      · exact hs.2
    | none =>
      have he : evaluated n Ss.length = List.range Ss.length := by
        unfold higherOrder at hh
        have hc : isConstant n = false := by simp [isConstant, h2, h3]
        unfold evaluated
        rw [hc]
        by_cases g1 : n = c!"FILTER"
        · rw [if_pos g1] at hh; cases hh
        by_cases g2 : n = c!"FIND"
        · rw [if_neg g1, if_pos g2] at hh; cases hh
        by_cases g3 : n = c!"MAP"
        · rw [if_neg g1, if_neg g2, if_pos g3] at hh; cases hh
        by_cases g4 : n = c!"REDUCE"
        · rw [if_neg g1, if_neg g2, if_neg g3, if_pos g4] at hh; cases hh
        by_cases g5 : n = c!"SUMIF"
        · rw [if_neg g1, if_neg g2, if_neg g3, if_neg g4, if_pos g5] at hh; cases hh
        by_cases g6 : n = c!"AVGIF"
        · rw [if_neg g1, if_neg g2, if_neg g3, if_neg g4, if_neg g5, if_pos g6] at hh; cases hh
        by_cases g7 : n = c!"COUNTIF"
        · rw [if_neg g1, if_neg g2, if_neg g3, if_neg g4, if_neg g5, if_neg g6, if_pos g7] at hh; cases hh
        simp [g1, g2, g3, g4, g5, g6, g7]
      dsimp only
      rw [he, flatten_range]
      exact tr_last (tr_evalArgs h env) fun vs => tr_lift _
  · simp only [if_true]
    exact tr_bind (tr_evalArgs h env) fun vs => tr_execute hg X n vs

/-- A method that takes no lambda calls nothing; one that takes a lambda calls nothing if its arguments name nothing. -/
theorem tr_method (hg : Recorded g calls) (X : Ext) (es : List Expr) (n : Str) (hl : lambdaMethod X n = false ∨ (mentionsAll X g es).isEmpty = true) (env : Env) (p : Bool) (v : Value) :
    Tr calls st [] (Method.exec X env n p v (Legacy.argsOf X g es)) := by
  rcases hl with hl | hl
  · have h1 : X.lower n ≠ c!"filter" ∧ X.lower n ≠ c!"map" ∧ X.lower n ≠ c!"find" ∧ X.lower n ≠ c!"reduce" := by simpa [lambdaMethod] using hl
    unfold Method.exec
    split
    · exact tr_lift _
    · dsimp only
      simp only [h1.1, h1.2.1, h1.2.2.1, h1.2.2.2, if_false]
      split
      · exact tr_lift _
      · split <;> exact tr_lift _
  · refine tr_none (within_method X (Legacy.args_within hg X es ?_) env n p v)
    rw [List.isEmpty_iff.1 hl]
    intro n hn
    cases hn

theorem sitesEach_length (X : Ext) (g : Reg W) (es : List Expr) : (sitesEach X g es).length = es.length := by
  induction es with
  | nil => simp only [sitesEach, List.length_nil]
  | cons e es ih => simp only [sitesEach, List.length_cons, ih]

mutual
theorem eval_tr (hg : Recorded g calls) (X : Ext) (e : Expr) (hs : straight X g st e = true) (env : Env) : Tr calls st (sites X g e) (eval X g e env) := by
  cases e with
  | number _ => simp only [eval, sites]; exact tr_lift _
  | strLit _ => simp only [eval, sites]; exact tr_lift _
  | null => simp only [eval, sites]; exact tr_lift _
  | spread _ => simp only [eval, sites]; exact tr_fail _
  | var n => simp only [eval, sites]; cases env n <;> exact tr_lift _
  | unary op e => simp only [eval, sites]; simp only [straight] at hs; exact tr_last (eval_tr hg X e hs env) fun _ => tr_lift _
  | prop e n => simp only [eval, sites]; simp only [straight] at hs; exact tr_last (eval_tr hg X e hs env) fun _ => tr_lift _
  | safeProp e n => simp only [eval, sites]; simp only [straight] at hs; exact tr_last (eval_tr hg X e hs env) fun _ => tr_lift _
  | cast e t => simp only [eval, sites]; simp only [straight] at hs; exact tr_last (eval_tr hg X e hs env) fun _ => tr_lift _
  | assign x e => simp only [eval, sites]; simp only [straight] at hs; exact eval_tr hg X e hs env
  | binary a op b =>
    simp only [eval, sites]; simp only [straight, Bool.and_eq_true] at hs
    exact tr_bind (eval_tr hg X a hs.1 env) fun _ => tr_last (eval_tr hg X b hs.2 env) fun _ => tr_lift _
  | index a b =>
    simp only [eval, sites]; simp only [straight, Bool.and_eq_true] at hs
    exact tr_bind (eval_tr hg X a hs.1 env) fun _ => tr_last (eval_tr hg X b hs.2 env) fun _ => tr_lift _
  | call n es =>
    simp only [eval, sites]; simp only [straight, Bool.and_eq_true] at hs
    have ha := args_tr hg X es hs.1
    have hl : es.length = (sitesEach X g es).length := by
      rw [sitesEach_length]
    rw [hl]
    refine tr_call hg X ha n (fun hst => ?_) env
    subst hst
    have := hs.2
    simpa [isConditional] using this
  | array es => simp only [eval, sites]; simp only [straight] at hs; exact tr_last (tr_elements (args_tr hg X es hs) env) fun _ => tr_ok _
  | seq es => simp only [eval, sites]; simp only [straight] at hs; exact tr_lastOf (args_tr hg X es hs) env .null
  | object ms => simp only [eval, sites]; simp only [straight] at hs
                 obtain ⟨Ss, h1, h2⟩ := members_tr hg X ms hs
                 rw [h1]
                 exact tr_last (tr_members X h2 env []) fun _ => tr_ok _
  | safeCall t n es =>
    simp only [eval, sites]; simp only [straight, Bool.and_eq_true] at hs
    refine tr_last (eval_tr hg X t hs.1 env) fun v => ?_
    have hm := tr_method (st := st) hg X es n (by simpa using hs.2) env false
    cases v <;> first | exact tr_ok _ | exact hm _
  | method t n es p =>
    simp only [eval, sites]; simp only [straight, Bool.and_eq_true] at hs
    exact tr_last (eval_tr hg X t hs.1 env) fun v => tr_method hg X es n (by simpa using hs.2) env p v
  | slice t a b =>
    simp only [eval, sites]; simp only [straight, Bool.and_eq_true] at hs
    refine tr_bind (eval_tr hg X t hs.1.1 env) fun v => ?_
    cases v <;> first | exact tr_fail _ | exact tr_bind (tr_optional (opt_tr hg X a hs.1.2) _) fun s => tr_last (tr_optional (opt_tr hg X b hs.2) _) fun e => tr_lift _
theorem args_tr (hg : Recorded g calls) (X : Ext) (es : List Expr) (hs : straightAll X g st es = true) : List.Forall₂ (TrOp calls st) (argsOf X g es) (sitesEach X g es) := by
  cases es with
  | nil => simp only [argsOf, sitesEach]; exact .nil
  | cons e es =>
    simp only [straightAll, Bool.and_eq_true] at hs
    have hr := eval_tr hg X e hs.1
    have ht := args_tr hg X es hs.2
    cases e <;> simp only [argsOf, sitesEach] <;> refine .cons ⟨?_, ?_⟩ ht <;>
      first | exact hr | exact fun _ => tr_fail _ | exact fun _ => tr_ok _ | (intro d hd; cases hd; done) | skip
    rename_i e
    simp only [straight] at hs
    intro d hd
    cases hd
    simp only [sites]
    exact eval_tr hg X e hs.1
theorem members_tr (hg : Recorded g calls) (X : Ext) (ms : List (Str × Expr)) (hs : straightIn X g st ms = true) :
    ∃ Ss, sitesIn X g ms = Ss.flatten ∧ List.Forall₂ (TrMember calls st) (membersOf X g ms) Ss := by
  cases ms with
  | nil => exact ⟨[], by simp only [sitesIn]; rfl, by simp only [membersOf]; exact .nil⟩
  | cons m ms =>
    obtain ⟨k, e⟩ := m
    simp only [straightIn, Bool.and_eq_true] at hs
    obtain ⟨Ss, h1, h2⟩ := members_tr hg X ms hs.2
    refine ⟨sites X g e :: Ss, ?_, ?_⟩
    · simp only [sitesIn, h1, List.flatten_cons]
    · simp only [membersOf]
      exact .cons (eval_tr hg X e hs.1) h2
theorem opt_tr (hg : Recorded g calls) (X : Ext) (o : Option Expr) (hs : straightOpt X g st o = true) :
    match optOf X g o with | none => sitesOpt X g o = [] | some d => ∀ env, Tr calls st (sitesOpt X g o) (d env) := by
  cases o with
  | none => simp only [optOf, sitesOpt]
  | some e => simp only [optOf, sitesOpt]; simp only [straightOpt] at hs; exact eval_tr hg X e hs
end

mutual
theorem sites_mentions (X : Ext) (g : Reg W) (e : Expr) : ∀ n ∈ sites X g e, n ∈ mentions X g e := by
  cases e with
  | number _ => simp only [sites]; intro n h; cases h
  | strLit _ => simp only [sites]; intro n h; cases h
  | null => simp only [sites]; intro n h; cases h
  | var _ => simp only [sites]; intro n h; cases h
  | unary _ e => simp only [sites, mentions]; exact sites_mentions X g e
  | prop e _ => simp only [sites, mentions]; exact sites_mentions X g e
  | safeProp e _ => simp only [sites, mentions]; exact sites_mentions X g e
  | cast e _ => simp only [sites, mentions]; exact sites_mentions X g e
  | assign _ e => simp only [sites, mentions]; exact sites_mentions X g e
  | spread e => simp only [sites, mentions]; exact sites_mentions X g e
  | binary a _ b =>
    simp only [sites, mentions, List.mem_append]
    exact fun n h => h.imp (sites_mentions X g a n) (sites_mentions X g b n)
  | index a b =>
    simp only [sites, mentions, List.mem_append]
    exact fun n h => h.imp (sites_mentions X g a n) (sites_mentions X g b n)
  | array es => simp only [sites, mentions, List.mem_flatten]; exact fun n ⟨l, h1, h2⟩ => sites_mentionsAll X g es l h1 n h2
  | seq es => simp only [sites, mentions, List.mem_flatten]; exact fun n ⟨l, h1, h2⟩ => sites_mentionsAll X g es l h1 n h2
  | object ms => simp only [sites, mentions]; exact sites_mentionsIn X g ms
  | safeCall t _ es => simp only [sites, mentions, List.mem_append]; exact fun n h => .inl (sites_mentions X g t n h)
  | method t _ es _ => simp only [sites, mentions, List.mem_append]; exact fun n h => .inl (sites_mentions X g t n h)
  | slice t a b =>
    simp only [sites, mentions, List.mem_append]
    exact fun n h => h.imp (sites_mentions X g t n) fun h => h.imp (sites_mentionsOpt X g a n) (sites_mentionsOpt X g b n)
  | call f es =>
    simp only [sites, mentions]
    have he := sites_mentionsAll X g es
    intro n hn
    rw [List.mem_append]
    split at hn
    · rename_i hr
      have hh : g.has X f = true := by
        simp only [runsCustom, Bool.and_eq_true] at hr
        exact hr.2
      rcases List.mem_append.1 hn with hn | hn
      · obtain ⟨l, h1, h2⟩ := List.mem_flatten.1 hn
        exact .inl (he l h1 n h2)
      · rw [if_pos hh]; exact .inr hn
    · obtain ⟨i, _, h2⟩ := List.mem_flatMap.1 hn
      left
      rw [List.getD_eq_getElem?_getD] at h2
      cases hi : (sitesEach X g es)[i]? with
      | none => rw [hi] at h2; cases h2
      | some l => rw [hi] at h2; exact he l (List.mem_of_getElem? hi) n h2
theorem sites_mentionsAll (X : Ext) (g : Reg W) (es : List Expr) : ∀ l ∈ sitesEach X g es, ∀ n ∈ l, n ∈ mentionsAll X g es := by
  cases es with
  | nil => simp only [sitesEach]; intro l h; cases h
  | cons e es =>
    simp only [sitesEach, mentionsAll, List.mem_append]
    exact List.forall_mem_cons.2 ⟨fun n h => .inl (sites_mentions X g e n h), fun l hl n h => .inr (sites_mentionsAll X g es l hl n h)⟩
theorem sites_mentionsIn (X : Ext) (g : Reg W) (ms : List (Str × Expr)) : ∀ n ∈ sitesIn X g ms, n ∈ mentionsIn X g ms := by
  cases ms with
  | nil => simp only [sitesIn]; intro n h; cases h
  | cons m ms =>
    obtain ⟨k, e⟩ := m
    simp only [sitesIn, mentionsIn, List.mem_append]
    exact fun n h => h.imp (sites_mentions X g e n) (sites_mentionsIn X g ms n)
theorem sites_mentionsOpt (X : Ext) (g : Reg W) (o : Option Expr) : ∀ n ∈ sitesOpt X g o, n ∈ mentionsOpt X g o := by
  cases o with
  | none => simp only [sitesOpt]; intro n h; cases h
  | some e => simp only [sitesOpt, mentionsOpt]; exact sites_mentions X g e
end

/-! ### Inside the arguments of a method -/

theorem tr_bound {o : Option (Env → M W Value)} (h : match o with | none => S = [] | some d => ∀ env, Tr calls st S (d env)) (env : Env) (len dflt : Int) (err : String) :
    Tr calls st S (Legacy.bound env len dflt err o) := by
  cases o with
  | none => simp only at h; subst h; exact tr_ok _
  | some d =>
    refine tr_last (h env) fun v => ?_
    cases v.asNumber with
    | none => exact tr_fail _
    | some n => exact tr_ok _

theorem tr_legacyCall (hg : Recorded g calls) (X : Ext) (h : List.Forall₂ (TrOp calls st) as Ss) (n : Str) (hc : isConstant n = false)
    (hs : runsCustom X g n = true ∨ (lambdaFunction n = false ∧ (st = true → n ≠ c!"__TERNARY__"))) (env : Env) :
    Tr calls st (if runsCustom X g n then Ss.flatten ++ [X.upper n] else (evaluated n Ss.length).flatMap fun i => Ss.getD i []) (Legacy.call X g n as env) := by
  unfold Legacy.call
  by_cases h1 : n = c!"__TERNARY__"
  · have hr : runsCustom X g n = false := by subst h1; rfl
    rw [if_pos h1, hr, if_neg (by decide)]
    cases st
    · subst h1
      show Tr calls false ((List.range Ss.length).flatMap fun i => Ss.getD i []) _
      rw [flatten_range]
      exact tr_ternary h env
    · rcases hs with hs | hs
      · rw [hr] at hs; cases hs
      · exact absurd h1 (hs.2 rfl)
  rw [if_neg h1]
  have hr : runsCustom X g n = g.has X n := by simp [runsCustom, isConditional, h1, hc]
  rw [hr]
  rw [hr] at hs
  cases hg' : g.has X n
  · simp only [Bool.false_eq_true, if_false]
    rcases hs with hs | hs
    · rw [hg'] at hs; cases hs
    · have h2 : n ≠ c!"FILTER" ∧ n ≠ c!"FIND" ∧ n ≠ c!"MAP" ∧ n ≠ c!"REDUCE" ∧ n ≠ c!"SUMIF" ∧ n ≠ c!"AVGIF" ∧ n ≠ c!"COUNTIF" := by simpa [lambdaFunction] using hs.1
      obtain ⟨g1, g2, g3, g4, g5, g6, g7⟩ := h2
      have hh : (Legacy.higherOrder n : Option (Env → List (Operand W) → M W Value)) = none := by
        simp only [Legacy.higherOrder, g1, g2, g3, g4, g5, g6, g7, if_false]
      have he : evaluated n Ss.length = List.range Ss.length := by
        simp only [evaluated, hc, g1, g2, g3, g4, g5, g6, g7, if_false, or_self, Bool.false_eq_true]
      rw [hh, he, flatten_range]
      exact tr_last (tr_evalArgs h env) fun vs => tr_lift _
  · simp only [if_true]
    exact tr_bind (tr_evalArgs h env) fun vs => tr_execute hg X n vs

mutual
theorem Legacy.eval_tr (hg : Recorded g calls) (X : Ext) (e : Expr) (hs : straightArg X g st e = true) (env : Env) : Tr calls st (sites X g e) (Legacy.eval X g e env) := by
  cases e with
  | number _ => simp only [Legacy.eval, sites]; exact tr_lift _
  | strLit _ => simp only [Legacy.eval, sites]; exact tr_lift _
  | null => simp only [Legacy.eval, sites]; exact tr_lift _
  | spread _ => simp only [Legacy.eval, sites]; exact tr_fail _
  | var n => simp only [Legacy.eval, sites]; cases env n <;> exact tr_lift _
  | unary op e => simp only [Legacy.eval, sites]; simp only [straightArg] at hs; exact tr_last (Legacy.eval_tr hg X e hs env) fun _ => tr_lift _
  | prop e n => simp only [Legacy.eval, sites]; simp only [straightArg] at hs; exact tr_last (Legacy.eval_tr hg X e hs env) fun _ => tr_lift _
  | safeProp e n => simp only [Legacy.eval, sites]; simp only [straightArg] at hs; exact tr_last (Legacy.eval_tr hg X e hs env) fun _ => tr_lift _
  | cast e t => simp only [Legacy.eval, sites]; simp only [straightArg] at hs; exact tr_last (Legacy.eval_tr hg X e hs env) fun _ => tr_lift _
  | assign x e => simp only [Legacy.eval, sites]; simp only [straightArg] at hs; exact Legacy.eval_tr hg X e hs env
  | binary a op b =>
    simp only [Legacy.eval, sites]; simp only [straightArg, Bool.and_eq_true] at hs
    exact tr_bind (Legacy.eval_tr hg X a hs.1 env) fun _ => tr_last (Legacy.eval_tr hg X b hs.2 env) fun _ => tr_lift _
  | index a b =>
    simp only [Legacy.eval, sites]; simp only [straightArg, Bool.and_eq_true] at hs
    exact tr_bind (Legacy.eval_tr hg X a hs.1 env) fun _ => tr_last (Legacy.eval_tr hg X b hs.2 env) fun _ => tr_lift _
  | call n es =>
    simp only [straightArg, Bool.or_eq_true] at hs
    rcases hs with hs | hs
    · have hm : mentions X g (.call n es) = [] := List.isEmpty_iff.1 hs
      have h0 : sites X g (.call n es) = [] := List.eq_nil_iff_forall_not_mem.2 fun m hm' => by
        have := sites_mentions X g _ m hm'
        rw [hm] at this
        cases this
      rw [h0]
      exact tr_none (Legacy.eval_within hg X _ (fun m hm' => by rw [hm] at hm'; cases hm') env)
    · simp only [Bool.and_eq_true, Bool.or_eq_true, Bool.not_eq_true'] at hs
      simp only [Legacy.eval, sites]
      have ha := Legacy.args_tr hg X es hs.1.1
      rw [← sitesEach_length X g es]
      refine tr_legacyCall hg X ha n hs.1.2 ?_ env
      rcases hs.2 with h | ⟨h1, h2⟩
      · exact .inl h
      · refine .inr ⟨h1, fun hst hn => ?_⟩
        subst hst hn
        rcases h2 with h2 | h2
        · cases h2
        · cases h2
  | array es => simp only [Legacy.eval, sites]; simp only [straightArg] at hs; exact tr_last (tr_elements (Legacy.args_tr hg X es hs) env) fun _ => tr_ok _
  | seq es => simp only [Legacy.eval, sites]; simp only [straightArg] at hs; exact tr_lastOf (Legacy.args_tr hg X es hs) env .null
  | object ms => simp only [Legacy.eval, sites]; simp only [straightArg] at hs
                 obtain ⟨Ss, h1, h2⟩ := Legacy.members_tr hg X ms hs
                 rw [h1]
                 exact tr_last (tr_members X h2 env []) fun _ => tr_ok _
  | safeCall t n es =>
    simp only [Legacy.eval, sites]; simp only [straightArg, Bool.and_eq_true] at hs
    refine tr_last (Legacy.eval_tr hg X t hs.1 env) fun v => ?_
    have hm := tr_method (st := st) hg X es n (by simpa using hs.2) env false
    cases v <;> first | exact tr_ok _ | exact hm _
  | method t n es p =>
    simp only [Legacy.eval, sites]; simp only [straightArg, Bool.and_eq_true] at hs
    exact tr_last (Legacy.eval_tr hg X t hs.1 env) fun v => tr_method hg X es n (by simpa using hs.2) env p v
  | slice t a b =>
    simp only [Legacy.eval, sites]; simp only [straightArg, Bool.and_eq_true] at hs
    refine tr_bind (Legacy.eval_tr hg X t hs.1.1 env) fun v => ?_
    cases v <;> first | exact tr_fail _ | exact tr_bind (tr_bound (Legacy.opt_tr hg X a hs.1.2) _ _ _ _) fun s => tr_last (tr_bound (Legacy.opt_tr hg X b hs.2) _ _ _ _) fun e => tr_lift _
theorem Legacy.args_tr (hg : Recorded g calls) (X : Ext) (es : List Expr) (hs : straightArgs X g st es = true) : List.Forall₂ (TrOp calls st) (Legacy.argsOf X g es) (sitesEach X g es) := by
  cases es with
  | nil => simp only [Legacy.argsOf, sitesEach]; exact .nil
  | cons e es =>
    simp only [straightArgs, Bool.and_eq_true] at hs
    have hr := Legacy.eval_tr hg X e hs.1
    have ht := Legacy.args_tr hg X es hs.2
    cases e <;> simp only [Legacy.argsOf, sitesEach] <;> refine .cons ⟨?_, ?_⟩ ht <;>
      first | exact hr | exact fun _ => tr_fail _ | exact fun _ => tr_ok _ | (intro d hd; cases hd; done) | skip
    rename_i e
    simp only [straightArg] at hs
    intro d hd
    cases hd
    simp only [sites]
    exact Legacy.eval_tr hg X e hs.1
theorem Legacy.members_tr (hg : Recorded g calls) (X : Ext) (ms : List (Str × Expr)) (hs : straightArgMembers X g st ms = true) :
    ∃ Ss, sitesIn X g ms = Ss.flatten ∧ List.Forall₂ (TrMember calls st) (Legacy.membersOf X g ms) Ss := by
  cases ms with
  | nil => exact ⟨[], by simp only [sitesIn]; rfl, by simp only [Legacy.membersOf]; exact .nil⟩
  | cons m ms =>
    obtain ⟨k, e⟩ := m
    simp only [straightArgMembers, Bool.and_eq_true] at hs
    obtain ⟨Ss, h1, h2⟩ := Legacy.members_tr hg X ms hs.2
    refine ⟨sites X g e :: Ss, ?_, ?_⟩
    · simp only [sitesIn, h1, List.flatten_cons]
    · simp only [Legacy.membersOf]
      exact .cons (Legacy.eval_tr hg X e hs.1) h2
theorem Legacy.opt_tr (hg : Recorded g calls) (X : Ext) (o : Option Expr) (hs : straightArgOpt X g st o = true) :
    match Legacy.optOf X g o with | none => sitesOpt X g o = [] | some d => ∀ env, Tr calls st (sitesOpt X g o) (d env) := by
  cases o with
  | none => simp only [Legacy.optOf, sitesOpt]
  | some e => simp only [Legacy.optOf, sitesOpt]; simp only [straightArgOpt] at hs; exact Legacy.eval_tr hg X e hs
end

section
variable {lam : Env → M W Value} (h : ∀ env, Tr calls st S (lam env))
include h

theorem tr_map (p : Str) (env : Env) (items : List Value) : Tr calls st (List.replicate items.length S).flatten (Loop.map lam p env items) := by
  induction items generalizing env with
  | nil => exact tr_ok _
  | cons v vs ih =>
    rw [List.length_cons, List.replicate_succ, List.flatten_cons]
    exact tr_bind (h _) fun _ => tr_last (ih _) fun _ => tr_ok _

theorem tr_filter (p : Str) (env : Env) (items : List Value) : Tr calls st (List.replicate items.length S).flatten (Loop.filter lam p env items) := by
  induction items generalizing env with
  | nil => exact tr_ok _
  | cons v vs ih =>
    rw [List.length_cons, List.replicate_succ, List.flatten_cons]
    exact tr_bind (h _) fun _ => tr_last (ih _) fun _ => tr_ok _

theorem tr_reduce (p q : Str) (env : Env) (acc : Value) (items : List Value) : Tr calls st (List.replicate items.length S).flatten (Loop.reduce lam p q env acc items) := by
  induction items generalizing env acc with
  | nil => exact tr_ok _
  | cons v vs ih =>
    rw [List.length_cons, List.replicate_succ, List.flatten_cons]
    exact tr_bind (h _) fun _ => ih _ _
end
end

end Fx
