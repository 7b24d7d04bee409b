import Verif.Spec.EffectRuns
import Verif.Lemmas.EffectsCalls
/-! An evaluation makes a sequence of calls that the grammar allows. -/

namespace Fx

open Fx.Spec Fx.Spec.Runs

variable {W : Type} {calls : W → List (Str × List Value)}

/-- The computation does what `R` allows. -/
def Gr (calls : W → List (Str × List Value)) (R : Runs) {α : Type} (m : M W α) : Prop :=
  ∀ w, ∃ D, calls (m w).1 = calls w ++ D ∧ R (D.map Prod.fst) (m w).2.isOk

section
variable {R S T : Runs}

theorem gr_mono {α : Type} {m : M W α} (h : Gr calls R m) (hs : ∀ s ok, R s ok → S s ok) : Gr calls S m := fun w =>
  (h w).imp fun _ hd => ⟨hd.1, hs _ _ hd.2⟩

theorem gr_ok {α : Type} (v : α) : Gr calls done (lift (.ok v) : M W α) := fun _ => ⟨[], (List.append_nil _).symm, rfl, rfl⟩

theorem gr_fail {α : Type} (f : Fail) : Gr calls fails (lift (.error f) : M W α) := fun _ => ⟨[], (List.append_nil _).symm, rfl, rfl⟩

theorem gr_lift {α : Type} (r : Res α) : Gr calls nothing (lift r : M W α) := fun _ => ⟨[], (List.append_nil _).symm, rfl⟩

theorem gr_fail' {α : Type} (f : Fail) : Gr calls nothing (lift (.error f) : M W α) := gr_lift _

theorem gr_left {α : Type} {m : M W α} (h : Gr calls R m) : Gr calls (either R S) m := gr_mono h fun _ _ => .inl

theorem gr_right {α : Type} {m : M W α} (h : Gr calls S m) : Gr calls (either R S) m := gr_mono h fun _ _ => .inr

theorem gr_bind {α β : Type} {m : M W α} {f : α → M W β} (hm : Gr calls R m) (hf : ∀ v, Gr calls S (f v)) : Gr calls (R.andThen S) (m >>= f) := by
  intro w
  obtain ⟨D, h1, h2⟩ := hm w
  show ∃ D, calls (match m w with | (w, .ok v) => f v w | (w, .error e) => (w, .error e)).1 = _ ∧
    andThen R S _ (match m w with | (w, .ok v) => f v w | (w, .error e) => (w, .error e)).2.isOk
  revert h1 h2
  rcases m w with ⟨w', r⟩
  intro h1 h2
  cases r with
  | error e => exact ⟨D, h1, .inl ⟨h2, rfl⟩⟩
  | ok v =>
    obtain ⟨D', h4, h5⟩ := hf v w'
    refine ⟨D ++ D', ?_, ?_⟩
    · dsimp only at h1 ⊢
      rw [h4, h1, List.append_assoc]
    · rw [List.map_append]
      exact .inr ⟨_, _, rfl, h2, h5⟩

theorem andThen_done (s : List Str) (ok : Bool) : R.andThen done s ok ↔ R s ok := by
  constructor
  · rintro (⟨h, rfl⟩ | ⟨s1, s2, rfl, h, rfl, rfl⟩)
    · exact h
    · rwa [List.append_nil]
  · intro h
    cases ok
    · exact .inl ⟨h, rfl⟩
    · exact .inr ⟨s, [], (List.append_nil _).symm, h, rfl, rfl⟩

/-- The last step goes through and calls nothing. -/
theorem gr_map {α β : Type} {m : M W α} {f : α → M W β} (hm : Gr calls R m) (hf : ∀ v, Gr calls done (f v)) : Gr calls R (m >>= f) :=
  gr_mono (gr_bind hm hf) fun _ _ h => (andThen_done _ _).1 h

/-- An operand that does what is said. -/
structure GrOp (calls : W → List (Str × List Value)) (a : Operand W) (R : ArgRuns) : Prop where
  run : ∀ env, Gr calls R.plain (a.run env)
  listed : a.spread = none → ∀ env, Gr calls R.listed (a.run env)
  spread : ∀ d, a.spread = some d → ∀ env, Gr calls R.listed (do
      match ← d env with
      | .arr items => lift (.ok items)
      | _ => lift (fail "Spread expects array"))

variable {g : Reg W}

theorem gr_execute (hg : Recorded g calls) (X : Ext) (n : Str) (vs : List Value) : Gr calls (one (X.upper n)) (g.execute X n vs) := by
  have hfail : ∀ f : Fail, Gr calls (one (X.upper n)) (lift (.error f) : M W Value) := fun f => gr_mono (gr_fail f) fun _ _ h => .inr h
  unfold Reg.execute
  cases hf : g (X.upper n) with
  | none => exact hfail _
  | some f =>
    have hr : Gr calls (one (X.upper n)) (f.run vs) := fun w => ⟨[(X.upper n, vs)], hg _ _ hf vs w, .inl rfl⟩
    dsimp only
    split
    · exact hfail _
    · cases f.maxArgs with
      | none => exact hr
      | some m =>
        dsimp only
        split
        · exact hfail _
        · exact hr

variable {as : List (Operand W)} {Rs : List ArgRuns}

theorem bind_at {α β : Type} (m : M W α) (k : α → M W β) (w : W) : (m >>= k) w = match m w with | (w, .ok v) => k v w | (w, .error e) => (w, .error e) := rfl

theorem bind_assoc' {α β γ : Type} (m : M W α) (f : α → M W β) (k : β → M W γ) : (m >>= f) >>= k = m >>= fun v => f v >>= k := by
  funext w
  show (match (match m w with | (w, .ok v) => f v w | (w, .error e) => (w, .error e)) with | (w, .ok v) => k v w | (w, .error e) => (w, .error e)) =
    match m w with | (w, .ok v) => (match f v w with | (w, .ok v) => k v w | (w, .error e) => (w, .error e)) | (w, .error e) => (w, .error e)
  rcases m w with ⟨w', r⟩
  cases r <;> rfl

theorem gr_evalArgs (h : List.Forall₂ (GrOp calls) as Rs) (env : Env) : Gr calls (inTurn (Rs.map ArgRuns.listed)) (evalArgs env as) := by
  induction h with
  | nil => exact gr_ok _
  | cons ha _ ih =>
    rename_i a R as Rs _
    rw [List.map_cons]
    unfold evalArgs
    cases hs : a.spread with
    | none => exact gr_bind (ha.listed hs env) fun _ => gr_map ih fun _ => gr_ok _
    | some d =>
      have := gr_bind (S := inTurn (Rs.map ArgRuns.listed)) (ha.spread d hs env) (f := fun items => evalArgs env as >>= fun vs => (pure (items ++ vs) : M W (List Value)))
        fun items => gr_map ih fun _ => gr_ok _
      rw [bind_assoc'] at this
      refine cast (congrArg _ ?_) this
      congr 1
      funext v
      cases v <;> rfl

theorem gr_elements (h : List.Forall₂ (GrOp calls) as Rs) (env : Env) : Gr calls (inTurn (Rs.map ArgRuns.plain)) (elements env as) := by
  induction h with
  | nil => exact gr_ok _
  | cons ha _ ih => exact gr_bind (ha.run env) fun _ => gr_map ih fun _ => gr_ok _

theorem gr_lastOf (h : List.Forall₂ (GrOp calls) as Rs) (env : Env) (v : Value) : Gr calls (inTurn (Rs.map ArgRuns.plain)) (lastOf env v as) := by
  induction h generalizing v with
  | nil => exact gr_ok _
  | cons ha _ ih => exact gr_bind (ha.run env) fun v => ih v

theorem gr_ternary (h : List.Forall₂ (GrOp calls) as Rs) (env : Env) :
    Gr calls (conditionalRuns Rs) (ternary env as) := by
  match as, Rs, h with
  | [], _, .nil => exact gr_fail _
  | [_], _, .cons _ .nil => exact gr_fail _
  | [_, _], _, .cons _ (.cons _ .nil) => exact gr_fail _
  | _ :: _ :: _ :: _ :: _, _, .cons _ (.cons _ (.cons _ (.cons _ _))) => exact gr_fail _
  | [_, _, _], [C, A, B], .cons hc (.cons ha (.cons hb .nil)) =>
    refine gr_bind (hc.run env) fun v => ?_
    cases v.asBool with
    | none => exact gr_left (gr_fail _)
    | some cond =>
      cases cond
      · exact gr_right (gr_right (hb.run env))
      · exact gr_right (gr_left (ha.run env))

theorem gr_optional {o : Option (Env → M W Value)} (h : match o with | none => ∀ α (v : α), Gr calls R (lift (.ok v) : M W α) | some d => ∃ R', R = R'.andThen nothing ∧ ∀ env, Gr calls R' (d env)) (env : Env) :
    Gr calls R (Fx.optional env o) := by
  cases o with
  | none => exact h _ _
  | some d =>
    obtain ⟨R', rfl, h⟩ := h
    exact gr_bind (h env) fun v => gr_lift _

theorem gr_paramName {o : Option (Operand W)} {R : Option ArgRuns} (h : Option.Rel (GrOp calls) o R) (env : Env) (d : Str) : Gr calls (Spec.optional R) (paramName env d o) := by
  cases h with
  | none => exact gr_ok _
  | some h =>
    refine gr_bind (h.run env) fun v => ?_
    cases v <;> exact gr_lift _

theorem gr_get (h : List.Forall₂ (GrOp calls) as Rs) (i : Nat) : Option.Rel (GrOp calls) as[i]? Rs[i]? := by
  induction h generalizing i with
  | nil => simp
  | cons h _ ih =>
    cases i with
    | zero => simpa using Option.Rel.some h
    | succ i => simpa using ih i

theorem gr_staticCriterion {a : Operand W} {R : ArgRuns} (h : GrOp calls a R) (env : Env) : Gr calls R.plain.swallowed (staticCriterion env a) := by
  intro w
  obtain ⟨D, h1, h2⟩ := h.run env w
  refine ⟨D, ?_, _, h2⟩
  unfold staticCriterion
  revert h1
  rcases a.run env w with ⟨w', r⟩
  intro h1
  rcases r with f | v
  · cases f <;> exact h1
  · cases v <;> exact h1

/-! ### Loops -/

section
variable {lam : Env → M W Value} (h : ∀ env, Gr calls R (lam env))
include h

theorem gr_loopMap (p : Str) (env : Env) (items : List Value) : Gr calls (R.times items.length) (Loop.map lam p env items) := by
  induction items generalizing env with
  | nil => exact gr_ok _
  | cons v vs ih => exact gr_bind (h _) fun _ => gr_map (ih _) fun _ => gr_ok _

theorem gr_loopFilter (p : Str) (env : Env) (items : List Value) : Gr calls (R.times items.length) (Loop.filter lam p env items) := by
  induction items generalizing env with
  | nil => exact gr_ok _
  | cons v vs ih => exact gr_bind (h _) fun _ => gr_map (ih _) fun _ => gr_ok _

theorem gr_loopReduce (p q : Str) (env : Env) (acc : Value) (items : List Value) : Gr calls (R.times items.length) (Loop.reduce lam p q env acc items) := by
  induction items generalizing env acc with
  | nil => exact gr_ok _
  | cons v vs ih => exact gr_bind (h _) fun _ => ih _ _

theorem gr_loopReduceAccFirst (env : Env) (acc : Value) (items : List Value) : Gr calls (R.times items.length) (Loop.reduceAccFirst lam env acc items) := by
  induction items generalizing env acc with
  | nil => exact gr_ok _
  | cons v vs ih => exact gr_bind (h _) fun _ => ih _ _

theorem gr_loopSumif (env : Env) (acc : F64) (items : List Value) : Gr calls (R.times items.length) (Loop.sumif lam env acc items) := by
  induction items generalizing env acc with
  | nil => exact gr_ok _
  | cons v vs ih => exact gr_bind (h _) fun _ => ih _ _

theorem gr_loopAvgif (env : Env) (acc : F64) (n : Nat) (items : List Value) : Gr calls (R.times items.length) (Loop.avgif lam env acc n items) := by
  induction items generalizing env acc n with
  | nil => exact gr_ok _
  | cons v vs ih =>
    refine gr_bind (h _) fun _ => ?_
    split
    · exact ih _ _ _
    · exact ih _ _ _

theorem gr_loopCountif (env : Env) (n : Nat) (items : List Value) : Gr calls (R.times items.length) (Loop.countif lam env n items) := by
  induction items generalizing env n with
  | nil => exact gr_ok _
  | cons v vs ih => exact gr_bind (h _) fun _ => ih _ _

/-- `find` tries the elements up to the one found, or all of them. -/
theorem gr_loopFind (p : Str) (env : Env) (items : List Value) (w : W) :
    ∃ k D, k ≤ items.length ∧ calls (Loop.find lam p env items w).1 = calls w ++ D ∧ R.times k (D.map Prod.fst) (Loop.find lam p env items w).2.isOk ∧
      ∀ r, (Loop.find lam p env items w).2 = .ok r → (0 < k ∧ items[k - 1]? = some r) ∨ (k = items.length ∧ r = .null) := by
  induction items generalizing env w with
  | nil => exact ⟨0, [], Nat.le_refl _, (List.append_nil _).symm, ⟨rfl, rfl⟩, fun r hr => by cases hr; exact .inr ⟨rfl, rfl⟩⟩
  | cons v vs ih =>
    obtain ⟨D, h1, h2⟩ := h (env.insert p v) w
    have hl : Loop.find lam p env (v :: vs) w =
        match lam (env.insert p v) w with | (w, .ok r) => (if isTrue r then lift (.ok v) else Loop.find lam p (env.insert p v) vs) w | (w, .error e) => (w, .error e) := by
      show (lam (env.insert p v) >>= fun r => _) w = _
      rw [bind_at]
      rcases lam (env.insert p v) w with ⟨w1, r⟩
      cases r <;> rfl
    rw [hl]
    revert h1 h2
    rcases lam (env.insert p v) w with ⟨w1, r⟩
    intro h1 h2
    cases r with
    | error e => exact ⟨1, D, by simp, h1, .inl ⟨h2, rfl⟩, fun r hr => by cases hr⟩
    | ok r =>
      dsimp only at h1 h2 ⊢
      by_cases hr : isTrue r
      · rw [if_pos hr]
        refine ⟨1, D, by simp, h1, .inr ⟨_, [], (List.append_nil _).symm, h2, rfl, rfl⟩, fun r h => by cases h; exact .inl ⟨Nat.zero_lt_one, rfl⟩⟩
      · rw [if_neg hr]
        obtain ⟨k, D', h3, h4, h5, h6⟩ := ih (env.insert p v) w1
        refine ⟨k + 1, D ++ D', by simpa using h3, by rw [h4, h1, List.append_assoc], ?_, fun r h => ?_⟩
        · rw [List.map_append]
          exact .inr ⟨_, _, rfl, h2, h5⟩
        · rcases h6 r h with ⟨h7, h8⟩ | ⟨h7, h8⟩
          · refine .inl ⟨Nat.succ_pos _, ?_⟩
            obtain ⟨k, rfl⟩ : ∃ j, k = j + 1 := ⟨k - 1, by omega⟩
            simpa using h8
          · exact .inr ⟨by simp [h7], h8⟩

theorem gr_find (p : Str) (env : Env) (items : List Value) : Gr calls R.repeated (Loop.find lam p env items) := fun w => by
  obtain ⟨k, D, _, h2, h3, _⟩ := gr_loopFind h p env items w
  exact ⟨D, h2, k, h3⟩
end

theorem gr_repeated {α : Type} {m : M W α} {n : Nat} (h : Gr calls (R.times n) m) : Gr calls R.repeated m := gr_mono h fun _ _ h => ⟨n, h⟩

/-! ### Functions with a lambda -/

theorem gr_higherOrder (X : Ext) (h : List.Forall₂ (GrOp calls) as Rs) (n : Str) (env : Env) :
    match (higherOrder X n : Option (Env → List (Operand W) → M W Value)), lambdaRuns n Rs with
    | some f, some R => Gr calls R (f env as)
    | none, none => True
    | _, _ => False := by
  unfold higherOrder lambdaRuns
  by_cases h1 : n = c!"FILTER"
  · rw [if_pos h1, if_pos (.inl h1)]
    match as, Rs, h with
    | [], _, .nil => exact gr_fail _
    | [_], _, .cons _ .nil => exact gr_fail _
    | _ :: _ :: as, _, .cons ha (.cons _ h) =>
      refine gr_bind (ha.run _) fun v => ?_
      rw [List.head?_eq_getElem?]
      exact gr_bind (gr_paramName (gr_get h 0) _ _) fun _ => gr_lift _
  rw [if_neg h1]
  by_cases h2 : n = c!"FIND"
  · rw [if_pos h2, if_pos (.inr (.inl h2))]
    match as, Rs, h with
    | [], _, .nil => exact gr_fail _
    | [_], _, .cons _ .nil => exact gr_fail _
    | _ :: _ :: as, _, .cons ha (.cons _ h) =>
      refine gr_bind (ha.run _) fun v => ?_
      rw [List.head?_eq_getElem?]
      exact gr_bind (gr_paramName (gr_get h 0) _ _) fun _ => gr_lift _
  rw [if_neg h2]
  by_cases h3 : n = c!"MAP"
  · rw [if_pos h3, if_pos (.inr (.inr h3))]
    match as, Rs, h with
    | [], _, .nil => exact gr_fail _
    | [_], _, .cons _ .nil => exact gr_fail _
    | _ :: _ :: as, _, .cons ha (.cons _ h) =>
      refine gr_bind (ha.run _) fun v => ?_
      rw [List.head?_eq_getElem?]
      exact gr_bind (gr_paramName (gr_get h 0) _ _) fun _ => gr_lift _
  rw [if_neg h3, if_neg (not_or.2 ⟨h1, not_or.2 ⟨h2, h3⟩⟩)]
  by_cases h4 : n = c!"REDUCE"
  · rw [if_pos h4, if_pos h4]
    match as, Rs, h with
    | [], _, .nil => exact gr_fail _
    | [_], _, .cons _ .nil => exact gr_fail _
    | [_, _], _, .cons _ (.cons _ .nil) => exact gr_fail _
    | _ :: _ :: _ :: as, _, .cons ha (.cons _ (.cons hi h)) =>
      refine gr_bind (ha.run _) fun v => gr_bind (hi.run _) fun acc => ?_
      rw [List.head?_eq_getElem?]
      exact gr_bind (gr_paramName (gr_get h 0) _ _) fun _ => gr_bind (gr_paramName (gr_get h 1) _ _) fun _ => gr_lift _
  rw [if_neg h4, if_neg h4]
  by_cases h5 : n = c!"SUMIF"
  · rw [if_pos h5, if_pos h5]
    match as, Rs, h with
    | [], _, .nil => exact gr_fail _
    | [_], _, .cons _ .nil => exact gr_fail _
    | _ :: _ :: _ :: _ :: _, _, .cons _ (.cons _ (.cons _ (.cons _ _))) => exact gr_fail _
    | [_, _], _, .cons ha (.cons hl .nil) =>
      exact gr_bind (ha.run _) fun v => gr_bind (gr_staticCriterion hl _) fun _ => gr_lift _
    | [_, _, _], _, .cons ha (.cons hl (.cons hs .nil)) =>
      exact gr_bind (ha.run _) fun v => gr_bind (hs.run _) fun _ => gr_bind (gr_staticCriterion hl _) fun _ => gr_lift _
  rw [if_neg h5, if_neg h5]
  by_cases h6 : n = c!"AVGIF"
  · rw [if_pos h6, if_pos (.inl h6)]
    match as, Rs, h with
    | [], _, .nil => exact gr_fail _
    | [_], _, .cons _ .nil => exact gr_fail _
    | _ :: _ :: _ :: _, _, .cons _ (.cons _ (.cons _ _)) => exact gr_fail _
    | [_, _], _, .cons ha (.cons hl .nil) => exact gr_bind (ha.run _) fun v => gr_lift _
  rw [if_neg h6]
  by_cases h7 : n = c!"COUNTIF"
  · rw [if_pos h7, if_pos (.inr h7)]
    match as, Rs, h with
    | [], _, .nil => exact gr_fail _
    | [_], _, .cons _ .nil => exact gr_fail _
    | _ :: _ :: _ :: _, _, .cons _ (.cons _ (.cons _ _)) => exact gr_fail _
    | [_, _], _, .cons ha (.cons hl .nil) => exact gr_bind (ha.run _) fun v => gr_lift _
  rw [if_neg h7, if_neg (not_or.2 ⟨h6, h7⟩)]
  by_cases h8 : n = c!"JQ"
  · rw [if_pos h8, if_pos h8]
    match as, Rs, h with
    | [], _, .nil => exact gr_fail _
    | [_], _, .cons _ .nil => exact gr_fail _
    | _ :: _ :: _ :: _, _, .cons _ (.cons _ (.cons _ _)) => exact gr_fail _
    | [_, _], [A, B], .cons ha (.cons hl .nil) =>
      exact gr_bind (ha.run _) fun v => gr_bind (hl.run _) fun _ => gr_lift _
  · rw [if_neg h8, if_neg h8]
    trivial

theorem gr_higherOrderInside (h : List.Forall₂ (GrOp calls) as Rs) (n : Str) (env : Env) :
    match (Legacy.higherOrder n : Option (Env → List (Operand W) → M W Value)), lambdaRunsInside n Rs with
    | some f, some R => Gr calls R (f env as)
    | none, none => True
    | _, _ => False := by
  unfold Legacy.higherOrder lambdaRunsInside
  by_cases h1 : n = c!"FILTER"
  · rw [if_pos h1, if_pos (.inl h1)]
    match as, Rs, h with
    | [], _, .nil => exact gr_fail _
    | [_], _, .cons _ .nil => exact gr_fail _
    | _ :: _ :: as, _, .cons ha (.cons hl h) =>
      refine gr_bind (ha.run _) fun v => ?_
      cases v <;> first | exact gr_left (gr_fail _) | exact gr_right (gr_map (gr_repeated (gr_loopFilter hl.run _ _ _)) fun _ => gr_ok _)
  rw [if_neg h1]
  by_cases h2 : n = c!"FIND"
  · rw [if_pos h2, if_pos (.inr (.inl h2))]
    match as, Rs, h with
    | [], _, .nil => exact gr_fail _
    | [_], _, .cons _ .nil => exact gr_fail _
    | _ :: _ :: as, _, .cons ha (.cons hl h) =>
      refine gr_bind (ha.run _) fun v => ?_
      cases v <;> first | exact gr_left (gr_fail _) | exact gr_right (gr_find hl.run _ _ _)
  rw [if_neg h2]
  by_cases h3 : n = c!"MAP"
  · rw [if_pos h3, if_pos (.inr (.inr h3))]
    match as, Rs, h with
    | [], _, .nil => exact gr_fail _
    | [_], _, .cons _ .nil => exact gr_fail _
    | _ :: _ :: as, _, .cons ha (.cons hl h) =>
      refine gr_bind (ha.run _) fun v => ?_
      cases v <;> first | exact gr_left (gr_fail _) | exact gr_right (gr_map (gr_repeated (gr_loopMap hl.run _ _ _)) fun _ => gr_ok _)
  rw [if_neg h3, if_neg (not_or.2 ⟨h1, not_or.2 ⟨h2, h3⟩⟩)]
  by_cases h4 : n = c!"REDUCE"
  · rw [if_pos h4, if_pos h4]
    match as, Rs, h with
    | [], _, .nil => exact gr_fail _
    | [_], _, .cons _ .nil => exact gr_fail _
    | [_, _], _, .cons _ (.cons _ .nil) => exact gr_fail _
    | _ :: _ :: _ :: as, _, .cons ha (.cons hl (.cons hi h)) =>
      refine gr_bind (ha.run _) fun v => gr_bind (hi.run _) fun acc => ?_
      cases v <;> first | exact gr_left (gr_fail _) | exact gr_right (gr_repeated (gr_loopReduceAccFirst hl.run _ _ _))
  rw [if_neg h4, if_neg h4]
  by_cases h5 : n = c!"SUMIF"
  · rw [if_pos h5, if_pos (.inl h5)]
    match as, Rs, h with
    | [], _, .nil => exact gr_fail _
    | [_], _, .cons _ .nil => exact gr_fail _
    | _ :: _ :: _ :: _, _, .cons _ (.cons _ (.cons _ _)) => exact gr_fail _
    | [_, _], _, .cons ha (.cons hl .nil) =>
      refine gr_bind (ha.run _) fun v => ?_
      cases v <;> first | exact gr_left (gr_fail _) | exact gr_right (gr_map (gr_repeated (gr_loopSumif hl.run _ _ _)) fun _ => gr_ok _)
  rw [if_neg h5]
  by_cases h6 : n = c!"AVGIF"
  · rw [if_pos h6, if_pos (.inr (.inl h6))]
    match as, Rs, h with
    | [], _, .nil => exact gr_fail _
    | [_], _, .cons _ .nil => exact gr_fail _
    | _ :: _ :: _ :: _, _, .cons _ (.cons _ (.cons _ _)) => exact gr_fail _
    | [_, _], _, .cons ha (.cons hl .nil) =>
      refine gr_bind (ha.run _) fun v => ?_
      cases v <;> first | exact gr_left (gr_fail _) | exact gr_right (gr_map (gr_repeated (gr_loopAvgif hl.run _ _ _ _)) fun _ => gr_ok _)
  rw [if_neg h6]
  by_cases h7 : n = c!"COUNTIF"
  · rw [if_pos h7, if_pos (.inr (.inr h7))]
    match as, Rs, h with
    | [], _, .nil => exact gr_fail _
    | [_], _, .cons _ .nil => exact gr_fail _
    | _ :: _ :: _ :: _, _, .cons _ (.cons _ (.cons _ _)) => exact gr_fail _
    | [_, _], _, .cons ha (.cons hl .nil) =>
      refine gr_bind (ha.run _) fun v => ?_
      cases v <;> first | exact gr_left (gr_fail _) | exact gr_right (gr_map (gr_repeated (gr_loopCountif hl.run _ _ _)) fun _ => gr_ok _)
  · rw [if_neg h7, if_neg (not_or.2 ⟨h5, not_or.2 ⟨h6, h7⟩⟩)]
    trivial

/-! ### Calls and methods -/

theorem gr_call (hg : Recorded g calls) (X : Ext) (h : List.Forall₂ (GrOp calls) as Rs) (n : Str) (env : Env) : Gr calls (callRuns X g false n Rs) (call X g n as env) := by
  unfold call callRuns
  by_cases h1 : n = c!"__TERNARY__"
  · rw [if_pos h1, if_pos (by simp [isConditional, h1])]
    exact gr_ternary h env
  rw [if_neg h1, if_neg (by simp [isConditional, h1])]
  by_cases h2 : n = c!"__CONST_TRUE__"
  · rw [if_pos h2, if_pos (by simp [isConstant, h2])]
    exact gr_ok _
  rw [if_neg h2]
  by_cases h3 : n = c!"__CONST_FALSE__"
  · rw [if_pos h3, if_pos (by simp [isConstant, h3])]
    exact gr_ok _
  rw [if_neg h3, if_neg (by simp [isConstant, h2, h3])]
  by_cases h4 : g.has X n = true
  · rw [if_pos h4, if_pos h4]
    exact gr_bind (gr_evalArgs h env) fun vs => gr_execute hg X n vs
  · rw [if_neg h4, if_neg h4]
    have hh := gr_higherOrder X h n env
    rw [if_neg (by decide)]
    revert hh
    cases (higherOrder X n : Option (Env → List (Operand W) → M W Value)) <;> cases lambdaRuns n Rs <;> intro hh
    · exact gr_bind (gr_evalArgs h env) fun vs => gr_lift _
    · exact hh.elim
    · exact hh.elim
    · exact hh

theorem gr_callInside (hg : Recorded g calls) (X : Ext) (h : List.Forall₂ (GrOp calls) as Rs) (n : Str) (env : Env) : Gr calls (callRuns X g true n Rs) (Legacy.call X g n as env) := by
  unfold Legacy.call callRuns
  by_cases h1 : n = c!"__TERNARY__"
  · rw [if_pos h1, if_pos (by simp [isConditional, h1])]
    exact gr_ternary h env
  rw [if_neg h1, if_neg (by simp [isConditional, h1]), if_neg (by simp)]
  by_cases h4 : g.has X n = true
  · rw [if_pos h4, if_pos h4]
    exact gr_bind (gr_evalArgs h env) fun vs => gr_execute hg X n vs
  · rw [if_neg h4, if_neg h4]
    have hh := gr_higherOrderInside h n env
    rw [if_pos rfl]
    revert hh
    cases (Legacy.higherOrder n : Option (Env → List (Operand W) → M W Value)) <;> cases lambdaRunsInside n Rs <;> intro hh
    · exact gr_bind (gr_evalArgs h env) fun vs => gr_lift _
    · exact hh.elim
    · exact hh.elim
    · exact hh

theorem nothing_method (X : Ext) (n : Str) (Rs : List ArgRuns) (s : List Str) (ok : Bool) (h : nothing s ok) : methodRuns X n Rs s ok := by
  unfold methodRuns
  split
  · split
    · exact .inl h
    · exact h
  · split
    · split
      · exact .inl h
      · exact h
    · exact h

theorem gr_method (X : Ext) (h : List.Forall₂ (GrOp calls) as Rs) (n : Str) (env : Env) (p : Bool) (v : Value) :
    Gr calls (if p then nothing else methodRuns X n Rs) (Method.exec X env n p v as) := by
  unfold Method.exec
  cases p
  · rw [if_neg (by decide), if_neg (by decide)]
    have hl : ∀ r, Gr calls (methodRuns X n Rs) (lift r : M W Value) := fun r => gr_mono (gr_lift r) (nothing_method X n Rs)
    dsimp only
    split
    · exact hl _
    · split
      · exact hl _
      · rename_i items _
        by_cases h1 : X.lower n = c!"filter"
        · rw [if_pos h1]
          unfold methodRuns
          rw [if_pos (.inl h1)]
          match as, Rs, h with
          | [], _, .nil => exact gr_fail' _
          | _ :: _, _, .cons ha _ => exact gr_right (gr_map (gr_repeated (gr_loopFilter ha.run _ _ _)) fun _ => gr_ok _)
        rw [if_neg h1]
        by_cases h2 : X.lower n = c!"map"
        · rw [if_pos h2]
          unfold methodRuns
          rw [if_pos (.inr (.inl h2))]
          match as, Rs, h with
          | [], _, .nil => exact gr_fail' _
          | _ :: _, _, .cons ha _ => exact gr_right (gr_map (gr_repeated (gr_loopMap ha.run _ _ _)) fun _ => gr_ok _)
        rw [if_neg h2]
        by_cases h3 : X.lower n = c!"find"
        · rw [if_pos h3]
          unfold methodRuns
          rw [if_pos (.inr (.inr h3))]
          match as, Rs, h with
          | [], _, .nil => exact gr_fail' _
          | _ :: _, _, .cons ha _ => exact gr_right (gr_find ha.run _ _ _)
        rw [if_neg h3]
        by_cases h4 : X.lower n = c!"reduce"
        · rw [if_pos h4]
          unfold methodRuns
          rw [if_neg (not_or.2 ⟨h1, not_or.2 ⟨h2, h3⟩⟩), if_pos h4]
          match as, Rs, h with
          | [], _, .nil => exact gr_fail' _
          | [_], _, .cons _ .nil => exact gr_fail' _
          | _ :: _ :: _, _, .cons ha (.cons hb _) => exact gr_right (gr_bind (hb.run _) fun _ => gr_repeated (gr_loopReduce ha.run _ _ _ _ _))
        · rw [if_neg h4]
          exact hl _
      · exact hl _
      · exact hl _
      · exact hl _
  · exact gr_lift _

theorem gr_bound {o : Option (Env → M W Value)} (h : match o with | none => R = done | some d => ∃ R', R = R'.andThen nothing ∧ ∀ env, Gr calls R' (d env)) (env : Env) (len dflt : Int) (err : String) :
    Gr calls R (Legacy.bound env len dflt err o) := by
  cases o with
  | none => subst h; exact gr_ok _
  | some d =>
    obtain ⟨R', rfl, h⟩ := h
    refine gr_bind (h env) fun v => ?_
    cases v.asNumber with
    | none => exact gr_fail' _
    | some n => exact gr_lift _

theorem gr_bound' {o : Option (Env → M W Value)} (h : match o with | none => R = done | some d => ∃ R', R = R'.andThen nothing ∧ ∀ env, Gr calls R' (d env)) (env : Env) :
    Gr calls R (Fx.optional env o) := by
  refine gr_optional ?_ env
  cases o with
  | none => subst h; exact fun _ v => gr_ok v
  | some d => exact h

theorem grOp_spread {d : Env → M W Value} (h : ∀ env, Gr calls R (d env)) (f : Fail) (a : Arg) : GrOp calls ⟨fun _ => lift (.error f), some d, a⟩ ⟨fails, R.andThen nothing⟩ :=
  { run := fun _ => gr_fail _
    listed := by
      intro h
      cases h
    spread := by
      intro d' hd env
      cases hd
      refine gr_bind (h env) fun v => ?_
      cases v <;> exact gr_lift _ }

theorem grOp_run {d : Env → M W Value} (h : ∀ env, Gr calls R (d env)) (a : Arg) : GrOp calls ⟨d, none, a⟩ ⟨R, R⟩ :=
  { run := h
    listed := fun _ => h
    spread := by
      intro d' hd
      cases hd }
end

variable {g : Reg W}

mutual
theorem eval_gr (hg : Recorded g calls) (X : Ext) (e : Expr) (env : Env) : Gr calls (runs X g false e) (eval X g e env) := by
  cases e with
  | number _ => simp only [eval, runs]; exact gr_ok _
  | strLit _ => simp only [eval, runs]; exact gr_ok _
  | null => simp only [eval, runs]; exact gr_ok _
  | spread _ => simp only [eval, runs]; exact gr_fail _
  | var n => simp only [eval, runs]; cases env n <;> exact gr_lift _
  | unary op e => simp only [eval, runs]; exact gr_bind (eval_gr hg X e env) fun _ => gr_lift _
  | prop e n => simp only [eval, runs]; exact gr_bind (eval_gr hg X e env) fun _ => gr_lift _
  | safeProp e n => simp only [eval, runs]; exact gr_bind (eval_gr hg X e env) fun _ => gr_lift _
  | cast e t => simp only [eval, runs]; exact gr_bind (eval_gr hg X e env) fun _ => gr_lift _
  | assign x e => simp only [eval, runs]; exact eval_gr hg X e env
  | binary a op b =>
    simp only [eval, runs]
    exact gr_bind (eval_gr hg X a env) fun _ => gr_bind (eval_gr hg X b env) fun _ => gr_lift _
  | index a b =>
    simp only [eval, runs]
    exact gr_bind (eval_gr hg X a env) fun _ => gr_bind (eval_gr hg X b env) fun _ => gr_lift _
  | call n es => simp only [eval, runs]; exact gr_call hg X (args_gr hg X es) n env
  | array es => simp only [eval, runs]; exact gr_map (gr_elements (args_gr hg X es) env) fun _ => gr_ok _
  | seq es => simp only [eval, runs]; exact gr_lastOf (args_gr hg X es) env .null
  | object ms => simp only [eval, runs]; exact gr_map (members_gr hg X ms env []) fun _ => gr_ok _
  | safeCall t n es =>
    simp only [eval, runs]
    refine gr_bind (eval_gr hg X t env) fun v => ?_
    have hm := gr_method X (Legacy.args_gr hg X es) n env false
    cases v <;> first | exact gr_mono (gr_lift _) (nothing_method X n _) | exact hm _
  | method t n es p =>
    simp only [eval, runs]
    exact gr_bind (eval_gr hg X t env) fun v => gr_method X (Legacy.args_gr hg X es) n env p v
  | slice t a b =>
    simp only [eval, runs]
    refine gr_bind (eval_gr hg X t env) fun v => ?_
    cases v <;> first | exact gr_left (gr_fail _) | exact gr_right (gr_bind (gr_bound' (opt_gr hg X a) _) fun s => gr_bind (gr_bound' (opt_gr hg X b) _) fun e => gr_lift _)
theorem args_gr (hg : Recorded g calls) (X : Ext) (es : List Expr) : List.Forall₂ (GrOp calls) (argsOf X g es) (runsEach X g false es) := by
  cases es with
  | nil => simp only [argsOf, runsEach]; exact .nil
  | cons e es =>
    have ht := args_gr hg X es
    have hr := eval_gr hg X e
    cases e <;> simp only [argsOf, runsEach] <;> refine .cons ?_ ht
    case spread e => exact grOp_spread (eval_gr hg X e) _ _
    case strLit s =>
      simp only [eval] at hr
      exact grOp_run hr _
    all_goals exact grOp_run hr _
theorem members_gr (hg : Recorded g calls) (X : Ext) (ms : List (Str × Expr)) (env : Env) (out : List (Str × Json)) :
    Gr calls (runsIn X g false ms) (objectMembers X env out (membersOf X g ms)) := by
  cases ms with
  | nil => simp only [membersOf, runsIn]; exact gr_ok _
  | cons m ms =>
    obtain ⟨k, e⟩ := m
    simp only [membersOf, runsIn]
    have := gr_bind (gr_bind (eval_gr hg X e env) fun v => gr_lift (v.toJson X)) fun j => members_gr hg X ms env (objInsert k j out)
    rw [bind_assoc'] at this
    exact this
theorem opt_gr (hg : Recorded g calls) (X : Ext) (o : Option Expr) :
    match optOf X g o with | none => runsOpt X g false o = done | some d => ∃ R', runsOpt X g false o = R'.andThen nothing ∧ ∀ env, Gr calls R' (d env) := by
  cases o with
  | none => simp only [optOf, runsOpt]
  | some e => simp only [optOf, runsOpt]; exact ⟨_, rfl, eval_gr hg X e⟩
theorem Legacy.eval_gr (hg : Recorded g calls) (X : Ext) (e : Expr) (env : Env) : Gr calls (runs X g true e) (Legacy.eval X g e env) := by
  cases e with
  | number _ => simp only [Legacy.eval, runs]; exact gr_ok _
  | strLit _ => simp only [Legacy.eval, runs]; exact gr_ok _
  | null => simp only [Legacy.eval, runs]; exact gr_ok _
  | spread _ => simp only [Legacy.eval, runs]; exact gr_fail _
  | var n => simp only [Legacy.eval, runs]; cases env n <;> exact gr_lift _
  | unary op e => simp only [Legacy.eval, runs]; exact gr_bind (Legacy.eval_gr hg X e env) fun _ => gr_lift _
  | prop e n => simp only [Legacy.eval, runs]; exact gr_bind (Legacy.eval_gr hg X e env) fun _ => gr_lift _
  | safeProp e n => simp only [Legacy.eval, runs]; exact gr_bind (Legacy.eval_gr hg X e env) fun _ => gr_lift _
  | cast e t => simp only [Legacy.eval, runs]; exact gr_bind (Legacy.eval_gr hg X e env) fun _ => gr_lift _
  | assign x e => simp only [Legacy.eval, runs]; exact Legacy.eval_gr hg X e env
  | binary a op b =>
    simp only [Legacy.eval, runs]
    exact gr_bind (Legacy.eval_gr hg X a env) fun _ => gr_bind (Legacy.eval_gr hg X b env) fun _ => gr_lift _
  | index a b =>
    simp only [Legacy.eval, runs]
    exact gr_bind (Legacy.eval_gr hg X a env) fun _ => gr_bind (Legacy.eval_gr hg X b env) fun _ => gr_lift _
  | call n es => simp only [Legacy.eval, runs]; exact gr_callInside hg X (Legacy.args_gr hg X es) n env
  | array es => simp only [Legacy.eval, runs]; exact gr_map (gr_elements (Legacy.args_gr hg X es) env) fun _ => gr_ok _
  | seq es => simp only [Legacy.eval, runs]; exact gr_lastOf (Legacy.args_gr hg X es) env .null
  | object ms => simp only [Legacy.eval, runs]; exact gr_map (Legacy.members_gr hg X ms env []) fun _ => gr_ok _
  | safeCall t n es =>
    simp only [Legacy.eval, runs]
    refine gr_bind (Legacy.eval_gr hg X t env) fun v => ?_
    have hm := gr_method X (Legacy.args_gr hg X es) n env false
    cases v <;> first | exact gr_mono (gr_lift _) (nothing_method X n _) | exact hm _
  | method t n es p =>
    simp only [Legacy.eval, runs]
    exact gr_bind (Legacy.eval_gr hg X t env) fun v => gr_method X (Legacy.args_gr hg X es) n env p v
  | slice t a b =>
    simp only [Legacy.eval, runs]
    refine gr_bind (Legacy.eval_gr hg X t env) fun v => ?_
    cases v <;> first
      | exact gr_left (gr_fail _)
      | exact gr_right (gr_bind (gr_bound (Legacy.opt_gr hg X a) _ _ _ _) fun s => gr_bind (gr_bound (Legacy.opt_gr hg X b) _ _ _ _) fun e => gr_lift _)
theorem Legacy.args_gr (hg : Recorded g calls) (X : Ext) (es : List Expr) : List.Forall₂ (GrOp calls) (Legacy.argsOf X g es) (runsEach X g true es) := by
  cases es with
  | nil => simp only [Legacy.argsOf, runsEach]; exact .nil
  | cons e es =>
    have ht := Legacy.args_gr hg X es
    have hr := Legacy.eval_gr hg X e
    cases e <;> simp only [Legacy.argsOf, runsEach] <;> refine .cons ?_ ht
    case spread e => exact grOp_spread (Legacy.eval_gr hg X e) _ _
    case strLit s =>
      simp only [Legacy.eval] at hr
      exact grOp_run hr _
    all_goals exact grOp_run hr _
theorem Legacy.members_gr (hg : Recorded g calls) (X : Ext) (ms : List (Str × Expr)) (env : Env) (out : List (Str × Json)) :
    Gr calls (runsIn X g true ms) (objectMembers X env out (Legacy.membersOf X g ms)) := by
  cases ms with
  | nil => simp only [Legacy.membersOf, runsIn]; exact gr_ok _
  | cons m ms =>
    obtain ⟨k, e⟩ := m
    simp only [Legacy.membersOf, runsIn]
    have := gr_bind (gr_bind (Legacy.eval_gr hg X e env) fun v => gr_lift (v.toJson X)) fun j => Legacy.members_gr hg X ms env (objInsert k j out)
    rw [bind_assoc'] at this
    exact this
theorem Legacy.opt_gr (hg : Recorded g calls) (X : Ext) (o : Option Expr) :
    match Legacy.optOf X g o with | none => runsOpt X g true o = done | some d => ∃ R', runsOpt X g true o = R'.andThen nothing ∧ ∀ env, Gr calls R' (d env) := by
  cases o with
  | none => simp only [Legacy.optOf, runsOpt]
  | some e => simp only [Legacy.optOf, runsOpt]; exact ⟨_, rfl, Legacy.eval_gr hg X e⟩
end

end Fx
