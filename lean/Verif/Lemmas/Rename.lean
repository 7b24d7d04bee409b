import Verif.Lemmas.Sim
import Verif.Spec.Names
import Verif.Spec.Rename
/-! An expression and its renaming side by side. -/

open Spec

namespace Ren

/-- What is fixed during a run: the renaming, the variables that may occur, those that may be missing, and
the names that may be bound. -/
structure Setting where
  ρ : Str → Str
  occurs : Str → Prop
  missing : Str → Prop

/-- A name that the renaming does not touch. -/
def Setting.free (T : Setting) (b : Str) : Prop := ∀ j, T.occurs j → (T.ρ j = b ↔ j = b)

/-- The two texts of the error for a missing variable. -/
def isMissing (m : String) : Prop := m = "Missing variable: :{}" ∨ m = "Undefined variable: {}"

/-- Equal results, or both are the error for a missing variable, under its two names. -/
def Setting.cong (T : Setting) : Cong where
  rel := fun {_} a b => a = b ∨ ∃ m n, isMissing m ∧ T.missing n ∧ a = fail m [n] ∧ b = fail m [T.ρ n]
  refl := fun _ => .inl rfl
  bind := by
    rintro α β a b f g (rfl | ⟨m, n, hm, hn, rfl, rfl⟩) h
    · cases a with
      | error e => exact .inl rfl
      | ok v => exact h v
    · exact .inr ⟨m, n, hm, hn, rfl, rfl⟩

/-- The variables of the second run are those of the first, renamed. -/
structure Setting.Env (T : Setting) (env env' : _root_.Env) : Prop where
  same : ∀ k, T.occurs k → env' (T.ρ k) = env k
  none : ∀ k, env k = none → T.missing k

variable {T : Setting} {r : Option Registry} {env env' : _root_.Env}

theorem Setting.Env.insert {b : Str} (hb : T.free b) (v : Value) (h : T.Env env env') : T.Env (env.insert b v) (env'.insert b v) := by
  refine ⟨fun k hk => ?_, fun k hk => ?_⟩
  · have := hb k hk
    by_cases hkb : k = b
    · subst hkb
      simp [_root_.Env.insert, this.2 rfl]
    · have h2 : T.ρ k ≠ b := fun h => hkb (this.1 h)
      simp only [_root_.Env.insert, if_neg hkb, if_neg h2]
      exact h.same k hk
  · by_cases hkb : k = b
    · subst hkb; simp [_root_.Env.insert] at hk
    · simp only [_root_.Env.insert, if_neg hkb] at hk
      exact h.none k hk

/-- Two expressions, unevaluated. -/
def Setting.Den (T : Setting) (d d' : _root_.Den) : Prop := ∀ r env env', T.Env env env' → T.cong.rel (d r env) (d' r env')

/-- Two arguments. -/
structure Setting.Arg (T : Setting) (a a' : _root_.Arg) : Prop where
  run : T.Den a.run a'.run
  lit : a.lit = a'.lit
  spread : match a.spread, a'.spread with
    | none, none => True
    | some d, some d' => T.Den d d'
    | _, _ => False

/-- Two argument lists. -/
abbrev Setting.Args (T : Setting) : List _root_.Arg → List _root_.Arg → Prop := List.Forall₂ T.Arg

theorem evalArgs {as as' : List Arg} (h : T.Args as as') (he : T.Env env env') :
    T.cong.rel (_root_.evalArgs r env as) (_root_.evalArgs r env' as') := by
  induction h with
  | nil => exact T.cong.refl _
  | @cons a a' l l' ha hl ih =>
    have hs := ha.spread
    rw [_root_.evalArgs, _root_.evalArgs]
    cases h1 : a.spread with
    | none =>
      cases h2 : a'.spread with
      | some d' => rw [h1, h2] at hs; exact hs.elim
      | none => exact T.cong.bind (ha.run _ _ _ he) fun v => T.cong.bind ih fun vs => T.cong.refl _
    | some d =>
      cases h2 : a'.spread with
      | none => rw [h1, h2] at hs; exact hs.elim
      | some d' =>
        rw [h1, h2] at hs
        refine T.cong.bind (hs _ _ _ he) fun v => ?_
        cases v with
        | arr items => exact T.cong.bind ih fun vs => T.cong.refl _
        | _ => exact T.cong.refl _

theorem elements {as as' : List Arg} (h : T.Args as as') (he : T.Env env env') :
    T.cong.rel (_root_.elements r env as) (_root_.elements r env' as') := by
  induction h with
  | nil => exact T.cong.refl _
  | cons ha hl ih => exact T.cong.bind (ha.run _ _ _ he) fun v => T.cong.bind ih fun vs => T.cong.refl _

theorem lastOf {as as' : List Arg} (h : T.Args as as') (he : T.Env env env') (v : Value) :
    T.cong.rel (_root_.lastOf r env v as) (_root_.lastOf r env' v as') := by
  induction h generalizing v with
  | nil => exact T.cong.refl _
  | cons ha hl ih => exact T.cong.bind (ha.run _ _ _ he) fun v => ih v

theorem objectMembers (X : Ext) {ms ms' : List (Str × Den)}
    (h : List.Forall₂ (fun m m' => m.1 = m'.1 ∧ T.Den m.2 m'.2) ms ms') (he : T.Env env env') (acc : List (Str × Json)) :
    T.cong.rel (_root_.objectMembers X r env acc ms) (_root_.objectMembers X r env' acc ms') := by
  induction h generalizing acc with
  | nil => exact T.cong.refl _
  | @cons m m' l l' hm hl ih =>
    obtain ⟨k, d⟩ := m
    obtain ⟨k', d'⟩ := m'
    obtain ⟨rfl, hd⟩ := hm
    exact T.cong.bind (hd _ _ _ he) fun v => T.cong.bind (T.cong.refl _) fun j => ih _

/-- Two optional operands. -/
def Setting.Opt (T : Setting) : Option _root_.Den → Option _root_.Den → Prop
  | none, none => True
  | some d, some d' => T.Den d d'
  | _, _ => False

theorem optional {d d' : Option Den} (h : T.Opt d d') (he : T.Env env env') :
    T.cong.rel (Legacy.optional r env d) (Legacy.optional r env' d') := by
  cases d <;> cases d' <;> first
    | exact h.elim
    | exact T.cong.refl _
    | exact T.cong.bind (h _ _ _ he) fun v => T.cong.refl _

theorem boundCustom {d d' : Option Den} (h : T.Opt d d') (he : T.Env env env') (len dflt : Int) (err : String) :
    T.cong.rel (Legacy.boundCustom r env len dflt err d) (Legacy.boundCustom r env' len dflt err d') := by
  cases d <;> cases d' <;> first
    | exact h.elim
    | exact T.cong.refl _
    | exact T.cong.bind (h _ _ _ he) fun v => T.cong.refl _

theorem ternary {as as' : List Arg} (h : T.Args as as') (he : T.Env env env') :
    T.cong.rel (Legacy.ternary r env as) (Legacy.ternary r env' as') := by
  cases h with
  | nil => exact T.cong.refl _
  | cons h1 h =>
    cases h with
    | nil => exact T.cong.refl _
    | cons h2 h =>
      cases h with
      | nil => exact T.cong.refl _
      | cons h3 h =>
        cases h with
        | cons _ _ => exact T.cong.refl _
        | nil =>
          refine T.cong.bind (h1.run _ _ _ he) fun v => ?_
          cases v.asBool with
          | none => exact T.cong.refl _
          | some b =>
            cases b
            · exact h3.run _ _ _ he
            · exact h2.run _ _ _ he

/-! ### Loops -/

/-- Two lambdas. -/
def Setting.Lam (T : Setting) (l l' : _root_.Env → Res Value) : Prop := ∀ e e', T.Env e e' → T.cong.rel (l e) (l' e')

variable {lam lam' : _root_.Env → Res Value} {p q : Str}

theorem filter (h : T.Lam lam lam') (hp : T.free p) (he : T.Env env env') (items : List Value) :
    T.cong.rel (Loop.filter lam p env items) (Loop.filter lam' p env' items) := by
  induction items generalizing env env' with
  | nil => exact T.cong.refl _
  | cons v vs ih => exact T.cong.bind (h _ _ (he.insert hp v)) fun b => T.cong.bind (ih (he.insert hp v)) fun _ => T.cong.refl _

theorem map (h : T.Lam lam lam') (hp : T.free p) (he : T.Env env env') (items : List Value) :
    T.cong.rel (Loop.map lam p env items) (Loop.map lam' p env' items) := by
  induction items generalizing env env' with
  | nil => exact T.cong.refl _
  | cons v vs ih => exact T.cong.bind (h _ _ (he.insert hp v)) fun b => T.cong.bind (ih (he.insert hp v)) fun _ => T.cong.refl _

theorem find (h : T.Lam lam lam') (hp : T.free p) (he : T.Env env env') (items : List Value) :
    T.cong.rel (Loop.find lam p env items) (Loop.find lam' p env' items) := by
  induction items generalizing env env' with
  | nil => exact T.cong.refl _
  | cons v vs ih =>
    refine T.cong.bind (h _ _ (he.insert hp v)) fun b => ?_
    split
    · exact T.cong.refl _
    · exact ih (he.insert hp v)

theorem reduce (h : T.Lam lam lam') (hp : T.free p) (hq : T.free q) (he : T.Env env env') (acc : Value) (items : List Value) :
    T.cong.rel (Loop.reduce lam p q env acc items) (Loop.reduce lam' p q env' acc items) := by
  induction items generalizing env env' acc with
  | nil => exact T.cong.refl _
  | cons v vs ih =>
    exact T.cong.bind (h _ _ ((he.insert hp v).insert hq acc)) fun b => ih ((he.insert hp v).insert hq acc) b

theorem reduceAccFirst (h : T.Lam lam lam') (hp : T.free c!"x") (hq : T.free c!"acc") (he : T.Env env env') (acc : Value) (items : List Value) :
    T.cong.rel (Loop.reduceAccFirst lam env acc items) (Loop.reduceAccFirst lam' env' acc items) := by
  induction items generalizing env env' acc with
  | nil => exact T.cong.refl _
  | cons v vs ih =>
    exact T.cong.bind (h _ _ ((he.insert hq acc).insert hp v)) fun b => ih ((he.insert hq acc).insert hp v) b

theorem sumif (h : T.Lam lam lam') (hp : T.free c!"x") (he : T.Env env env') (acc : F64) (items : List Value) :
    T.cong.rel (Loop.sumif lam env acc items) (Loop.sumif lam' env' acc items) := by
  induction items generalizing env env' acc with
  | nil => exact T.cong.refl _
  | cons v vs ih => exact T.cong.bind (h _ _ (he.insert hp v)) fun b => ih (he.insert hp v) _

theorem avgif (h : T.Lam lam lam') (hp : T.free c!"x") (he : T.Env env env') (acc : F64) (n : Nat) (items : List Value) :
    T.cong.rel (Loop.avgif lam env acc n items) (Loop.avgif lam' env' acc n items) := by
  induction items generalizing env env' acc n with
  | nil => exact T.cong.refl _
  | cons v vs ih =>
    refine T.cong.bind (h _ _ (he.insert hp v)) fun b => ?_
    split
    · exact ih (he.insert hp v) _ _
    · exact ih (he.insert hp v) _ _

theorem countif (h : T.Lam lam lam') (hp : T.free c!"x") (he : T.Env env env') (n : Nat) (items : List Value) :
    T.cong.rel (Loop.countif lam env n items) (Loop.countif lam' env' n items) := by
  induction items generalizing env env' n with
  | nil => exact T.cong.refl _
  | cons v vs ih => exact T.cong.bind (h _ _ (he.insert hp v)) fun b => ih (he.insert hp v) _

/-! ### Parameter names -/

/-- A text in quotes as an argument. -/
def litArg (b : Str) : Arg := ⟨fun _ _ => .ok (.str b), none, some b⟩

/-- In both lists the argument there, if any, is the same text, a name the renaming does not touch. -/
def Setting.Par (T : Setting) (as as' : List _root_.Arg) (i : Nat) : Prop :=
  (as[i]? = none ∧ as'[i]? = none) ∨ ∃ b, T.free b ∧ as[i]? = some (litArg b) ∧ as'[i]? = some (litArg b)

theorem eval_paramName {as as' : List Arg} {i : Nat} (h : T.Par as as' i) {d : Str} (hd : T.free d) (r : Option Registry) (env env' : _root_.Env) :
    ∃ b, T.free b ∧ Eval.paramName r env d as[i]? = .ok b ∧ Eval.paramName r env' d as'[i]? = .ok b := by
  rcases h with ⟨h1, h2⟩ | ⟨b, hb, h1, h2⟩
  · exact ⟨d, hd, by rw [h1]; rfl, by rw [h2]; rfl⟩
  · exact ⟨b, hb, by rw [h1]; rfl, by rw [h2]; rfl⟩

theorem legacy_paramName {as as' : List Arg} {i : Nat} (h : T.Par as as' i) (hd : T.free c!"x") (env env' : _root_.Env) :
    ∃ b, T.free b ∧ Legacy.paramName env as[i]? = .ok b ∧ Legacy.paramName env' as'[i]? = .ok b := by
  rcases h with ⟨h1, h2⟩ | ⟨b, hb, h1, h2⟩
  · exact ⟨c!"x", hd, by rw [h1]; rfl, by rw [h2]; rfl⟩
  · exact ⟨b, hb, by rw [h1]; rfl, by rw [h2]; rfl⟩

theorem Setting.Par.tail {T : Setting} {a a' : _root_.Arg} {as as' : List _root_.Arg} {i : Nat} (h : T.Par (a :: as) (a' :: as') (i + 1)) : T.Par as as' i := by
  simpa [Setting.Par] using h

/-- What the higher-order function `name` needs of its parameter names. -/
def Setting.Pars (T : Setting) (name : Str) (as as' : List _root_.Arg) : Prop :=
  (name = c!"FILTER" ∨ name = c!"FIND" ∨ name = c!"MAP" → T.free c!"x" ∧ T.Par as as' 2) ∧
  (name = c!"REDUCE" → T.free c!"x" ∧ T.free c!"acc" ∧ T.Par as as' 3 ∧ T.Par as as' 4) ∧
  (name = c!"SUMIF" ∨ name = c!"AVGIF" ∨ name = c!"COUNTIF" → T.free c!"x")

theorem isSome_spread {a a' : Arg} (h : T.Arg a a') : a.spread.isSome = a'.spread.isSome := by
  have := h.spread
  cases h1 : a.spread <;> cases h2 : a'.spread <;> rw [h1, h2] at this <;> first | rfl | exact this.elim

theorem legacy_lambda {a a' : Arg} (h : T.Arg a a') : T.Lam (Legacy.lambda a) (Legacy.lambda a') := by
  intro e e' he
  unfold Legacy.lambda
  rw [isSome_spread h]
  exact Sim.ite (T.cong.refl _) (h.run _ _ _ he)

theorem staticCriterion {a a' : Arg} (h : T.Arg a a') (he : T.Env env env') : Eval.staticCriterion r env a = Eval.staticCriterion r env' a' := by
  unfold Eval.staticCriterion
  rcases h.run r _ _ he with h | ⟨m, n, _, _, h1, h2⟩
  · rw [h]
  · rw [h1, h2]; rfl

/-! ### The higher-order functions -/

theorem okBind {α β : Type} (v : α) (f : α → Res β) : ((Except.ok v : Res α) >>= f) = f v := rfl

theorem eval_higherOrder {as as' : List Arg} (h : T.Args as as') (he : T.Env env env') (X : Ext) (name : Str) (hp : T.Pars name as as')
    (f) (hf : Eval.higherOrder X name = some f) : T.cong.rel (f r env as) (f r env' as') := by
  have B := @Cong.bind T.cong
  unfold Eval.higherOrder at hf
  repeat' split at hf
  all_goals try (simp only [Option.some.injEq, reduceCtorEq] at hf; subst hf)
  · cases h with
    | nil => exact T.cong.refl _
    | cons h1 h =>
      cases h with
      | nil => exact T.cong.refl _
      | cons h2 h =>
        obtain ⟨hx, hp⟩ := hp.1 (by simp [*])
        obtain ⟨b, hb, e1, e2⟩ := eval_paramName hp.tail.tail hx r env env'
        rw [← List.head?_eq_getElem?] at e1 e2
        refine B (h1.run _ _ _ he) fun v => ?_
        rw [e1, e2, okBind, okBind]
        cases v <;> first | exact T.cong.refl _ | exact B (filter (h2.run none) hb he _) fun _ => T.cong.refl _
  · cases h with
    | nil => exact T.cong.refl _
    | cons h1 h =>
      cases h with
      | nil => exact T.cong.refl _
      | cons h2 h =>
        obtain ⟨hx, hp⟩ := hp.1 (by simp [*])
        obtain ⟨b, hb, e1, e2⟩ := eval_paramName hp.tail.tail hx r env env'
        rw [← List.head?_eq_getElem?] at e1 e2
        refine B (h1.run _ _ _ he) fun v => ?_
        rw [e1, e2, okBind, okBind]
        cases v <;> first | exact T.cong.refl _ | exact find (h2.run none) hb he _
  · cases h with
    | nil => exact T.cong.refl _
    | cons h1 h =>
      cases h with
      | nil => exact T.cong.refl _
      | cons h2 h =>
        obtain ⟨hx, hp⟩ := hp.1 (by simp [*])
        obtain ⟨b, hb, e1, e2⟩ := eval_paramName hp.tail.tail hx r env env'
        rw [← List.head?_eq_getElem?] at e1 e2
        refine B (h1.run _ _ _ he) fun v => ?_
        rw [e1, e2, okBind, okBind]
        cases v <;> first | exact T.cong.refl _ | exact B (map (h2.run none) hb he _) fun _ => T.cong.refl _
  · cases h with
    | nil => exact T.cong.refl _
    | cons h1 h =>
      cases h with
      | nil => exact T.cong.refl _
      | cons h2 h =>
        cases h with
        | nil => exact T.cong.refl _
        | cons h3 h =>
          obtain ⟨hx, hacc, hp, hq⟩ := hp.2.1 (by assumption)
          obtain ⟨b, hb, e1, e2⟩ := eval_paramName hp.tail.tail.tail hx r env env'
          obtain ⟨c, hc, e3, e4⟩ := eval_paramName hq.tail.tail.tail hacc r env env'
          rw [← List.head?_eq_getElem?] at e1 e2
          refine B (h1.run _ _ _ he) fun v => B (h3.run _ _ _ he) fun acc => ?_
          simp only [e1, e2, e3, e4, okBind]
          cases v <;> first | exact T.cong.refl _ | exact reduce (h2.run none) hb hc he acc _
  · have hx := hp.2.2 (by simp [*])
    cases h with
    | nil => exact T.cong.refl _
    | cons h1 h =>
      cases h with
      | nil => exact T.cong.refl _
      | cons h2 h =>
        cases h with
        | nil =>
          refine B (h1.run _ _ _ he) fun v => ?_
          dsimp only [Option.isSome]
          refine B (T.cong.refl _) fun s => ?_
          rw [staticCriterion h2 he]
          refine B (T.cong.refl _) fun c => ?_
          cases c with
          | some c => exact T.cong.refl _
          | none => cases v <;> first | exact T.cong.refl _ | exact B (sumif (h2.run none) hx he _ _) fun _ => T.cong.refl _
        | cons h3 h =>
          cases h with
          | cons _ _ => exact T.cong.refl _
          | nil =>
            refine B (h1.run _ _ _ he) fun v => ?_
            dsimp only [Option.isSome]
            refine B (h3.run _ _ _ he) fun s => ?_
            rw [staticCriterion h2 he]
            exact T.cong.refl _
  · have hx := hp.2.2 (by simp [*])
    cases h with
    | nil => exact T.cong.refl _
    | cons h1 h =>
      cases h with
      | nil => exact T.cong.refl _
      | cons h2 h =>
        cases h with
        | cons _ _ => exact T.cong.refl _
        | nil =>
          refine B (h1.run _ _ _ he) fun v => ?_
          cases v <;> first | exact T.cong.refl _ | exact B (avgif (h2.run none) hx he _ _ _) fun _ => T.cong.refl _
  · have hx := hp.2.2 (by simp [*])
    cases h with
    | nil => exact T.cong.refl _
    | cons h1 h =>
      cases h with
      | nil => exact T.cong.refl _
      | cons h2 h =>
        cases h with
        | cons _ _ => exact T.cong.refl _
        | nil =>
          refine B (h1.run _ _ _ he) fun v => ?_
          cases v <;> first | exact T.cong.refl _ | exact B (countif (h2.run none) hx he _ _) fun _ => T.cong.refl _
  · cases h with
    | nil => exact T.cong.refl _
    | cons h1 h =>
      cases h with
      | nil => exact T.cong.refl _
      | cons h2 h =>
        cases h with
        | cons _ _ => exact T.cong.refl _
        | nil => exact B (h1.run _ _ _ he) fun v => B (h2.run _ _ _ he) fun w => T.cong.refl _
  · simp at hf

theorem legacy_higherOrder {as as' : List Arg} (h : T.Args as as') (he : T.Env env env') (name : Str) (hp : T.Pars name as as')
    (f) (hf : Legacy.higherOrder name = some f) : T.cong.rel (f r env as) (f r env' as') := by
  have B := @Cong.bind T.cong
  unfold Legacy.higherOrder at hf
  repeat' split at hf
  all_goals try (simp only [Option.some.injEq, reduceCtorEq] at hf; subst hf)
  · obtain ⟨hx, hp⟩ := hp.1 (by simp [*])
    cases h with
    | nil => cases r <;> exact T.cong.refl _
    | cons h1 h =>
      cases h with
      | nil => cases r <;> exact T.cong.refl _
      | cons h2 h =>
        cases r with
        | none =>
          obtain ⟨b, hb, e1, e2⟩ := legacy_paramName hp.tail.tail hx env env'
          rw [← List.head?_eq_getElem?] at e1 e2
          refine B (h1.run _ _ _ he) fun v => ?_
          rw [e1, e2, okBind, okBind]
          cases v <;> first | exact T.cong.refl _ | exact B (filter (legacy_lambda h2) hb he _) fun _ => T.cong.refl _
        | some g =>
          refine B (h1.run _ _ _ he) fun v => ?_
          cases v <;> first | exact T.cong.refl _ | exact B (filter (h2.run _) hx he _) fun _ => T.cong.refl _
  · obtain ⟨hx, hp⟩ := hp.1 (by simp [*])
    cases h with
    | nil => cases r <;> exact T.cong.refl _
    | cons h1 h =>
      cases h with
      | nil => cases r <;> exact T.cong.refl _
      | cons h2 h =>
        cases r with
        | none =>
          obtain ⟨b, hb, e1, e2⟩ := legacy_paramName hp.tail.tail hx env env'
          rw [← List.head?_eq_getElem?] at e1 e2
          refine B (h1.run _ _ _ he) fun v => ?_
          rw [e1, e2, okBind, okBind]
          cases v <;> first | exact T.cong.refl _ | exact find (legacy_lambda h2) hb he _
        | some g =>
          refine B (h1.run _ _ _ he) fun v => ?_
          cases v <;> first | exact T.cong.refl _ | exact find (h2.run _) hx he _
  · obtain ⟨hx, hp⟩ := hp.1 (by simp [*])
    cases h with
    | nil => cases r <;> exact T.cong.refl _
    | cons h1 h =>
      cases h with
      | nil => cases r <;> exact T.cong.refl _
      | cons h2 h =>
        cases r with
        | none =>
          obtain ⟨b, hb, e1, e2⟩ := legacy_paramName hp.tail.tail hx env env'
          rw [← List.head?_eq_getElem?] at e1 e2
          refine B (h1.run _ _ _ he) fun v => ?_
          rw [e1, e2, okBind, okBind]
          cases v <;> first | exact T.cong.refl _ | exact B (map (legacy_lambda h2) hb he _) fun _ => T.cong.refl _
        | some g =>
          refine B (h1.run _ _ _ he) fun v => ?_
          cases v <;> first | exact T.cong.refl _ | exact B (map (h2.run _) hx he _) fun _ => T.cong.refl _
  · obtain ⟨hx, hacc, hp, hq⟩ := hp.2.1 (by assumption)
    cases h with
    | nil => cases r <;> exact T.cong.refl _
    | cons h1 h =>
      cases h with
      | nil => cases r <;> exact T.cong.refl _
      | cons h2 h =>
        cases h with
        | nil => cases r <;> exact T.cong.refl _
        | cons h3 h =>
          cases r with
          | none =>
            obtain ⟨b, hb, e1, e2⟩ := legacy_paramName hp.tail.tail.tail hx env env'
            obtain ⟨c, hc, e3, e4⟩ := legacy_paramName hq.tail.tail.tail hx env env'
            rw [← List.head?_eq_getElem?] at e1 e2
            refine B (h1.run _ _ _ he) fun v => B (h3.run _ _ _ he) fun acc => ?_
            unfold Legacy.paramNameOr
            simp only [e1, e2, e3, e4, okBind]
            cases v <;> first | exact T.cong.refl _ | exact reduce (legacy_lambda h2) hb hc he acc _
          | some g =>
            refine B (h1.run _ _ _ he) fun v => B (h3.run _ _ _ he) fun acc => ?_
            cases v <;> first | exact T.cong.refl _ | exact reduceAccFirst (h2.run _) hx hacc he acc _
  · have hx := hp.2.2 (by simp [*])
    cases h with
    | nil => exact T.cong.refl _
    | cons h1 h =>
      cases h with
      | nil => exact T.cong.refl _
      | cons h2 h =>
        cases h with
        | cons _ _ => exact T.cong.refl _
        | nil =>
          refine B (h1.run _ _ _ he) fun v => ?_
          cases v <;> first | exact T.cong.refl _ | exact B (sumif (h2.run _) hx he _ _) fun _ => T.cong.refl _
  · have hx := hp.2.2 (by simp [*])
    cases h with
    | nil => exact T.cong.refl _
    | cons h1 h =>
      cases h with
      | nil => exact T.cong.refl _
      | cons h2 h =>
        cases h with
        | cons _ _ => exact T.cong.refl _
        | nil =>
          refine B (h1.run _ _ _ he) fun v => ?_
          cases v <;> first | exact T.cong.refl _ | exact B (avgif (h2.run _) hx he _ _ _) fun _ => T.cong.refl _
  · have hx := hp.2.2 (by simp [*])
    cases h with
    | nil => exact T.cong.refl _
    | cons h1 h =>
      cases h with
      | nil => exact T.cong.refl _
      | cons h2 h =>
        cases h with
        | cons _ _ => exact T.cong.refl _
        | nil =>
          refine B (h1.run _ _ _ he) fun v => ?_
          cases v <;> first | exact T.cong.refl _ | exact B (countif (h2.run _) hx he _ _) fun _ => T.cong.refl _
  · simp at hf

/-! ### Methods with a lambda -/

theorem method_paramName {as as' : List Arg} (h : T.Args as as') (hl : ∀ a ∈ as, ∀ b, a.lit = some b → T.free b) {d : Str} (hd : T.free d) (i : Nat) :
    Method.paramName d as[i]? = Method.paramName d as'[i]? ∧ T.free (Method.paramName d as[i]?) := by
  induction h generalizing i with
  | nil => exact ⟨rfl, hd⟩
  | @cons a a' l l' h1 h ih =>
    cases i with
    | zero =>
      have := hl a (by simp)
      simp only [List.getElem?_cons_zero, Method.paramName, h1.lit]
      refine ⟨trivial, ?_⟩
      rw [h1.lit] at this
      cases hb : a'.lit with
      | none => exact hd
      | some b => exact this b hb
    | succ i => simpa using ih (fun a ha => hl a (by simp [ha])) i

theorem exec_lambda {as as' : List Arg} (h : T.Args as as') (he : T.Env env env') (X : Ext) (name : Str) (pred : Bool)
    (recv : Value) (hn : X.lower name ∈ Sim.lambdaNames) (hx : T.free c!"x") (hacc : X.lower name = c!"reduce" → T.free c!"acc")
    (hl : ∀ a ∈ as.tail, ∀ b, a.lit = some b → T.free b) :
    T.cong.rel (Method.exec X r env name pred recv as) (Method.exec X r env' name pred recv as') := by
  have B := @Cong.bind T.cong
  unfold Method.exec
  split
  · exact T.cong.refl _
  simp only
  split
  · exact T.cong.refl _
  · cases recv with
    | str s =>
      simp only [Method.onString]
      simp only [Sim.lambdaNames, List.mem_cons, List.not_mem_nil, or_false] at hn
      rcases hn with hn | hn | hn | hn <;> simp only [hn] <;> exact T.cong.refl _
    | arr items =>
      simp only [Sim.lambdaNames, List.mem_cons, List.not_mem_nil, or_false] at hn
      rcases hn with hn | hn | hn | hn <;> simp only [hn]
      · change T.cong.rel (Method.filter r env items as) (Method.filter r env' items as')
        cases h with
        | nil => exact T.cong.refl _
        | @cons a a' l l' h1 h =>
          obtain ⟨e, hf⟩ := method_paramName h hl hx 0
          rw [← List.head?_eq_getElem?, ← List.head?_eq_getElem?] at e
          rw [← List.head?_eq_getElem?] at hf
          simp only [Method.filter, ← e]
          exact B (filter (h1.run _) hf he items) fun _ => T.cong.refl _
      · change T.cong.rel (Method.map r env items as) (Method.map r env' items as')
        cases h with
        | nil => exact T.cong.refl _
        | @cons a a' l l' h1 h =>
          obtain ⟨e, hf⟩ := method_paramName h hl hx 0
          rw [← List.head?_eq_getElem?, ← List.head?_eq_getElem?] at e
          rw [← List.head?_eq_getElem?] at hf
          simp only [Method.map, ← e]
          exact B (map (h1.run _) hf he items) fun _ => T.cong.refl _
      · change T.cong.rel (Method.find r env items as) (Method.find r env' items as')
        cases h with
        | nil => exact T.cong.refl _
        | @cons a a' l l' h1 h =>
          obtain ⟨e, hf⟩ := method_paramName h hl hx 0
          rw [← List.head?_eq_getElem?, ← List.head?_eq_getElem?] at e
          rw [← List.head?_eq_getElem?] at hf
          simp only [Method.find, ← e]
          exact find (h1.run _) hf he items
      · change T.cong.rel (Method.reduce r env items as) (Method.reduce r env' items as')
        have hacc := hacc hn
        cases h with
        | nil => exact T.cong.refl _
        | @cons a a' l l' h1 h =>
          cases h with
          | nil => exact T.cong.refl _
          | @cons b b' l l' h2 h =>
            have hl' : ∀ a ∈ l, ∀ b, a.lit = some b → T.free b := fun a ha => hl a (by simp [ha])
            obtain ⟨e, hf⟩ := method_paramName h hl' hx 0
            obtain ⟨e2, hf2⟩ := method_paramName h hl' hacc 1
            rw [← List.head?_eq_getElem?, ← List.head?_eq_getElem?] at e
            rw [← List.head?_eq_getElem?] at hf
            simp only [Method.reduce, ← e, ← e2]
            exact B (h2.run _ _ _ he) fun acc => reduce (h1.run _) hf hf2 he acc items
    | num n =>
      simp only [Method.onNumber]
      simp only [Sim.lambdaNames, List.mem_cons, List.not_mem_nil, or_false] at hn
      rcases hn with hn | hn | hn | hn <;> simp only [hn] <;> exact T.cong.refl _
    | json s =>
      simp only [Method.onJson]
      simp only [Sim.lambdaNames, List.mem_cons, List.not_mem_nil, or_false] at hn
      rcases hn with hn | hn | hn | hn <;> simp only [hn] <;> exact T.cong.refl _
    | _ => exact T.cong.refl _

theorem exec_plain {as as' : List Arg} (h : T.Args as as') (he : T.Env env env') (X : Ext) (name : Str) (pred : Bool)
    (recv : Value) (hn : X.lower name ∉ Sim.lambdaNames) :
    T.cong.rel (Method.exec X r env name pred recv as) (Method.exec X r env' name pred recv as') :=
  Sim.exec_ev (h.imp fun _ _ h => h.run _ _ _ he) X name pred recv fun _ _ => hn

end Ren
