import Verif.Lemmas.Sim
/-! Two runs of a function call side by side (equal results). -/

namespace Sim

variable {E : EnvRel} {r r' : Option Registry} {env env' : Env}

theorem legacy_paramName {o o' : Option Arg} (h : Option.Rel (ArgRel Cong.eq E none none) o o') (he : E.rel env env') :
    Legacy.paramName env o = Legacy.paramName env' o' := by
  cases h with
  | none => rfl
  | some h =>
    simp only [Legacy.paramName]
    rw [show _ = _ from h.run env env' he]

theorem eval_paramName {o o' : Option Arg} (h : Option.Rel (ArgRel Cong.eq E r r') o o') (he : E.rel env env') (d : Str) :
    Eval.paramName r env d o = Eval.paramName r' env' d o' := by
  cases h with
  | none => rfl
  | some h =>
    simp only [Eval.paramName]
    rw [show _ = _ from h.run env env' he]

theorem at_index {as as' : List Arg} (h : ArgsRel Cong.eq E r r' as as') (i : Nat) :
    Option.Rel (ArgRel Cong.eq E r r') as[i]? as'[i]? := by
  induction h generalizing i with
  | nil => exact .none
  | cons h1 h ih =>
    cases i with
    | zero => exact .some h1
    | succ i => simpa using ih i

theorem at_head {as as' : List Arg} (h : ArgsRel Cong.eq E r r' as as') :
    Option.Rel (ArgRel Cong.eq E r r') as.head? as'.head? := by
  rw [List.head?_eq_getElem?, List.head?_eq_getElem?]; exact at_index h 0

theorem isSome_spread {a a' : Arg} (h : ArgRel Cong.eq E r r' a a') : a.spread.isSome = a'.spread.isSome := by
  have := h.spread
  cases h1 : a.spread <;> cases h2 : a'.spread <;> rw [h1, h2] at this <;> first | rfl | exact this.elim

theorem legacy_lambda {a a' : Arg} (h : ArgRel Cong.eq E none none a a') (e e' : Env) (he : E.rel e e') :
    Legacy.lambda a e = Legacy.lambda a' e' := by
  unfold Legacy.lambda
  rw [isSome_spread h, show _ = _ from h.run e e' he]

theorem legacy_higherOrder {as as' : List Arg} (h : ArgsRel Cong.eq E r r' as as') (he : E.rel env env')
    (hr : r.isSome = r'.isSome) (name : Str) (f) (hf : Legacy.higherOrder name = some f) : f r env as = f r' env' as' := by
  have bothNone : (r = none ∧ r' = none) ∨ ∃ g g', r = some g ∧ r' = some g' := by
    cases r <;> cases r' <;> simp_all
  unfold Legacy.higherOrder at hf
  repeat' split at hf
  all_goals try (simp only [Option.some.injEq, reduceCtorEq] at hf; subst hf)
  · cases h with
    | nil => rcases bothNone with ⟨rfl, rfl⟩ | ⟨g, g', rfl, rfl⟩ <;> rfl
    | cons h1 h =>
      cases h with
      | nil => rcases bothNone with ⟨rfl, rfl⟩ | ⟨g, g', rfl, rfl⟩ <;> rfl
      | cons h2 h =>
        rcases bothNone with ⟨rfl, rfl⟩ | ⟨g, g', rfl, rfl⟩
        · refine Cong.eq.bind (h1.run _ _ he) fun v => ?_
          rw [legacy_paramName (at_head h) he]
          refine Cong.eq.bind (Cong.eq.refl _) fun p => ?_
          cases v <;> first | rfl | exact Cong.eq.bind (filter (Q := Cong.eq) (legacy_lambda h2) p he _) fun _ => rfl
        · refine Cong.eq.bind (h1.run _ _ he) fun v => ?_
          cases v <;> first | rfl | exact Cong.eq.bind (filter h2.run _ he _) fun _ => rfl
  · cases h with
    | nil => rcases bothNone with ⟨rfl, rfl⟩ | ⟨g, g', rfl, rfl⟩ <;> rfl
    | cons h1 h =>
      cases h with
      | nil => rcases bothNone with ⟨rfl, rfl⟩ | ⟨g, g', rfl, rfl⟩ <;> rfl
      | cons h2 h =>
        rcases bothNone with ⟨rfl, rfl⟩ | ⟨g, g', rfl, rfl⟩
        · refine Cong.eq.bind (h1.run _ _ he) fun v => ?_
          rw [legacy_paramName (at_head h) he]
          refine Cong.eq.bind (Cong.eq.refl _) fun p => ?_
          cases v <;> first | rfl | exact find (Q := Cong.eq) (legacy_lambda h2) p he _
        · refine Cong.eq.bind (h1.run _ _ he) fun v => ?_
          cases v <;> first | rfl | exact find h2.run _ he _
  · cases h with
    | nil => rcases bothNone with ⟨rfl, rfl⟩ | ⟨g, g', rfl, rfl⟩ <;> rfl
    | cons h1 h =>
      cases h with
      | nil => rcases bothNone with ⟨rfl, rfl⟩ | ⟨g, g', rfl, rfl⟩ <;> rfl
      | cons h2 h =>
        rcases bothNone with ⟨rfl, rfl⟩ | ⟨g, g', rfl, rfl⟩
        · refine Cong.eq.bind (h1.run _ _ he) fun v => ?_
          rw [legacy_paramName (at_head h) he]
          refine Cong.eq.bind (Cong.eq.refl _) fun p => ?_
          cases v <;> first | rfl | exact Cong.eq.bind (map (Q := Cong.eq) (legacy_lambda h2) p he _) fun _ => rfl
        · refine Cong.eq.bind (h1.run _ _ he) fun v => ?_
          cases v <;> first | rfl | exact Cong.eq.bind (map h2.run _ he _) fun _ => rfl
  · cases h with
    | nil => rcases bothNone with ⟨rfl, rfl⟩ | ⟨g, g', rfl, rfl⟩ <;> rfl
    | cons h1 h =>
      cases h with
      | nil => rcases bothNone with ⟨rfl, rfl⟩ | ⟨g, g', rfl, rfl⟩ <;> rfl
      | cons h2 h =>
        cases h with
        | nil => rcases bothNone with ⟨rfl, rfl⟩ | ⟨g, g', rfl, rfl⟩ <;> rfl
        | cons h3 h =>
          rcases bothNone with ⟨rfl, rfl⟩ | ⟨g, g', rfl, rfl⟩
          · refine Cong.eq.bind (h1.run _ _ he) fun v => Cong.eq.bind (h3.run _ _ he) fun acc => ?_
            unfold Legacy.paramNameOr
            rw [legacy_paramName (at_head h) he, legacy_paramName (at_index h 1) he]
            refine Cong.eq.bind (Cong.eq.refl _) fun p => Cong.eq.bind (Cong.eq.refl _) fun q => ?_
            cases v <;> first | rfl | exact reduce (Q := Cong.eq) (legacy_lambda h2) p q he acc _
          · refine Cong.eq.bind (h1.run _ _ he) fun v => Cong.eq.bind (h3.run _ _ he) fun acc => ?_
            cases v <;> first | rfl | exact reduceAccFirst h2.run he acc _
  · cases h with
    | nil => rfl
    | cons h1 h =>
      cases h with
      | nil => rfl
      | cons h2 h =>
        cases h with
        | cons _ _ => rfl
        | nil =>
          refine Cong.eq.bind (h1.run _ _ he) fun v => ?_
          cases v <;> first | rfl | exact Cong.eq.bind (sumif h2.run he _ _) fun _ => rfl
  · cases h with
    | nil => rfl
    | cons h1 h =>
      cases h with
      | nil => rfl
      | cons h2 h =>
        cases h with
        | cons _ _ => rfl
        | nil =>
          refine Cong.eq.bind (h1.run _ _ he) fun v => ?_
          cases v <;> first | rfl | exact Cong.eq.bind (avgif h2.run he _ _ _) fun _ => rfl
  · cases h with
    | nil => rfl
    | cons h1 h =>
      cases h with
      | nil => rfl
      | cons h2 h =>
        cases h with
        | cons _ _ => rfl
        | nil =>
          refine Cong.eq.bind (h1.run _ _ he) fun v => ?_
          cases v <;> first | rfl | exact Cong.eq.bind (countif h2.run he _ _) fun _ => rfl
  · simp at hf

/-- The lambda argument of a higher-order function, run without registry, gives the same results. -/
def LambdaRel (E : EnvRel) (as as' : List Arg) : Prop :=
  ∀ a a', as[1]? = some a → as'[1]? = some a' → ∀ e e', E.rel e e' → a.run none e = a'.run none e'

theorem eval_higherOrder {as as' : List Arg} (h : ArgsRel Cong.eq E r r' as as') (hl : LambdaRel E as as') (he : E.rel env env')
    (X : Ext) (name : Str) (f) (hf : Eval.higherOrder X name = some f) : f r env as = f r' env' as' := by
  unfold Eval.higherOrder at hf
  repeat' split at hf
  all_goals try (simp only [Option.some.injEq, reduceCtorEq] at hf; subst hf)
  · cases h with
    | nil => rfl
    | cons h1 h =>
      cases h with
      | nil => rfl
      | cons h2 h =>
        refine Cong.eq.bind (h1.run _ _ he) fun v => ?_
        rw [eval_paramName (at_head h) he]
        refine Cong.eq.bind (Cong.eq.refl _) fun p => ?_
        cases v <;> first | rfl | exact Cong.eq.bind (filter (Q := Cong.eq) (hl _ _ rfl rfl) p he _) fun _ => rfl
  · cases h with
    | nil => rfl
    | cons h1 h =>
      cases h with
      | nil => rfl
      | cons h2 h =>
        refine Cong.eq.bind (h1.run _ _ he) fun v => ?_
        rw [eval_paramName (at_head h) he]
        refine Cong.eq.bind (Cong.eq.refl _) fun p => ?_
        cases v <;> first | rfl | exact find (Q := Cong.eq) (hl _ _ rfl rfl) p he _
  · cases h with
    | nil => rfl
    | cons h1 h =>
      cases h with
      | nil => rfl
      | cons h2 h =>
        refine Cong.eq.bind (h1.run _ _ he) fun v => ?_
        rw [eval_paramName (at_head h) he]
        refine Cong.eq.bind (Cong.eq.refl _) fun p => ?_
        cases v <;> first | rfl | exact Cong.eq.bind (map (Q := Cong.eq) (hl _ _ rfl rfl) p he _) fun _ => rfl
  · cases h with
    | nil => rfl
    | cons h1 h =>
      cases h with
      | nil => rfl
      | cons h2 h =>
        cases h with
        | nil => rfl
        | cons h3 h =>
          refine Cong.eq.bind (h1.run _ _ he) fun v => Cong.eq.bind (h3.run _ _ he) fun acc => ?_
          rw [eval_paramName (at_head h) he, eval_paramName (at_index h 1) he]
          refine Cong.eq.bind (Cong.eq.refl _) fun p => Cong.eq.bind (Cong.eq.refl _) fun q => ?_
          cases v <;> first | rfl | exact reduce (Q := Cong.eq) (hl _ _ rfl rfl) p q he acc _
  · have hs : ∀ {a a' : Arg}, ArgRel Cong.eq E r r' a a' → Eval.staticCriterion r env a = Eval.staticCriterion r' env' a' := by
      intro a a' h
      unfold Eval.staticCriterion
      rw [show _ = _ from h.run env env' he]
    cases h with
    | nil => rfl
    | cons h1 h =>
      cases h with
      | nil => rfl
      | cons h2 h =>
        cases h with
        | nil =>
          refine Cong.eq.bind (h1.run _ _ he) fun v => ?_
          dsimp only [Option.isSome]
          refine Cong.eq.bind (Cong.eq.refl _) fun s => ?_
          rw [hs h2]
          refine Cong.eq.bind (Cong.eq.refl _) fun c => ?_
          cases c with
          | some c => rfl
          | none => cases v <;> first | rfl | exact Cong.eq.bind (sumif (Q := Cong.eq) (hl _ _ rfl rfl) he _ _) fun _ => rfl
        | cons h3 h =>
          cases h with
          | cons _ _ => rfl
          | nil =>
            refine Cong.eq.bind (h1.run _ _ he) fun v => ?_
            dsimp only [Option.isSome]
            refine Cong.eq.bind (h3.run _ _ he) fun s => ?_
            rw [hs h2]
            rfl
  · cases h with
    | nil => rfl
    | cons h1 h =>
      cases h with
      | nil => rfl
      | cons h2 h =>
        cases h with
        | cons _ _ => rfl
        | nil =>
          refine Cong.eq.bind (h1.run _ _ he) fun v => ?_
          cases v <;> first | rfl | exact Cong.eq.bind (avgif (Q := Cong.eq) (hl _ _ rfl rfl) he _ _ _) fun _ => rfl
  · cases h with
    | nil => rfl
    | cons h1 h =>
      cases h with
      | nil => rfl
      | cons h2 h =>
        cases h with
        | cons _ _ => rfl
        | nil =>
          refine Cong.eq.bind (h1.run _ _ he) fun v => ?_
          cases v <;> first | rfl | exact Cong.eq.bind (countif (Q := Cong.eq) (hl _ _ rfl rfl) he _ _) fun _ => rfl
  · cases h with
    | nil => rfl
    | cons h1 h =>
      cases h with
      | nil => rfl
      | cons h2 h =>
        cases h with
        | cons _ _ => rfl
        | nil => exact Cong.eq.bind (h1.run _ _ he) fun v => Cong.eq.bind (h2.run _ _ he) fun w => rfl
  · simp at hf

end Sim
