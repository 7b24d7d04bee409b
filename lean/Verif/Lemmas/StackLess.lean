import Verif.Model.StackEval
import Verif.Lemmas.SimCall
/-! Evaluating with less stack gives the same or exhausts it: by comparing two runs side by side (`Verif.Lemmas.Sim`). -/

namespace Stack

/-- Equal, or the first has exhausted its stack. -/
def short : Cong where
  rel := fun a b => a = .error exhausted ∨ a = b
  refl := fun _ => .inr rfl
  bind := by
    rintro α β a b f g (rfl | rfl) h
    · exact .inl rfl
    · cases a with
      | ok v => exact h v
      | error e => exact .inr rfl

/-- The same variables. -/
def sameVars : EnvRel where
  rel := fun e e' => e = e'
  insert := by rintro e _ k v rfl; rfl

variable {r : Option Registry} {env : Env}

/-- Two arguments, the first with less stack. -/
def Fits (a a' : Arg) : Prop := ∀ r, ArgRel short sameVars r r a a'

abbrev AllFit := List.Forall₂ Fits

theorem AllFit.rel {as as' : List Arg} (h : AllFit as as') (r : Option Registry) : ArgsRel short sameVars r r as as' :=
  h.imp fun _ _ h => h r

theorem Fits.run {a a' : Arg} (h : Fits a a') (r : Option Registry) (env : Env) : short.rel (a.run r env) (a'.run r env) :=
  (h r).run env env rfl

theorem Fits.den {a a' : Arg} (h : Fits a a') (r : Option Registry) : ∀ e e', sameVars.rel e e' → short.rel (a.run r e) (a'.run r e') :=
  (h r).run

theorem fits_lambda {a a' : Arg} (h : Fits a a') (e e' : Env) (he : sameVars.rel e e') :
    short.rel (_root_.Legacy.lambda a e) (_root_.Legacy.lambda a' e') := by
  have hs := (h none).spread
  unfold _root_.Legacy.lambda
  cases h1 : a.spread with
  | none =>
    cases h2 : a'.spread with
    | none => exact (h none).run _ _ he
    | some _ => rw [h1, h2] at hs; exact hs.elim
  | some _ =>
    cases h2 : a'.spread with
    | none => rw [h1, h2] at hs; exact hs.elim
    | some _ => exact short.refl _

theorem legacy_name {as as' : List Arg} (h : AllFit as as') (i : Nat) :
    short.rel (_root_.Legacy.paramName env as[i]?) (_root_.Legacy.paramName env as'[i]?) := by
  induction h generalizing i with
  | nil => exact short.refl _
  | cons ha hl ih =>
    cases i with
    | zero => exact short.bind (ha.run none env) fun v => short.refl _
    | succ i => exact ih i

theorem name_fits {as as' : List Arg} (h : AllFit as as') (i : Nat) (d : Str) :
    short.rel (Eval.paramName r env d as[i]?) (Eval.paramName r env d as'[i]?) := by
  induction h generalizing i with
  | nil => exact short.refl _
  | cons ha hl ih =>
    cases i with
    | zero => exact short.bind (ha.run r env) fun v => short.refl _
    | succ i => exact ih i

theorem legacy_nameOr {as as' : List Arg} (h : AllFit as as') (i : Nat) (d : Str) :
    short.rel (_root_.Legacy.paramNameOr env d as[i]?) (_root_.Legacy.paramNameOr env d as'[i]?) := by
  unfold _root_.Legacy.paramNameOr
  rcases legacy_name (env := env) h i with h | h
  · rw [h]; exact .inl rfl
  · rw [h]; exact short.refl _

theorem static_fits {a a' : Arg} (h : Fits a a') :
    short.rel (Eval.staticCriterion r env a) (Eval.staticCriterion r env a') := by
  unfold Eval.staticCriterion
  rcases h.run r env with h | h
  · rw [h]; exact .inl rfl
  · rw [h]; exact short.refl _

theorem legacy_higher {as as' : List Arg} (h : AllFit as as') (name : Str) (f) (hf : _root_.Legacy.higherOrder name = some f) :
    short.rel (f r env as) (f r env as') := by
  have Qr : ∀ {α : Type} (x : Res α), short.rel x x := short.refl
  unfold _root_.Legacy.higherOrder at hf
  repeat' split at hf
  all_goals try (simp only [Option.some.injEq, reduceCtorEq] at hf; subst hf)
  · match as, as', h with
    | _, _, .nil => cases r <;> exact Qr _
    | _, _, .cons _ .nil => cases r <;> exact Qr _
    | _, _, .cons ha (.cons hl hrest) =>
      cases r with
      | none =>
        refine short.bind (ha.run none env) fun v => ?_
        rw [List.head?_eq_getElem?, List.head?_eq_getElem?]
        refine short.bind (legacy_name hrest 0) fun p => ?_
        cases v <;> first | exact Qr _ | exact short.bind (Sim.filter (fits_lambda hl) p rfl _) fun _ => Qr _
      | some g =>
        refine short.bind (ha.run (some g) env) fun v => ?_
        cases v <;> first | exact Qr _ | exact short.bind (Sim.filter (hl.den (some g)) _ rfl _) fun _ => Qr _
  · match as, as', h with
    | _, _, .nil => cases r <;> exact Qr _
    | _, _, .cons _ .nil => cases r <;> exact Qr _
    | _, _, .cons ha (.cons hl hrest) =>
      cases r with
      | none =>
        refine short.bind (ha.run none env) fun v => ?_
        rw [List.head?_eq_getElem?, List.head?_eq_getElem?]
        refine short.bind (legacy_name hrest 0) fun p => ?_
        cases v <;> first | exact Qr _ | exact Sim.find (fits_lambda hl) p rfl _
      | some g =>
        refine short.bind (ha.run (some g) env) fun v => ?_
        cases v <;> first | exact Qr _ | exact Sim.find (hl.den (some g)) _ rfl _
  · match as, as', h with
    | _, _, .nil => cases r <;> exact Qr _
    | _, _, .cons _ .nil => cases r <;> exact Qr _
    | _, _, .cons ha (.cons hl hrest) =>
      cases r with
      | none =>
        refine short.bind (ha.run none env) fun v => ?_
        rw [List.head?_eq_getElem?, List.head?_eq_getElem?]
        refine short.bind (legacy_name hrest 0) fun p => ?_
        cases v <;> first | exact Qr _ | exact short.bind (Sim.map (fits_lambda hl) p rfl _) fun _ => Qr _
      | some g =>
        refine short.bind (ha.run (some g) env) fun v => ?_
        cases v <;> first | exact Qr _ | exact short.bind (Sim.map (hl.den (some g)) _ rfl _) fun _ => Qr _
  · match as, as', h with
    | _, _, .nil => cases r <;> exact Qr _
    | _, _, .cons _ .nil => cases r <;> exact Qr _
    | _, _, .cons _ (.cons _ .nil) => cases r <;> exact Qr _
    | _, _, .cons ha (.cons hl (.cons hi hrest)) =>
      cases r with
      | none =>
        refine short.bind (ha.run none env) fun v => short.bind (hi.run none env) fun acc => ?_
        rw [List.head?_eq_getElem?, List.head?_eq_getElem?]
        refine short.bind (legacy_nameOr hrest 0 _) fun p => short.bind (legacy_nameOr hrest 1 _) fun q => ?_
        cases v <;> first | exact Qr _ | exact Sim.reduce (fits_lambda hl) p q rfl acc _
      | some g =>
        refine short.bind (ha.run (some g) env) fun v => short.bind (hi.run (some g) env) fun acc => ?_
        cases v <;> first | exact Qr _ | exact Sim.reduceAccFirst (hl.den (some g)) rfl acc _
  · match as, as', h with
    | _, _, .nil => exact Qr _
    | _, _, .cons _ .nil => exact Qr _
    | _, _, .cons _ (.cons _ (.cons _ _)) => exact Qr _
    | _, _, .cons ha (.cons hl .nil) =>
      refine short.bind (ha.run r env) fun v => ?_
      cases v <;> first | exact Qr _ | exact short.bind (Sim.sumif (hl.den r) rfl _ _) fun _ => Qr _
  · match as, as', h with
    | _, _, .nil => exact Qr _
    | _, _, .cons _ .nil => exact Qr _
    | _, _, .cons _ (.cons _ (.cons _ _)) => exact Qr _
    | _, _, .cons ha (.cons hl .nil) =>
      refine short.bind (ha.run r env) fun v => ?_
      cases v <;> first | exact Qr _ | exact short.bind (Sim.avgif (hl.den r) rfl _ _ _) fun _ => Qr _
  · match as, as', h with
    | _, _, .nil => exact Qr _
    | _, _, .cons _ .nil => exact Qr _
    | _, _, .cons _ (.cons _ (.cons _ _)) => exact Qr _
    | _, _, .cons ha (.cons hl .nil) =>
      refine short.bind (ha.run r env) fun v => ?_
      cases v <;> first | exact Qr _ | exact short.bind (Sim.countif (hl.den r) rfl _ _) fun _ => Qr _
  · simp at hf

theorem higher {as as' : List Arg} (h : AllFit as as') (X : Ext) (name : Str) (f) (hf : Eval.higherOrder X name = some f) :
    short.rel (f r env as) (f r env as') := by
  have Qr : ∀ {α : Type} (x : Res α), short.rel x x := short.refl
  unfold Eval.higherOrder at hf
  repeat' split at hf
  all_goals try (simp only [Option.some.injEq, reduceCtorEq] at hf; subst hf)
  · match as, as', h with
    | _, _, .nil => exact Qr _
    | _, _, .cons _ .nil => exact Qr _
    | _, _, .cons ha (.cons hl hrest) =>
      refine short.bind (ha.run r env) fun v => ?_
      rw [List.head?_eq_getElem?, List.head?_eq_getElem?]
      refine short.bind (name_fits hrest 0 _) fun p => ?_
      cases v <;> first | exact Qr _ | exact short.bind (Sim.filter (hl.den none) p rfl _) fun _ => Qr _
  · match as, as', h with
    | _, _, .nil => exact Qr _
    | _, _, .cons _ .nil => exact Qr _
    | _, _, .cons ha (.cons hl hrest) =>
      refine short.bind (ha.run r env) fun v => ?_
      rw [List.head?_eq_getElem?, List.head?_eq_getElem?]
      refine short.bind (name_fits hrest 0 _) fun p => ?_
      cases v <;> first | exact Qr _ | exact Sim.find (hl.den none) p rfl _
  · match as, as', h with
    | _, _, .nil => exact Qr _
    | _, _, .cons _ .nil => exact Qr _
    | _, _, .cons ha (.cons hl hrest) =>
      refine short.bind (ha.run r env) fun v => ?_
      rw [List.head?_eq_getElem?, List.head?_eq_getElem?]
      refine short.bind (name_fits hrest 0 _) fun p => ?_
      cases v <;> first | exact Qr _ | exact short.bind (Sim.map (hl.den none) p rfl _) fun _ => Qr _
  · match as, as', h with
    | _, _, .nil => exact Qr _
    | _, _, .cons _ .nil => exact Qr _
    | _, _, .cons _ (.cons _ .nil) => exact Qr _
    | _, _, .cons ha (.cons hl (.cons hi hrest)) =>
      refine short.bind (ha.run r env) fun v => short.bind (hi.run r env) fun acc => ?_
      rw [List.head?_eq_getElem?, List.head?_eq_getElem?]
      refine short.bind (name_fits hrest 0 _) fun p => short.bind (name_fits hrest 1 _) fun q => ?_
      cases v <;> first | exact Qr _ | exact Sim.reduce (hl.den none) p q rfl acc _
  · match as, as', h with
    | _, _, .nil => exact Qr _
    | _, _, .cons _ .nil => exact Qr _
    | _, _, .cons _ (.cons _ (.cons _ (.cons _ _))) => exact Qr _
    | _, _, .cons ha (.cons hl .nil) =>
      refine short.bind (ha.run r env) fun v => ?_
      dsimp only [Option.isSome]
      refine short.bind (Qr _) fun s => short.bind (static_fits hl) fun c => ?_
      cases c with
      | some c => exact Qr _
      | none => cases v <;> first | exact Qr _ | exact short.bind (Sim.sumif (hl.den none) rfl _ _) fun _ => Qr _
    | _, _, .cons ha (.cons hl (.cons hs .nil)) =>
      refine short.bind (ha.run r env) fun v => ?_
      dsimp only [Option.isSome]
      refine short.bind (hs.run r env) fun s => short.bind (Qr _) fun s => short.bind (static_fits hl) fun c => ?_
      cases c <;> exact Qr _
  · match as, as', h with
    | _, _, .nil => exact Qr _
    | _, _, .cons _ .nil => exact Qr _
    | _, _, .cons _ (.cons _ (.cons _ _)) => exact Qr _
    | _, _, .cons ha (.cons hl .nil) =>
      refine short.bind (ha.run r env) fun v => ?_
      cases v <;> first | exact Qr _ | exact short.bind (Sim.avgif (hl.den none) rfl _ _ _) fun _ => Qr _
  · match as, as', h with
    | _, _, .nil => exact Qr _
    | _, _, .cons _ .nil => exact Qr _
    | _, _, .cons _ (.cons _ (.cons _ _)) => exact Qr _
    | _, _, .cons ha (.cons hl .nil) =>
      refine short.bind (ha.run r env) fun v => ?_
      cases v <;> first | exact Qr _ | exact short.bind (Sim.countif (hl.den none) rfl _ _) fun _ => Qr _
  · match as, as', h with
    | _, _, .nil => exact Qr _
    | _, _, .cons _ .nil => exact Qr _
    | _, _, .cons _ (.cons _ (.cons _ _)) => exact Qr _
    | _, _, .cons ha (.cons hb .nil) => exact short.bind (ha.run r env) fun v => short.bind (hb.run r env) fun w => Qr _
  · simp at hf

theorem legacy_call {X : Ext} {as as' : List Arg} (h : AllFit as as') (name : Str) :
    short.rel (_root_.Legacy.call X name as r env) (_root_.Legacy.call X name as' r env) := by
  unfold _root_.Legacy.call
  have h2 : short.rel (evalArgs r env as) (evalArgs r env as') := Sim.evalArgs (h.rel r) rfl
  split
  · exact Sim.ternary (h.rel r) rfl
  split
  · exact short.bind h2 fun _ => short.refl _
  · split
    · rename_i f hf; exact legacy_higher h name f hf
    · exact short.bind h2 fun _ => short.refl _

theorem call_fits {X : Ext} {as as' : List Arg} (h : AllFit as as') (name : Str) :
    short.rel (Eval.call X name as r env) (Eval.call X name as' r env) := by
  unfold Eval.call
  have h2 : short.rel (evalArgs r env as) (evalArgs r env as') := Sim.evalArgs (h.rel r) rfl
  split
  · exact Sim.ternary (h.rel r) rfl
  split
  · exact short.refl _
  split
  · exact short.refl _
  split
  · exact short.bind h2 fun _ => short.refl _
  · split
    · rename_i f hf; exact higher h X name f hf
    · exact short.bind h2 fun _ => short.refl _

theorem exec_fits {X : Ext} {as as' : List Arg} (h : AllFit as as') (n : Str) (p : Bool) (v : Value) :
    short.rel (Method.exec X r env n p v as) (Method.exec X r env n p v as') := by
  by_cases hn : X.lower n ∈ Sim.lambdaNames
  · exact Sim.exec_lambda (h.rel r) rfl X n p v hn
  · exact Sim.exec_plain (h.rel none) rfl X n p v hn

/-- Two optional operands, the first with less stack. -/
def OptFits (o o' : Option Den) : Prop := match o, o' with
  | none, none => True
  | some d, some d' => ∀ r env, short.rel (d r env) (d' r env)
  | _, _ => False

theorem opt_fits {o o' : Option Den} (h : OptFits o o') :
    short.rel (_root_.Legacy.optional r env o) (_root_.Legacy.optional r env o') := by
  cases o <;> cases o' <;> first | exact h.elim | exact short.refl _ | exact short.bind (h r env) fun _ => short.refl _

theorem bound_fits {o o' : Option Den} (h : OptFits o o') (len dflt : Int) (err : String) :
    short.rel (_root_.Legacy.boundCustom r env len dflt err o) (_root_.Legacy.boundCustom r env len dflt err o') := by
  cases o <;> cases o' <;> first | exact h.elim | exact short.refl _ | exact short.bind (h r env) fun _ => short.refl _

theorem take_le {α : Type} {d d' : Nat} (h : d ≤ d') (x : Res α) : short.rel (take d x) (take d' x) := by
  unfold take
  by_cases h0 : d = 0
  · rw [if_pos h0]; exact .inl rfl
  · rw [if_neg h0, if_neg (by omega)]; exact .inr rfl

mutual
theorem legacy_le (X : Ext) : (e : Expr) → ∀ (d d' : Nat), d ≤ d' → ∀ r env, short.rel (Legacy.eval X e d r env) (Legacy.eval X e d' r env)
  | .number _, 0, _, _, _, _ | .strLit _, 0, _, _, _, _ | .null, 0, _, _, _, _ | .var _, 0, _, _, _, _ | .unary .., 0, _, _, _, _
  | .binary .., 0, _, _, _, _ | .prop .., 0, _, _, _, _ | .safeProp .., 0, _, _, _, _ | .safeCall .., 0, _, _, _, _
  | .array .., 0, _, _, _, _ | .object .., 0, _, _, _, _ | .cast .., 0, _, _, _, _ | .index .., 0, _, _, _, _
  | .slice .., 0, _, _, _, _ | .call .., 0, _, _, _, _ | .method .., 0, _, _, _, _ | .spread .., 0, _, _, _, _
  | .assign .., 0, _, _, _, _ | .seq .., 0, _, _, _, _ => by simp only [Legacy.eval]; exact .inl rfl
  | _, _ + 1, 0, h, _, _ => by omega
  | .number _, d + 1, d' + 1, h, r, env | .strLit _, d + 1, d' + 1, h, r, env | .null, d + 1, d' + 1, h, r, env
  | .spread _, d + 1, d' + 1, h, r, env | .var _, d + 1, d' + 1, h, r, env => by
    simp only [Legacy.eval]; exact short.refl _
  | .unary _ e, d + 1, d' + 1, h, r, env => by
    have h : d ≤ d' := by omega
    simp only [Legacy.eval]; exact short.bind (legacy_le X e d d' h r env) fun _ => short.refl _
  | .prop e _, d + 1, d' + 1, h, r, env => by
    have h : d ≤ d' := by omega
    simp only [Legacy.eval]; exact short.bind (legacy_le X e d d' h r env) fun _ => short.refl _
  | .safeProp e _, d + 1, d' + 1, h, r, env => by
    have h : d ≤ d' := by omega
    simp only [Legacy.eval]; exact short.bind (legacy_le X e d d' h r env) fun _ => short.refl _
  | .cast e _, d + 1, d' + 1, h, r, env => by
    have h : d ≤ d' := by omega
    simp only [Legacy.eval]; exact short.bind (legacy_le X e d d' h r env) fun _ => short.refl _
  | .assign _ e, d + 1, d' + 1, h, r, env => by
    have h : d ≤ d' := by omega
    simp only [Legacy.eval]; exact (legacy_le X e d d' h r env)
  | .binary a _ c, d + 1, d' + 1, h, r, env => by
    have h : d ≤ d' := by omega
    simp only [Legacy.eval]
    exact short.bind (legacy_le X a d d' h r env) fun _ => short.bind (legacy_le X c d d' h r env) fun _ => short.refl _
  | .index a c, d + 1, d' + 1, h, r, env => by
    have h : d ≤ d' := by omega
    simp only [Legacy.eval]
    exact short.bind (legacy_le X a d d' h r env) fun _ => short.bind (legacy_le X c d d' h r env) fun _ => short.refl _
  | .call n es, d + 1, d' + 1, h, r, env => by
    have h : d ≤ d' := by omega
    simp only [Legacy.eval]; exact legacy_call (legacy_args_le X es d d' h) n
  | .array es, d + 1, d' + 1, h, r, env => by
    have h : d ≤ d' := by omega
    simp only [Legacy.eval]; exact short.bind (Sim.elements ((legacy_args_le X es d d' h).rel r) rfl) fun _ => short.refl _
  | .seq es, d + 1, d' + 1, h, r, env => by
    have h : d ≤ d' := by omega
    simp only [Legacy.eval]; exact Sim.lastOf ((legacy_args_le X es d d' h).rel r) rfl .null
  | .object ms, d + 1, d' + 1, h, r, env => by
    have h : d ≤ d' := by omega
    simp only [Legacy.eval]; exact short.bind (Sim.objectMembers X (legacy_members_le X ms d d' h r) rfl []) fun _ => short.refl _
  | .safeCall t n es, d + 1, d' + 1, h, r, env => by
    have h : d ≤ d' := by omega
    simp only [Legacy.eval]
    refine short.bind (legacy_le X t d d' h r env) fun v => ?_
    cases v <;> first | exact short.refl _ | exact exec_fits (legacy_args_le X es d d' h) n false _
  | .method t n es p, d + 1, d' + 1, h, r, env => by
    have h : d ≤ d' := by omega
    simp only [Legacy.eval]
    exact short.bind (legacy_le X t d d' h r env) fun v => exec_fits (legacy_args_le X es d d' h) n p v
  | .slice t a c, d + 1, d' + 1, h, r, env => by
    have h : d ≤ d' := by omega
    have ha := legacy_opt_le X a d d' h
    have hc := legacy_opt_le X c d d' h
    simp only [Legacy.eval]
    refine short.bind (legacy_le X t d d' h r env) fun v => ?_
    cases r with
    | none => cases v <;> first | exact short.refl _ | exact short.bind (opt_fits ha) fun _ => short.bind (opt_fits hc) fun _ => short.refl _
    | some g =>
      cases v <;> first | exact short.refl _ | exact short.bind (bound_fits ha _ _ _) fun _ => short.bind (bound_fits hc _ _ _) fun _ => short.refl _
theorem legacy_args_le (X : Ext) : (es : List Expr) → ∀ (d d' : Nat), d ≤ d' → AllFit (Legacy.argsOf X es d) (Legacy.argsOf X es d')
  | [], d, d', h => by simp only [Legacy.argsOf]; exact .nil
  | e :: rest, d, d', h => by
    have hrest := legacy_args_le X rest d d' h
    have he := legacy_le X e d d' h
    cases e with
    | spread e =>
      have h1 := legacy_le X e d d' h
      rw [Legacy.argsOf, Legacy.argsOf]
      exact .cons (fun r => ⟨by rintro env _ rfl; exact take_le h _, rfl, by rintro env _ rfl; exact h1 r env⟩) hrest
    | strLit s =>
      rw [Legacy.argsOf, Legacy.argsOf]
      exact .cons (fun r => ⟨by rintro env _ rfl; exact take_le h _, rfl, trivial⟩) hrest
    | _ =>
      rw [Legacy.argsOf, Legacy.argsOf]
      · exact .cons (fun r => ⟨by rintro env _ rfl; exact he r env, rfl, trivial⟩) hrest
      all_goals simp
theorem legacy_members_le (X : Ext) : (ms : List (Str × Expr)) → ∀ (d d' : Nat), d ≤ d' → ∀ r,
    List.Forall₂ (fun m m' => m.1 = m'.1 ∧ DenRel short sameVars r r m.2 m'.2) (Legacy.membersOf X ms d) (Legacy.membersOf X ms d')
  | [], d, d', h, r => by simp only [Legacy.membersOf]; exact .nil
  | (k, e) :: rest, d, d', h, r => by
    have h1 := legacy_le X e d d' h
    have h2 := legacy_members_le X rest d d' h r
    simp only [Legacy.membersOf]
    exact .cons ⟨rfl, by rintro env _ rfl; exact h1 r env⟩ h2
theorem legacy_opt_le (X : Ext) : (o : Option Expr) → ∀ (d d' : Nat), d ≤ d' → OptFits (Legacy.optOf X o d) (Legacy.optOf X o d')
  | none, d, d', h => by simp only [Legacy.optOf]; exact trivial
  | some e, d, d', h => by
    have h1 := legacy_le X e d d' h
    simp only [Legacy.optOf]; exact h1
end

mutual
theorem eval_le (X : Ext) : (e : Expr) → ∀ (d d' : Nat), d ≤ d' → ∀ r env, short.rel (eval X e d r env) (eval X e d' r env)
  | .number _, 0, _, _, _, _ | .strLit _, 0, _, _, _, _ | .null, 0, _, _, _, _ | .var _, 0, _, _, _, _ | .unary .., 0, _, _, _, _
  | .binary .., 0, _, _, _, _ | .prop .., 0, _, _, _, _ | .safeProp .., 0, _, _, _, _ | .safeCall .., 0, _, _, _, _
  | .array .., 0, _, _, _, _ | .object .., 0, _, _, _, _ | .cast .., 0, _, _, _, _ | .index .., 0, _, _, _, _
  | .slice .., 0, _, _, _, _ | .call .., 0, _, _, _, _ | .method .., 0, _, _, _, _ | .spread .., 0, _, _, _, _
  | .assign .., 0, _, _, _, _ | .seq .., 0, _, _, _, _ => by simp only [eval]; exact .inl rfl
  | _, _ + 1, 0, h, _, _ => by omega
  | .number _, d + 1, d' + 1, h, r, env | .strLit _, d + 1, d' + 1, h, r, env | .null, d + 1, d' + 1, h, r, env
  | .spread _, d + 1, d' + 1, h, r, env | .var _, d + 1, d' + 1, h, r, env => by
    simp only [eval]; exact short.refl _
  | .unary _ e, d + 1, d' + 1, h, r, env => by
    have h : d ≤ d' := by omega
    simp only [eval]; exact short.bind (eval_le X e d d' h r env) fun _ => short.refl _
  | .prop e _, d + 1, d' + 1, h, r, env => by
    have h : d ≤ d' := by omega
    simp only [eval]; exact short.bind (eval_le X e d d' h r env) fun _ => short.refl _
  | .safeProp e _, d + 1, d' + 1, h, r, env => by
    have h : d ≤ d' := by omega
    simp only [eval]; exact short.bind (eval_le X e d d' h r env) fun _ => short.refl _
  | .cast e _, d + 1, d' + 1, h, r, env => by
    have h : d ≤ d' := by omega
    simp only [eval]; exact short.bind (eval_le X e d d' h r env) fun _ => short.refl _
  | .assign _ e, d + 1, d' + 1, h, r, env => by
    have h : d ≤ d' := by omega
    simp only [eval]; exact (eval_le X e d d' h r env)
  | .binary a _ c, d + 1, d' + 1, h, r, env => by
    have h : d ≤ d' := by omega
    simp only [eval]
    exact short.bind (eval_le X a d d' h r env) fun _ => short.bind (eval_le X c d d' h r env) fun _ => short.refl _
  | .index a c, d + 1, d' + 1, h, r, env => by
    have h : d ≤ d' := by omega
    simp only [eval]
    exact short.bind (eval_le X a d d' h r env) fun _ => short.bind (eval_le X c d d' h r env) fun _ => short.refl _
  | .call n es, d + 1, d' + 1, h, r, env => by
    have h : d ≤ d' := by omega
    simp only [eval]; exact call_fits (args_le X es d d' h) n
  | .array es, d + 1, d' + 1, h, r, env => by
    have h : d ≤ d' := by omega
    simp only [eval]; exact short.bind (Sim.elements ((args_le X es d d' h).rel r) rfl) fun _ => short.refl _
  | .seq es, d + 1, d' + 1, h, r, env => by
    have h : d ≤ d' := by omega
    simp only [eval]; exact Sim.lastOf ((args_le X es d d' h).rel r) rfl .null
  | .object ms, d + 1, d' + 1, h, r, env => by
    have h : d ≤ d' := by omega
    simp only [eval]; exact short.bind (Sim.objectMembers X (members_le X ms d d' h r) rfl []) fun _ => short.refl _
  | .safeCall t n es, d + 1, d' + 1, h, r, env => by
    have h : d ≤ d' := by omega
    simp only [eval]
    refine short.bind (eval_le X t d d' h r env) fun v => ?_
    cases v <;> first | exact short.refl _ | exact exec_fits (legacy_args_le X es d d' h) n false _
  | .method t n es p, d + 1, d' + 1, h, r, env => by
    have h : d ≤ d' := by omega
    simp only [eval]
    exact short.bind (eval_le X t d d' h r env) fun v => exec_fits (legacy_args_le X es d d' h) n p v
  | .slice t a c, d + 1, d' + 1, h, r, env => by
    have h : d ≤ d' := by omega
    have ha := opt_le X a d d' h
    have hc := opt_le X c d d' h
    simp only [eval]
    refine short.bind (eval_le X t d d' h r env) fun v => ?_
    cases v <;> first | exact short.refl _ | exact short.bind (opt_fits ha) fun _ => short.bind (opt_fits hc) fun _ => short.refl _
theorem args_le (X : Ext) : (es : List Expr) → ∀ (d d' : Nat), d ≤ d' → AllFit (argsOf X es d) (argsOf X es d')
  | [], d, d', h => by simp only [argsOf]; exact .nil
  | e :: rest, d, d', h => by
    have hrest := args_le X rest d d' h
    have he := eval_le X e d d' h
    cases e with
    | spread e =>
      have h1 := eval_le X e d d' h
      rw [argsOf, argsOf]
      exact .cons (fun r => ⟨by rintro env _ rfl; exact take_le h _, rfl, by rintro env _ rfl; exact h1 r env⟩) hrest
    | strLit s =>
      rw [argsOf, argsOf]
      exact .cons (fun r => ⟨by rintro env _ rfl; exact take_le h _, rfl, trivial⟩) hrest
    | _ =>
      rw [argsOf, argsOf]
      · exact .cons (fun r => ⟨by rintro env _ rfl; exact he r env, rfl, trivial⟩) hrest
      all_goals simp
theorem members_le (X : Ext) : (ms : List (Str × Expr)) → ∀ (d d' : Nat), d ≤ d' → ∀ r,
    List.Forall₂ (fun m m' => m.1 = m'.1 ∧ DenRel short sameVars r r m.2 m'.2) (membersOf X ms d) (membersOf X ms d')
  | [], d, d', h, r => by simp only [membersOf]; exact .nil
  | (k, e) :: rest, d, d', h, r => by
    have h1 := eval_le X e d d' h
    have h2 := members_le X rest d d' h r
    simp only [membersOf]
    exact .cons ⟨rfl, by rintro env _ rfl; exact h1 r env⟩ h2
theorem opt_le (X : Ext) : (o : Option Expr) → ∀ (d d' : Nat), d ≤ d' → OptFits (optOf X o d) (optOf X o d')
  | none, d, d', h => by simp only [optOf]; exact trivial
  | some e, d, d', h => by
    have h1 := eval_le X e d d' h
    simp only [optOf]; exact h1
end

mutual
theorem assignments_le (X : Ext) {d d' : Nat} (h : d ≤ d') : (e : Expr) → ∀ env,
    short.rel (assignments X d e env) (assignments X d' e env)
  | .assign _ e, env => by
    simp only [assignments]; exact short.bind (eval_le X e d d' h none env) fun _ => short.refl _
  | .seq es, env => by
    simp only [assignments]; exact assignmentsSeq_le X h es .null env
  | .number x0, env => by
    simp only [assignments]; exact short.bind (eval_le X (.number x0) d d' h none env) fun _ => short.refl _
  | .strLit x0, env => by
    simp only [assignments]; exact short.bind (eval_le X (.strLit x0) d d' h none env) fun _ => short.refl _
  | .null, env => by
    simp only [assignments]; exact short.bind (eval_le X .null d d' h none env) fun _ => short.refl _
  | .var x0, env => by
    simp only [assignments]; exact short.bind (eval_le X (.var x0) d d' h none env) fun _ => short.refl _
  | .unary x0 x1, env => by
    simp only [assignments]; exact short.bind (eval_le X (.unary x0 x1) d d' h none env) fun _ => short.refl _
  | .binary x0 x1 x2, env => by
    simp only [assignments]; exact short.bind (eval_le X (.binary x0 x1 x2) d d' h none env) fun _ => short.refl _
  | .prop x0 x1, env => by
    simp only [assignments]; exact short.bind (eval_le X (.prop x0 x1) d d' h none env) fun _ => short.refl _
  | .safeProp x0 x1, env => by
    simp only [assignments]; exact short.bind (eval_le X (.safeProp x0 x1) d d' h none env) fun _ => short.refl _
  | .safeCall x0 x1 x2, env => by
    simp only [assignments]; exact short.bind (eval_le X (.safeCall x0 x1 x2) d d' h none env) fun _ => short.refl _
  | .call x0 x1, env => by
    simp only [assignments]; exact short.bind (eval_le X (.call x0 x1) d d' h none env) fun _ => short.refl _
  | .spread x0, env => by
    simp only [assignments]; exact short.bind (eval_le X (.spread x0) d d' h none env) fun _ => short.refl _
  | .array x0, env => by
    simp only [assignments]; exact short.bind (eval_le X (.array x0) d d' h none env) fun _ => short.refl _
  | .object x0, env => by
    simp only [assignments]; exact short.bind (eval_le X (.object x0) d d' h none env) fun _ => short.refl _
  | .method x0 x1 x2 x3, env => by
    simp only [assignments]; exact short.bind (eval_le X (.method x0 x1 x2 x3) d d' h none env) fun _ => short.refl _
  | .index x0 x1, env => by
    simp only [assignments]; exact short.bind (eval_le X (.index x0 x1) d d' h none env) fun _ => short.refl _
  | .slice x0 x1 x2, env => by
    simp only [assignments]; exact short.bind (eval_le X (.slice x0 x1 x2) d d' h none env) fun _ => short.refl _
  | .cast x0 x1, env => by
    simp only [assignments]; exact short.bind (eval_le X (.cast x0 x1) d d' h none env) fun _ => short.refl _
theorem assignmentsSeq_le (X : Ext) {d d' : Nat} (h : d ≤ d') : (es : List Expr) → ∀ v env,
    short.rel (assignmentsSeq X d es v env) (assignmentsSeq X d' es v env)
  | [], v, env => by simp only [assignmentsSeq]; exact short.refl _
  | e :: rest, v, env => by
    simp only [assignmentsSeq]
    exact short.bind (assignments_le X h e env) fun p => assignmentsSeq_le X h rest p.1 p.2
end

end Stack
