import Verif.Lemmas.Rename
import Verif.Base.KernelRfl
import Mathlib.Tactic.FinCases
/-! C117: variables and lambda parameters can be renamed. -/

open Spec

namespace Ren

variable {T : Setting} {r : Option Registry} {env env' : _root_.Env}

theorem renameList_eq (ρ : Str → Str) (es : List Expr) : renameList ρ es = es.map (rename ρ) := by
  induction es with
  | nil => rfl
  | cons e es ih => simp [renameList, ih]

theorem eval_lit (X : Ext) (b : Str) : Eval.argOf X (.strLit b) = litArg b := by simp [Eval.argOf, litArg, Eval.eval]
theorem legacy_lit (X : Ext) (b : Str) : Legacy.argOf X (.strLit b) = litArg b := by simp [Legacy.argOf, litArg, Legacy.eval]

/-- The texts that name parameters, none of them touched. -/
def Setting.Untouched (T : Setting) (ps : List Expr) : Prop := ∀ p ∈ ps, ∃ b, p = .strLit b ∧ T.free b

theorem Setting.Untouched.left {a b : List Expr} (h : T.Untouched (a ++ b)) : T.Untouched a := fun p hp => h p (by simp [hp])
theorem Setting.Untouched.right {a b : List Expr} (h : T.Untouched (a ++ b)) : T.Untouched b := fun p hp => h p (by simp [hp])

theorem Setting.Untouched.name {b : Str} {ps : List Expr} (h : T.Untouched ps) (hb : .strLit b ∈ ps) : T.free b := by
  obtain ⟨c, hc, hf⟩ := h _ hb
  cases hc
  exact hf

theorem par_of {f : Expr → Arg} (hf : ∀ b, f (.strLit b) = litArg b) {es : List Expr} {i : Nat} (h : T.Untouched es[i]?.toList) :
    T.Par (es.map f) ((renameList T.ρ es).map f) i := by
  unfold Setting.Par
  rw [renameList_eq]
  simp only [List.getElem?_map, Option.map_map]
  cases he : es[i]? with
  | none => exact .inl ⟨rfl, rfl⟩
  | some p =>
    rw [he] at h
    obtain ⟨b, rfl, hb⟩ := h p (by simp)
    exact .inr ⟨b, hb, by simp [hf], by simp [rename, hf]⟩

theorem pars_of {f : Expr → Arg} (hf : ∀ b, f (.strLit b) = litArg b) {n : Str} {es : List Expr} (h : T.Untouched (callParams n es)) :
    T.Pars n (es.map f) ((renameList T.ρ es).map f) := by
  unfold callParams at h
  refine ⟨fun hn => ?_, fun hn => ?_, fun hn => ?_⟩
  · rw [if_pos hn] at h
    exact ⟨h.name (by simp), par_of hf fun p hp => h p (by simp [hp])⟩
  · subst hn
    rw [if_neg (by decide), if_pos rfl] at h
    exact ⟨h.name (by simp), h.name (by simp), par_of hf fun p hp => h p (by simp only [List.mem_cons, List.mem_append]; exact .inr (.inr (.inl hp))),
      par_of hf fun p hp => h p (by simp only [List.mem_cons, List.mem_append]; exact .inr (.inr (.inr hp)))⟩
  · have h1 : ¬(n = c!"FILTER" ∨ n = c!"FIND" ∨ n = c!"MAP") := by rcases hn with rfl | rfl | rfl <;> decide
    have h2 : n ≠ c!"REDUCE" := by rcases hn with rfl | rfl | rfl <;> decide
    rw [if_neg h1, if_neg h2, if_pos hn] at h
    exact h.name (by simp)

theorem eval_call {as as' : List Arg} (h : T.Args as as') (he : T.Env env env') (X : Ext) (n : Str) (hp : T.Pars n as as') :
    T.cong.rel (Eval.call X n as r env) (Eval.call X n as' r env') := by
  unfold Eval.call
  refine Sim.ite (ternary h he) (Sim.ite (T.cong.refl _) (Sim.ite (T.cong.refl _) ?_))
  split
  · exact T.cong.bind (evalArgs h he) fun _ => T.cong.refl _
  · split
    · rename_i f hf; exact eval_higherOrder h he X n hp f hf
    · exact T.cong.bind (evalArgs h he) fun _ => T.cong.refl _

theorem legacy_call {as as' : List Arg} (h : T.Args as as') (he : T.Env env env') (X : Ext) (n : Str) (hp : T.Pars n as as') :
    T.cong.rel (Legacy.call X n as r env) (Legacy.call X n as' r env') := by
  unfold Legacy.call
  refine Sim.ite (ternary h he) ?_
  split
  · exact T.cong.bind (evalArgs h he) fun _ => T.cong.refl _
  · split
    · rename_i f hf; exact legacy_higherOrder h he n hp f hf
    · exact T.cong.bind (evalArgs h he) fun _ => T.cong.refl _

theorem exec (X : Ext) {es : List Expr} (h : T.Args (Legacy.argsOf X es) (Legacy.argsOf X (renameList T.ρ es))) (he : T.Env env env') (n : Str) (p : Bool) (v : Value)
    (hp : T.Untouched (methodParams X n es)) :
    T.cong.rel (Method.exec X r env n p v (Legacy.argsOf X es)) (Method.exec X r env' n p v (Legacy.argsOf X (renameList T.ρ es))) := by
  by_cases hn : X.lower n ∈ Sim.lambdaNames
  · have hlit : T.Untouched ((es.drop 1).filter isText) → ∀ a ∈ (Legacy.argsOf X es).tail, ∀ b, a.lit = some b → T.free b := by
      intro hu a ha b hb
      rw [Legacy.argsOf_eq, ← List.map_tail] at ha
      obtain ⟨e, he, rfl⟩ := List.mem_map.1 ha
      cases e with
      | strLit s =>
        simp only [Legacy.argOf, Option.some.injEq] at hb
        subst hb
        exact hu.name (List.mem_filter.2 ⟨by simpa using he, rfl⟩)
      | _ => simp [Legacy.argOf] at hb
    unfold methodParams at hp
    simp only [Sim.lambdaNames, List.mem_cons, List.not_mem_nil, or_false] at hn
    by_cases h1 : X.lower n = c!"filter" ∨ X.lower n = c!"find" ∨ X.lower n = c!"map"
    · rw [if_pos h1] at hp
      refine exec_lambda h he X n p v (by simp only [Sim.lambdaNames, List.mem_cons, List.not_mem_nil, or_false]; exact hn) (hp.name (by simp))
        (fun h2 => ?_) (hlit fun q hq => hp q (by simp only [List.mem_cons]; exact .inr hq))
      rw [h2] at h1
      exact absurd h1 (by decide)
    · have h2 : X.lower n = c!"reduce" := by
        rcases hn with h | h | h | h
        · exact absurd (.inl h) h1
        · exact absurd (.inr (.inr h)) h1
        · exact absurd (.inr (.inl h)) h1
        · exact h
      rw [if_neg h1, if_pos h2] at hp
      exact exec_lambda h he X n p v (by simp only [Sim.lambdaNames, List.mem_cons, List.not_mem_nil, or_false]; exact hn) (hp.name (by simp))
        (fun _ => hp.name (by simp)) (hlit fun q hq => hp q (by simp only [List.mem_cons]; exact .inr (.inr hq)))
  · exact exec_plain h he X n p v hn

theorem var_missing {n : Str} (hv : T.occurs n) (he : T.Env env env') {m : String} (hm : isMissing m) :
    T.cong.rel (match env n with | some v => .ok v | none => fail m [n] : Res Value) (match env' (T.ρ n) with | some v => .ok v | none => fail m [T.ρ n]) := by
  rw [he.same n hv]
  cases h : env n with
  | some v => exact T.cong.refl _
  | none => exact .inr ⟨m, n, hm, he.none n h, rfl, rfl⟩

mutual
theorem legacy_rename (X : Ext) (e : Expr) (hv : ∀ n ∈ vars e, T.occurs n) (hp : T.Untouched (params X e)) :
    T.Den (Legacy.eval X e) (Legacy.eval X (rename T.ρ e)) := by
  intro r env env' he
  have B := @Cong.bind T.cong
  cases e with
  | number _ => simp only [Legacy.eval, rename]; exact T.cong.refl _
  | strLit _ => simp only [Legacy.eval, rename]; exact T.cong.refl _
  | null => simp only [Legacy.eval, rename]; exact T.cong.refl _
  | spread _ => simp only [Legacy.eval, rename]; exact T.cong.refl _
  | var n =>
    simp only [Legacy.eval, rename]
    have hn := hv n (by simp [vars])
    cases r with
    | none => exact var_missing hn he (.inl rfl)
    | some g => exact var_missing hn he (.inr rfl)
  | unary op e => simp only [Legacy.eval, rename]; exact B (legacy_rename X e hv hp r _ _ he) fun _ => T.cong.refl _
  | prop e n => simp only [Legacy.eval, rename]; exact B (legacy_rename X e hv hp r _ _ he) fun _ => T.cong.refl _
  | safeProp e n => simp only [Legacy.eval, rename]; exact B (legacy_rename X e hv hp r _ _ he) fun _ => T.cong.refl _
  | cast e t => simp only [Legacy.eval, rename]; exact B (legacy_rename X e hv hp r _ _ he) fun _ => T.cong.refl _
  | assign x e => simp only [Legacy.eval, rename]; exact legacy_rename X e hv hp r _ _ he
  | binary a op b =>
    simp only [vars, List.mem_append] at hv; simp only [params] at hp
    simp only [Legacy.eval, rename]
    exact B (legacy_rename X a (fun n hn => hv n (.inl hn)) hp.left r _ _ he) fun _ =>
      B (legacy_rename X b (fun n hn => hv n (.inr hn)) hp.right r _ _ he) fun _ => T.cong.refl _
  | index a b =>
    simp only [vars, List.mem_append] at hv; simp only [params] at hp
    simp only [Legacy.eval, rename]
    exact B (legacy_rename X a (fun n hn => hv n (.inl hn)) hp.left r _ _ he) fun _ =>
      B (legacy_rename X b (fun n hn => hv n (.inr hn)) hp.right r _ _ he) fun _ => T.cong.refl _
  | call n es =>
    simp only [params] at hp
    simp only [Legacy.eval, rename]
    refine legacy_call (legacy_args X es hv hp.right) he X n ?_
    rw [Legacy.argsOf_eq, Legacy.argsOf_eq]
    exact pars_of (legacy_lit X) hp.left
  | array es =>
    simp only [Legacy.eval, rename]
    exact B (elements (legacy_args X es hv hp) he) fun _ => T.cong.refl _
  | seq es =>
    simp only [Legacy.eval, rename]
    exact lastOf (legacy_args X es hv hp) he .null
  | object ms =>
    simp only [Legacy.eval, rename]
    exact B (objectMembers X (legacy_members X ms hv hp) he []) fun _ => T.cong.refl _
  | safeCall t n es =>
    simp only [vars, List.mem_append] at hv; simp only [params] at hp
    simp only [Legacy.eval, rename]
    refine B (legacy_rename X t (fun n hn => hv n (.inl hn)) hp.left r _ _ he) fun v => ?_
    have := fun v => exec (r := r) X (legacy_args X es (fun n hn => hv n (.inr hn)) hp.right.right) he n false v hp.right.left
    cases v <;> first | exact T.cong.refl _ | exact this _
  | method t n es p =>
    simp only [vars, List.mem_append] at hv; simp only [params] at hp
    simp only [Legacy.eval, rename]
    exact B (legacy_rename X t (fun n hn => hv n (.inl hn)) hp.left r _ _ he) fun v =>
      exec X (legacy_args X es (fun n hn => hv n (.inr hn)) hp.right.right) he n p v hp.right.left
  | slice t a b =>
    simp only [vars, List.mem_append] at hv; simp only [params] at hp
    have ha := legacy_opt X a (fun n hn => hv n (.inl (.inr hn))) hp.right.left
    have hb := legacy_opt X b (fun n hn => hv n (.inr hn)) hp.right.right
    simp only [Legacy.eval, rename]
    refine B (legacy_rename X t (fun n hn => hv n (.inl (.inl hn))) hp.left r _ _ he) fun v => ?_
    cases r with
    | none =>
      cases v <;> first
        | exact T.cong.refl _
        | exact B (optional ha he) fun _ => B (optional hb he) fun _ => T.cong.refl _
    | some g =>
      cases v <;> first
        | exact T.cong.refl _
        | exact B (boundCustom ha he _ _ _) fun _ => B (boundCustom hb he _ _ _) fun _ => T.cong.refl _
theorem legacy_args (X : Ext) (es : List Expr) (hv : ∀ n ∈ varsList es, T.occurs n) (hp : T.Untouched (paramsList X es)) :
    T.Args (Legacy.argsOf X es) (Legacy.argsOf X (renameList T.ρ es)) := by
  cases es with
  | nil => simp only [Legacy.argsOf, renameList]; exact .nil
  | cons e es =>
    simp only [varsList, List.mem_append] at hv; simp only [paramsList] at hp
    simp only [renameList]
    rw [Legacy.argsOf_cons, Legacy.argsOf_cons]
    refine .cons ?_ (legacy_args X es (fun n hn => hv n (.inr hn)) hp.right)
    have hrun := legacy_rename X e (fun n hn => hv n (.inl hn)) hp.left
    cases e with
    | spread e =>
      refine ⟨hrun, rfl, ?_⟩
      exact legacy_rename X e (fun n hn => hv n (.inl hn)) hp.left
    | _ => exact ⟨hrun, rfl, trivial⟩
theorem legacy_members (X : Ext) (ms : List (Str × Expr)) (hv : ∀ n ∈ varsMembers ms, T.occurs n) (hp : T.Untouched (paramsMembers X ms)) :
    List.Forall₂ (fun m m' => m.1 = m'.1 ∧ T.Den m.2 m'.2) (Legacy.membersOf X ms) (Legacy.membersOf X (renameMembers T.ρ ms)) := by
  cases ms with
  | nil => simp only [Legacy.membersOf, renameMembers]; exact .nil
  | cons m ms =>
    obtain ⟨k, e⟩ := m
    simp only [varsMembers, List.mem_append] at hv; simp only [paramsMembers] at hp
    simp only [Legacy.membersOf, renameMembers]
    exact .cons ⟨rfl, legacy_rename X e (fun n hn => hv n (.inl hn)) hp.left⟩ (legacy_members X ms (fun n hn => hv n (.inr hn)) hp.right)
theorem legacy_opt (X : Ext) (o : Option Expr) (hv : ∀ n ∈ varsOpt o, T.occurs n) (hp : T.Untouched (paramsOpt X o)) :
    T.Opt (Legacy.optOf X o) (Legacy.optOf X (renameOpt T.ρ o)) := by
  cases o with
  | none => simp only [Legacy.optOf, renameOpt]; trivial
  | some e => simp only [Legacy.optOf, renameOpt]; exact legacy_rename X e hv hp
end

mutual
theorem eval_rename (X : Ext) (e : Expr) (hv : ∀ n ∈ vars e, T.occurs n) (hp : T.Untouched (params X e)) :
    T.Den (Eval.eval X e) (Eval.eval X (rename T.ρ e)) := by
  intro r env env' he
  have B := @Cong.bind T.cong
  cases e with
  | number _ => simp only [Eval.eval, rename]; exact T.cong.refl _
  | strLit _ => simp only [Eval.eval, rename]; exact T.cong.refl _
  | null => simp only [Eval.eval, rename]; exact T.cong.refl _
  | spread _ => simp only [Eval.eval, rename]; exact T.cong.refl _
  | var n =>
    simp only [Eval.eval, rename]
    exact var_missing (hv n (by simp [vars])) he (.inl rfl)
  | unary op e => simp only [Eval.eval, rename]; exact B (eval_rename X e hv hp r _ _ he) fun _ => T.cong.refl _
  | prop e n => simp only [Eval.eval, rename]; exact B (eval_rename X e hv hp r _ _ he) fun _ => T.cong.refl _
  | safeProp e n => simp only [Eval.eval, rename]; exact B (eval_rename X e hv hp r _ _ he) fun _ => T.cong.refl _
  | cast e t => simp only [Eval.eval, rename]; exact B (eval_rename X e hv hp r _ _ he) fun _ => T.cong.refl _
  | assign x e => simp only [Eval.eval, rename]; exact eval_rename X e hv hp r _ _ he
  | binary a op b =>
    simp only [vars, List.mem_append] at hv; simp only [params] at hp
    simp only [Eval.eval, rename]
    exact B (eval_rename X a (fun n hn => hv n (.inl hn)) hp.left r _ _ he) fun _ =>
      B (eval_rename X b (fun n hn => hv n (.inr hn)) hp.right r _ _ he) fun _ => T.cong.refl _
  | index a b =>
    simp only [vars, List.mem_append] at hv; simp only [params] at hp
    simp only [Eval.eval, rename]
    exact B (eval_rename X a (fun n hn => hv n (.inl hn)) hp.left r _ _ he) fun _ =>
      B (eval_rename X b (fun n hn => hv n (.inr hn)) hp.right r _ _ he) fun _ => T.cong.refl _
  | call n es =>
    simp only [params] at hp
    simp only [Eval.eval, rename]
    refine eval_call (eval_args X es hv hp.right) he X n ?_
    rw [Eval.argsOf_eq, Eval.argsOf_eq]
    exact pars_of (eval_lit X) hp.left
  | array es =>
    simp only [Eval.eval, rename]
    exact B (elements (eval_args X es hv hp) he) fun _ => T.cong.refl _
  | seq es =>
    simp only [Eval.eval, rename]
    exact lastOf (eval_args X es hv hp) he .null
  | object ms =>
    simp only [Eval.eval, rename]
    exact B (objectMembers X (eval_members X ms hv hp) he []) fun _ => T.cong.refl _
  | safeCall t n es =>
    simp only [vars, List.mem_append] at hv; simp only [params] at hp
    simp only [Eval.eval, rename]
    refine B (eval_rename X t (fun n hn => hv n (.inl hn)) hp.left r _ _ he) fun v => ?_
    have := fun v => exec (r := r) X (legacy_args X es (fun n hn => hv n (.inr hn)) hp.right.right) he n false v hp.right.left
    cases v <;> first | exact T.cong.refl _ | exact this _
  | method t n es p =>
    simp only [vars, List.mem_append] at hv; simp only [params] at hp
    simp only [Eval.eval, rename]
    exact B (eval_rename X t (fun n hn => hv n (.inl hn)) hp.left r _ _ he) fun v =>
      exec X (legacy_args X es (fun n hn => hv n (.inr hn)) hp.right.right) he n p v hp.right.left
  | slice t a b =>
    simp only [vars, List.mem_append] at hv; simp only [params] at hp
    have ha := eval_opt X a (fun n hn => hv n (.inl (.inr hn))) hp.right.left
    have hb := eval_opt X b (fun n hn => hv n (.inr hn)) hp.right.right
    simp only [Eval.eval, rename]
    refine B (eval_rename X t (fun n hn => hv n (.inl (.inl hn))) hp.left r _ _ he) fun v => ?_
    cases v <;> first
      | exact T.cong.refl _
      | exact B (optional ha he) fun _ => B (optional hb he) fun _ => T.cong.refl _
theorem eval_args (X : Ext) (es : List Expr) (hv : ∀ n ∈ varsList es, T.occurs n) (hp : T.Untouched (paramsList X es)) :
    T.Args (Eval.argsOf X es) (Eval.argsOf X (renameList T.ρ es)) := by
  cases es with
  | nil => simp only [Eval.argsOf, renameList]; exact .nil
  | cons e es =>
    simp only [varsList, List.mem_append] at hv; simp only [paramsList] at hp
    simp only [renameList]
    rw [Eval.argsOf_cons, Eval.argsOf_cons]
    refine .cons ?_ (eval_args X es (fun n hn => hv n (.inr hn)) hp.right)
    have hrun := eval_rename X e (fun n hn => hv n (.inl hn)) hp.left
    cases e with
    | spread e =>
      refine ⟨hrun, rfl, ?_⟩
      exact eval_rename X e (fun n hn => hv n (.inl hn)) hp.left
    | _ => exact ⟨hrun, rfl, trivial⟩
theorem eval_members (X : Ext) (ms : List (Str × Expr)) (hv : ∀ n ∈ varsMembers ms, T.occurs n) (hp : T.Untouched (paramsMembers X ms)) :
    List.Forall₂ (fun m m' => m.1 = m'.1 ∧ T.Den m.2 m'.2) (Eval.membersOf X ms) (Eval.membersOf X (renameMembers T.ρ ms)) := by
  cases ms with
  | nil => simp only [Eval.membersOf, renameMembers]; exact .nil
  | cons m ms =>
    obtain ⟨k, e⟩ := m
    simp only [varsMembers, List.mem_append] at hv; simp only [paramsMembers] at hp
    simp only [Eval.membersOf, renameMembers]
    exact .cons ⟨rfl, eval_rename X e (fun n hn => hv n (.inl hn)) hp.left⟩ (eval_members X ms (fun n hn => hv n (.inr hn)) hp.right)
theorem eval_opt (X : Ext) (o : Option Expr) (hv : ∀ n ∈ varsOpt o, T.occurs n) (hp : T.Untouched (paramsOpt X o)) :
    T.Opt (Eval.optOf X o) (Eval.optOf X (renameOpt T.ρ o)) := by
  cases o with
  | none => simp only [Eval.optOf, renameOpt]; trivial
  | some e => simp only [Eval.optOf, renameOpt]; exact eval_rename X e hv hp
end

end Ren

/-! ### Variables -/

/-- The same value or the same error; or both fail because a variable without value is read, which is reported under its new name. -/
def Spec.SameRenamed {α : Type} (ρ : Str → Str) (env : Env) (a b : Res α) : Prop :=
  a = b ∨ ∃ m n, (m = "Missing variable: :{}" ∨ m = "Undefined variable: {}") ∧ env n = none ∧ a = fail m [n] ∧ b = fail m [ρ n]

/-- The renaming neither moves `b` nor moves another of the names onto it. -/
def Spec.Untouched (ρ : Str → Str) (names : List Str) (b : Str) : Prop := ∀ n ∈ names, ρ n = b ↔ n = b

/-- **C117.** Renaming the variables of an expression, and the variables it is given, changes nothing: the same value or the same error. Names that its
lambdas bind must stay, and must be written as texts. -/
theorem C117_rename (X : Ext) (ρ : Str → Str) (e : Expr) (env env' : Env) (h : ∀ n ∈ vars e, env' (ρ n) = env n)
    (hp : ∀ p ∈ params X e, ∃ b, p = .strLit b ∧ Untouched ρ (vars e) b) (reg : Registry) :
    SameRenamed ρ env (evalVars X e env) (evalVars X (rename ρ e) env') ∧ SameRenamed ρ env (evalCustom X reg e env) (evalCustom X reg (rename ρ e) env') := by
  have H := Ren.eval_rename (T := ⟨ρ, (· ∈ vars e), fun k => env k = none⟩) X e (fun _ hn => hn) hp
  exact ⟨H none env env' ⟨h, fun _ hk => hk⟩, H (some reg) env env' ⟨h, fun _ hk => hk⟩⟩

mutual
/-- The variables a program assigns at its top level. -/
def Spec.targets : Expr → List Str
  | .assign x _ => [x]
  | .seq es => targetsList es
  | _ => []
/-- Of statements. -/
def Spec.targetsList : List Expr → List Str
  | [] => []
  | e :: es => targets e ++ targetsList es
end

namespace Ren

/-- Two outcomes of a program. -/
def Setting.Out (T : Setting) (a b : Res (Value × _root_.Env)) : Prop :=
  match a, b with
  | .ok (v, e), .ok (v', e') => v = v' ∧ T.Env e e'
  | .error f, .error g => T.cong.rel (α := Value) (.error f) (.error g)
  | _, _ => False

variable {T : Setting}

theorem Setting.Env.assign {env env' : _root_.Env} {x : Str} (hx : ∀ k, T.occurs k → T.ρ k = T.ρ x → k = x) (v : Value) (h : T.Env env env') :
    T.Env (env.insert x v) (env'.insert (T.ρ x) v) := by
  refine ⟨fun k hk => ?_, fun k hk => ?_⟩
  · by_cases hkx : k = x
    · subst hkx; simp [_root_.Env.insert]
    · have h2 : T.ρ k ≠ T.ρ x := fun h => hkx (hx k hk h)
      simp only [_root_.Env.insert, if_neg hkx, if_neg h2]
      exact h.same k hk
  · by_cases hkx : k = x
    · subst hkx; simp [_root_.Env.insert] at hk
    · simp only [_root_.Env.insert, if_neg hkx] at hk
      exact h.none k hk

theorem out_value {a b : Res Value} {env env' : _root_.Env} (h : T.cong.rel a b) (he : T.Env env env') :
    T.Out (do return (← a, env)) (do return (← b, env')) := by
  rcases h with rfl | ⟨m, n, hm, hn, rfl, rfl⟩
  · cases a with
    | ok v => exact ⟨rfl, he⟩
    | error f => exact T.cong.refl _
  · exact .inr ⟨m, n, hm, hn, rfl, rfl⟩

mutual
theorem assignments (X : Ext) (e : Expr) (hv : ∀ n ∈ vars e, T.occurs n) (hp : T.Untouched (params X e))
    (ht : ∀ x ∈ targets e, ∀ k, T.occurs k → T.ρ k = T.ρ x → k = x) (env env' : _root_.Env) (he : T.Env env env') :
    T.Out (Eval.assignments X e env) (Eval.assignments X (rename T.ρ e) env') := by
  cases e with
  | assign x e =>
    simp only [Eval.assignments, rename]
    rcases eval_rename X e hv hp none env env' he with h | ⟨m, n, hm, hn, h1, h2⟩
    · rw [← h]
      cases Eval.eval X e none env with
      | error f => exact T.cong.refl _
      | ok v => exact ⟨rfl, he.assign (ht x (by simp [targets])) v⟩
    · rw [h1, h2]; exact .inr ⟨m, n, hm, hn, rfl, rfl⟩
  | seq es =>
    simp only [Eval.assignments, rename]
    exact assignmentsSeq X es hv hp ht .null env env' he
  | _ =>
    have := eval_rename X _ hv hp none env env' he
    simp only [Eval.assignments, rename] at this ⊢
    exact out_value this he
theorem assignmentsSeq (X : Ext) (es : List Expr) (hv : ∀ n ∈ varsList es, T.occurs n) (hp : T.Untouched (paramsList X es))
    (ht : ∀ x ∈ targetsList es, ∀ k, T.occurs k → T.ρ k = T.ρ x → k = x) (last : Value) (env env' : _root_.Env) (he : T.Env env env') :
    T.Out (Eval.assignmentsSeq X es last env) (Eval.assignmentsSeq X (renameList T.ρ es) last env') := by
  cases es with
  | nil => simp only [Eval.assignmentsSeq, renameList]; exact ⟨rfl, he⟩
  | cons e es =>
    simp only [varsList, List.mem_append] at hv; simp only [paramsList] at hp; simp only [targetsList, List.mem_append] at ht
    simp only [Eval.assignmentsSeq, renameList]
    have h1 := assignments X e (fun n hn => hv n (.inl hn)) hp.left (fun x hx => ht x (.inl hx)) env env' he
    cases e1 : Eval.assignments X e env with
    | error f =>
      cases e2 : Eval.assignments X (rename T.ρ e) env' with
      | error f' => rw [e1, e2] at h1; exact h1
      | ok p => rw [e1, e2] at h1; exact h1.elim
    | ok p =>
      cases e2 : Eval.assignments X (rename T.ρ e) env' with
      | error f' => rw [e1, e2] at h1; exact h1.elim
      | ok p' =>
        rw [e1, e2] at h1
        obtain ⟨v, en⟩ := p
        obtain ⟨v', en'⟩ := p'
        obtain ⟨rfl, hen⟩ := h1
        exact assignmentsSeq X es (fun n hn => hv n (.inr hn)) hp.right (fun x hx => ht x (.inr hx)) v en en' hen
end

end Ren

/-- **C117 for programs.** Renaming the variables of a program, assigned ones included, gives the same value or error, and afterwards every variable has
under its new name the value it has under the old one. Two names must not become one. -/
theorem C117_program (X : Ext) (ρ : Str → Str) (e : Expr) (env env' : Env) (h : ∀ n ∈ vars e ++ targets e, env' (ρ n) = env n)
    (hinj : ∀ m ∈ vars e ++ targets e, ∀ n ∈ vars e ++ targets e, ρ m = ρ n → m = n)
    (hp : ∀ p ∈ params X e, ∃ b, p = .strLit b ∧ Untouched ρ (vars e ++ targets e) b) :
    match evalAssignCtx X e env, evalAssignCtx X (rename ρ e) env' with
    | .ok (v, after), .ok (v', after') => v = v' ∧ ∀ n ∈ vars e ++ targets e, after' (ρ n) = after n
    | .error f, .error f' => SameRenamed (α := Value) ρ env (.error f) (.error f')
    | _, _ => False := by
  have := Ren.assignments (T := ⟨ρ, (· ∈ vars e ++ targets e), fun k => env k = none⟩) X e (fun _ hn => List.mem_append_left _ hn) hp
    (fun x hx k hk h => hinj k hk x (List.mem_append_right _ hx) h) env env' ⟨h, fun _ hk => hk⟩
  unfold evalAssignCtx
  revert this
  cases Eval.assignments X e env <;> cases Eval.assignments X (rename ρ e) env' <;> intro h
  · exact h
  · exact h
  · exact h
  · exact ⟨h.1, h.2.same⟩

/-! ### Lambda parameters -/

/-- `p` becomes `q`, all else stays. -/
def Spec.oneName (p q : Str) : Str → Str := fun n => if n = p then q else n

/-- `p` becomes `q` and `a` becomes `b`, all else stays. -/
def Spec.twoNames (p q a b : Str) : Str → Str := fun n => if n = p then q else if n = a then b else n

namespace Ren

/-- The run of a lambda whose parameter `p` was renamed to `q`. -/
def one (p q : Str) : Setting := ⟨oneName p q, fun k => k = p ∨ k ≠ q, fun k => k ≠ p⟩

/-- The run of a lambda whose parameters `p` and `a` were renamed to `q` and `b`. -/
def two (p q a b : Str) : Setting := ⟨twoNames p q a b, fun k => k = p ∨ k = a ∨ (k ≠ q ∧ k ≠ b), fun k => k ≠ p ∧ k ≠ a⟩

/-- Equal but for the names given. -/
def Outside (ns : List Str) (e e' : Env) : Prop := ∀ k, k ∉ ns → e k = e' k

theorem one_free {p q b : Str} (h1 : b ≠ p) (h2 : b ≠ q) : (one p q).free b := by
  intro j _
  simp only [one, oneName]
  by_cases hj : j = p
  · subst hj; simp [h1.symm, h2.symm]
  · rw [if_neg hj]

theorem two_free {p q a b c : Str} (h1 : c ≠ p) (h2 : c ≠ q) (h3 : c ≠ a) (h4 : c ≠ b) : (two p q a b).free c := by
  intro j _
  simp only [two, twoNames]
  by_cases hj : j = p
  · subst hj; simp [h1.symm, h2.symm]
  · rw [if_neg hj]
    by_cases hj : j = a
    · subst hj; simp [h3.symm, h4.symm]
    · rw [if_neg hj]

theorem one_env {p q : Str} {e e' : Env} (h : Outside [p, q] e e') (v : Value) : (one p q).Env (e.insert p v) (e'.insert q v) := by
  refine ⟨fun k hk => ?_, fun k hk => ?_⟩
  · simp only [one, oneName] at hk ⊢
    by_cases hkp : k = p
    · subst hkp; simp [Env.insert]
    · have hkq : k ≠ q := hk.resolve_left hkp
      simp only [if_neg hkp, Env.insert, if_neg hkq]
      exact (h k (by simp [hkp, hkq])).symm
  · rintro rfl
    simp [Env.insert] at hk

theorem one_outside {p q : Str} {e e' : Env} (h : Outside [p, q] e e') (v : Value) : Outside [p, q] (e.insert p v) (e'.insert q v) := by
  intro k hk
  have h' := h k hk
  simp only [List.mem_cons, List.not_mem_nil, or_false, not_or] at hk
  simp only [Env.insert, if_neg hk.1, if_neg hk.2, h']

theorem two_env {p q a b : Str} (hpa : p ≠ a) (hqb : q ≠ b) {e e' : Env} (h : Outside [p, q, a, b] e e') (v w : Value) :
    (two p q a b).Env ((e.insert p v).insert a w) ((e'.insert q v).insert b w) := by
  refine ⟨fun k hk => ?_, fun k hk => ?_⟩
  · simp only [two, twoNames] at hk ⊢
    by_cases hkp : k = p
    · subst hkp; simp [Env.insert, hpa, hqb]
    · by_cases hka : k = a
      · subst hka; simp [Env.insert, hkp]
      · have hkq := (hk.resolve_left hkp).resolve_left hka
        simp only [if_neg hkp, if_neg hka, Env.insert, if_neg hkq.1, if_neg hkq.2]
        exact (h k (by simp [hkp, hka, hkq.1, hkq.2])).symm
  · constructor
    · rintro rfl; simp [Env.insert, hpa] at hk
    · rintro rfl; simp [Env.insert] at hk

theorem two_outside {p q a b : Str} {e e' : Env} (h : Outside [p, q, a, b] e e') (v w : Value) :
    Outside [p, q, a, b] ((e.insert p v).insert a w) ((e'.insert q v).insert b w) := by
  intro k hk
  have h' := h k hk
  simp only [List.mem_cons, List.not_mem_nil, or_false, not_or] at hk
  simp only [Env.insert, if_neg hk.1, if_neg hk.2.1, if_neg hk.2.2.1, if_neg hk.2.2.2, h']

theorem one_eq {p q : Str} {α : Type} {a b : Res α} (h : (one p q).cong.rel a b) : a = b := by
  rcases h with h | ⟨m, n, _, hn, rfl, rfl⟩
  · exact h
  · have : (one p q).ρ n = n := if_neg hn
    rw [this]

theorem two_eq {p q a b : Str} {α : Type} {x y : Res α} (h : (two p q a b).cong.rel x y) : x = y := by
  rcases h with h | ⟨m, n, _, hn, rfl, rfl⟩
  · exact h
  · have : (two p q a b).ρ n = n := by simp only [two, twoNames]; rw [if_neg hn.1, if_neg hn.2]
    rw [this]

/-- A lambda and its renaming, one parameter. -/
def Lam1 (p q : Str) (l l' : Env → Res Value) : Prop := ∀ e e', Outside [p, q] e e' → ∀ v, l (e.insert p v) = l' (e'.insert q v)

/-- A lambda and its renaming, two parameters. -/
def Lam2 (p q a b : Str) (l l' : Env → Res Value) : Prop :=
  ∀ e e', Outside [p, q, a, b] e e' → ∀ v w, l ((e.insert p v).insert a w) = l' ((e'.insert q v).insert b w)

variable {p q a b : Str} {l l' : Env → Res Value} {e e' : Env}

theorem filter1 (h : Lam1 p q l l') (he : Outside [p, q] e e') (items : List Value) : Loop.filter l p e items = Loop.filter l' q e' items := by
  induction items generalizing e e' with
  | nil => rfl
  | cons v vs ih => simp only [Loop.filter, h _ _ he v, ih (one_outside he v)]

theorem map1 (h : Lam1 p q l l') (he : Outside [p, q] e e') (items : List Value) : Loop.map l p e items = Loop.map l' q e' items := by
  induction items generalizing e e' with
  | nil => rfl
  | cons v vs ih => simp only [Loop.map, h _ _ he v, ih (one_outside he v)]

theorem find1 (h : Lam1 p q l l') (he : Outside [p, q] e e') (items : List Value) : Loop.find l p e items = Loop.find l' q e' items := by
  induction items generalizing e e' with
  | nil => rfl
  | cons v vs ih => simp only [Loop.find, h _ _ he v, ih (one_outside he v)]

theorem reduce2 (h : Lam2 p q a b l l') (he : Outside [p, q, a, b] e e') (acc : Value) (items : List Value) :
    Loop.reduce l p a e acc items = Loop.reduce l' q b e' acc items := by
  induction items generalizing e e' acc with
  | nil => rfl
  | cons v vs ih =>
    simp only [Loop.reduce, h _ _ he v acc]
    congr 1
    funext w
    exact ih (two_outside he v acc) w

theorem outside_refl (ns : List Str) (e : Env) : Outside ns e e := fun _ _ => rfl

/-- What the renamed parameter's lambda must be like: the new name is not used in it, and it binds neither name. -/
theorem lam1 (X : Ext) (body : Expr) (hq : q ∉ vars body ∨ q = p) (hb : ∀ e ∈ params X body, ∃ b, e = .strLit b ∧ b ≠ p ∧ b ≠ q) (r : Option Registry) :
    Lam1 p q (Eval.eval X body r) (Eval.eval X (rename (oneName p q) body) r) ∧ Lam1 p q (Legacy.eval X body r) (Legacy.eval X (rename (oneName p q) body) r) := by
  have hv : ∀ n ∈ vars body, (one p q).occurs n := by
    intro n hn
    by_cases h : n = p
    · exact .inl h
    · refine .inr fun h2 => ?_
      subst h2
      exact hq.elim (fun h => h hn) h
  have hp : (one p q).Untouched (params X body) := fun x hx => by
    obtain ⟨b, rfl, h1, h2⟩ := hb x hx
    exact ⟨b, rfl, one_free h1 h2⟩
  exact ⟨fun e e' he v => one_eq (eval_rename X body hv hp r _ _ (one_env he v)), fun e e' he v => one_eq (legacy_rename X body hv hp r _ _ (one_env he v))⟩

theorem lam2 (X : Ext) (body : Expr) (hpa : p ≠ a) (hqb : q ≠ b) (hq : ∀ n ∈ vars body, n = p ∨ n = a ∨ (n ≠ q ∧ n ≠ b))
    (hb : ∀ e ∈ params X body, ∃ c, e = .strLit c ∧ c ∉ [p, q, a, b]) (r : Option Registry) :
    Lam2 p q a b (Eval.eval X body r) (Eval.eval X (rename (twoNames p q a b) body) r) ∧ Lam2 p q a b (Legacy.eval X body r) (Legacy.eval X (rename (twoNames p q a b) body) r) := by
  have hp : (two p q a b).Untouched (params X body) := fun x hx => by
    obtain ⟨c, rfl, hc⟩ := hb x hx
    simp only [List.mem_cons, List.not_mem_nil, or_false, not_or] at hc
    exact ⟨c, rfl, two_free hc.1 hc.2.1 hc.2.2.1 hc.2.2.2⟩
  exact ⟨fun e e' he v w => two_eq (eval_rename X body hq hp r _ _ (two_env hpa hqb he v w)),
    fun e e' he v w => two_eq (legacy_rename X body hq hp r _ _ (two_env hpa hqb he v w))⟩

end Ren

/-- The functions with one parameter. -/
def Spec.oneParameter : List Str := [c!"FILTER", c!"FIND", c!"MAP"]

/-- A function of this name is not registered. -/
def Spec.Unregistered (X : Ext) (f : Str) : Option Registry → Prop
  | none => True
  | some reg => reg.has X f = false

open Ren

theorem call_builtin (X : Ext) {f : Str} {r : Option Registry} (hr : Unregistered X f r) (as : List Arg) (env : Env) (g) (hg : Eval.higherOrder X f = some g)
    (h1 : f ≠ c!"__TERNARY__") (h2 : f ≠ c!"__CONST_TRUE__") (h3 : f ≠ c!"__CONST_FALSE__") : Eval.call X f as r env = g r env as := by
  unfold Eval.call
  rw [if_neg h1, if_neg h2, if_neg h3]
  cases r with
  | none => simp only [hg]
  | some reg =>
    simp only [Unregistered] at hr
    simp only [hr, hg, Bool.false_eq_true, if_false]

/-- **C117: lambda parameters of functions.** `FILTER`, `FIND` and `MAP` give the same value or error when their lambda's parameter is renamed in the lambda and
in the argument that names it; `p` may be the parameter `x` that is meant when none is named. -/
theorem C117_parameter (X : Ext) (f : Str) (hf : f ∈ oneParameter) (arr body : Expr) (p q : Str) (hq : q ∉ vars body)
    (hb : ∀ e ∈ params X body, ∃ b, e = .strLit b ∧ b ≠ p ∧ b ≠ q) (r : Option Registry) (hr : Unregistered X f r) (env : Env) :
    Eval.eval X (.call f [arr, rename (oneName p q) body, .strLit q]) r env = Eval.eval X (.call f [arr, body, .strLit p]) r env ∧
    (p = c!"x" → Eval.eval X (.call f [arr, rename (oneName p q) body, .strLit q]) r env = Eval.eval X (.call f [arr, body]) r env) := by
  have hl := (lam1 X body (.inl hq) hb none).1
  have hR := outside_refl [p, q] env
  have e1 : ∀ s : Str, Eval.paramName r env c!"x" ([Eval.argOf X (.strLit s)] : List Arg).head? = .ok s := fun s => by rw [eval_lit]; rfl
  have e2 : Eval.paramName r env c!"x" ([] : List Arg).head? = .ok c!"x" := rfl
  simp only [oneParameter, List.mem_cons, List.not_mem_nil, or_false] at hf
  simp only [Eval.eval, Eval.argsOf_eq, List.map_cons, List.map_nil]
  rcases hf with rfl | rfl | rfl
  · have hc := fun as => call_builtin X hr as env Eval.filter rfl (by decide) (by decide) (by decide)
    simp only [hc, Eval.filter, e1, e2, Eval.argOf_run]
    refine ⟨?_, ?_⟩
    · congr 1; funext v
      cases v <;> first | rfl | (simp only [okBind, filter1 hl hR])
    · rintro rfl
      congr 1; funext v
      cases v <;> first | rfl | (simp only [okBind, filter1 hl hR])
  · have hc := fun as => call_builtin X hr as env Eval.find rfl (by decide) (by decide) (by decide)
    simp only [hc, Eval.find, e1, e2, Eval.argOf_run]
    refine ⟨?_, ?_⟩
    · congr 1; funext v
      cases v <;> first | rfl | (simp only [okBind, find1 hl hR])
    · rintro rfl
      congr 1; funext v
      cases v <;> first | rfl | (simp only [okBind, find1 hl hR])
  · have hc := fun as => call_builtin X hr as env Eval.map rfl (by decide) (by decide) (by decide)
    simp only [hc, Eval.map, e1, e2, Eval.argOf_run]
    refine ⟨?_, ?_⟩
    · congr 1; funext v
      cases v <;> first | rfl | (simp only [okBind, map1 hl hR])
    · rintro rfl
      congr 1; funext v
      cases v <;> first | rfl | (simp only [okBind, map1 hl hR])

/-- **C117: the two lambda parameters of `REDUCE`.** -/
theorem C117_reduce (X : Ext) (arr body init : Expr) (p q a b : Str) (hpa : p ≠ a) (hqb : q ≠ b) (hq : ∀ n ∈ vars body, n = p ∨ n = a ∨ (n ≠ q ∧ n ≠ b))
    (hb : ∀ e ∈ params X body, ∃ c, e = .strLit c ∧ c ∉ [p, q, a, b]) (r : Option Registry) (hr : Unregistered X c!"REDUCE" r) (env : Env) :
    Eval.eval X (.call c!"REDUCE" [arr, rename (twoNames p q a b) body, init, .strLit q, .strLit b]) r env =
      Eval.eval X (.call c!"REDUCE" [arr, body, init, .strLit p, .strLit a]) r env ∧
    (p = c!"x" → a = c!"acc" → Eval.eval X (.call c!"REDUCE" [arr, rename (twoNames p q a b) body, init, .strLit q, .strLit b]) r env =
      Eval.eval X (.call c!"REDUCE" [arr, body, init]) r env) := by
  have hl := (lam2 X body hpa hqb hq hb none).1
  have hR := outside_refl [p, q, a, b] env
  have e1 : ∀ s t : Str, Eval.paramName r env c!"x" ([Eval.argOf X (.strLit s), Eval.argOf X (.strLit t)] : List Arg).head? = .ok s :=
    fun s t => by rw [eval_lit]; rfl
  have e3 : ∀ s t : Str, Eval.paramName r env c!"acc" ([Eval.argOf X (.strLit s), Eval.argOf X (.strLit t)] : List Arg)[1]? = .ok t :=
    fun s t => by rw [eval_lit, eval_lit]; rfl
  have e2 : Eval.paramName r env c!"x" ([] : List Arg).head? = .ok c!"x" := rfl
  have e4 : Eval.paramName r env c!"acc" ([] : List Arg)[1]? = .ok c!"acc" := rfl
  have hc := fun as => call_builtin X hr as env Eval.reduce rfl (by decide) (by decide) (by decide)
  simp only [Eval.eval, Eval.argsOf_eq, List.map_cons, List.map_nil]
  simp only [hc, Eval.reduce, e1, e2, e3, e4, Eval.argOf_run]
  refine ⟨?_, ?_⟩
  · congr 1; funext v
    congr 1; funext w
    cases v <;> first | rfl | (simp only [okBind, reduce2 hl hR])
  · rintro rfl rfl
    congr 1; funext v
    congr 1; funext w
    cases v <;> first | rfl | (simp only [okBind, reduce2 hl hR])

namespace Ren

theorem exec_arrays {X : Ext} {r : Option Registry} {env : Env} {name : Str} {as as' : List Arg} (hn : X.lower name ∈ Sim.lambdaNames)
    (h : ∀ items, Method.exec X r env name false (.arr items) as = Method.exec X r env name false (.arr items) as') (pred : Bool) (recv : Value) :
    Method.exec X r env name pred recv as = Method.exec X r env name pred recv as' := by
  cases pred with
  | true => rfl
  | false =>
    cases recv with
    | arr items => exact h items
    | str s =>
      simp only [Sim.lambdaNames, List.mem_cons, List.not_mem_nil, or_false] at hn
      simp only [Method.exec, Method.onString]
      rcases hn with hn | hn | hn | hn <;> simp only [hn] <;> rfl
    | num n =>
      simp only [Sim.lambdaNames, List.mem_cons, List.not_mem_nil, or_false] at hn
      simp only [Method.exec, Method.onNumber]
      rcases hn with hn | hn | hn | hn <;> simp only [hn] <;> rfl
    | json s =>
      simp only [Sim.lambdaNames, List.mem_cons, List.not_mem_nil, or_false] at hn
      simp only [Method.exec, Method.onJson]
      rcases hn with hn | hn | hn | hn <;> simp only [hn] <;> rfl
    | _ => rfl

theorem exec_filter {X : Ext} {name : Str} (hn : X.lower name = c!"filter") (r : Option Registry) (env : Env) (items : List Value) (as : List Arg) :
    Method.exec X r env name false (.arr items) as = Method.filter r env items as := by simp only [Method.exec, hn]; rfl
theorem exec_map {X : Ext} {name : Str} (hn : X.lower name = c!"map") (r : Option Registry) (env : Env) (items : List Value) (as : List Arg) :
    Method.exec X r env name false (.arr items) as = Method.map r env items as := by simp only [Method.exec, hn]; rfl
theorem exec_find {X : Ext} {name : Str} (hn : X.lower name = c!"find") (r : Option Registry) (env : Env) (items : List Value) (as : List Arg) :
    Method.exec X r env name false (.arr items) as = Method.find r env items as := by simp only [Method.exec, hn]; rfl
theorem exec_reduce {X : Ext} {name : Str} (hn : X.lower name = c!"reduce") (r : Option Registry) (env : Env) (items : List Value) (as : List Arg) :
    Method.exec X r env name false (.arr items) as = Method.reduce r env items as := by simp only [Method.exec, hn]; rfl

end Ren

/-- The methods with one parameter, in lower case. -/
def Spec.oneParameterMethods : List Str := [c!"filter", c!"find", c!"map"]

/-- **C117: lambda parameters of methods.** The same for the methods `filter`, `find` and `map`, in any case, also after `&.`, on any receiver. -/
theorem C117_method (X : Ext) (m : Str) (hm : X.lower m ∈ oneParameterMethods) (t body : Expr) (p q : Str) (hq : q ∉ vars body)
    (hb : ∀ e ∈ params X body, ∃ b, e = .strLit b ∧ b ≠ p ∧ b ≠ q) (r : Option Registry) (env : Env) :
    (∀ pred, Eval.eval X (.method t m [rename (oneName p q) body, .strLit q] pred) r env = Eval.eval X (.method t m [body, .strLit p] pred) r env) ∧
    Eval.eval X (.safeCall t m [rename (oneName p q) body, .strLit q]) r env = Eval.eval X (.safeCall t m [body, .strLit p]) r env ∧
    (p = c!"x" → ∀ pred, Eval.eval X (.method t m [rename (oneName p q) body, .strLit q] pred) r env = Eval.eval X (.method t m [body] pred) r env) ∧
    (p = c!"x" → Eval.eval X (.safeCall t m [rename (oneName p q) body, .strLit q]) r env = Eval.eval X (.safeCall t m [body]) r env) := by
  have hl := (lam1 X body (.inl hq) hb r).2
  have hR := outside_refl [p, q] env
  have e1 : ∀ s : Str, Method.paramName c!"x" ([Legacy.argOf X (.strLit s)] : List Arg).head? = s := fun s => by rw [legacy_lit]; rfl
  have e2 : Method.paramName c!"x" ([] : List Arg).head? = c!"x" := rfl
  have hn : X.lower m ∈ Sim.lambdaNames := by
    simp only [oneParameterMethods, List.mem_cons, List.not_mem_nil, or_false] at hm
    rcases hm with hm | hm | hm <;> rw [hm] <;> decide
  have H1 := fun (pred : Bool) (recv : Value) => exec_arrays (X := X) (r := r) (env := env) (as := [Legacy.argOf X (rename (oneName p q) body), Legacy.argOf X (.strLit q)])
    (as' := [Legacy.argOf X body, Legacy.argOf X (.strLit p)]) hn (fun items => by
      simp only [oneParameterMethods, List.mem_cons, List.not_mem_nil, or_false] at hm
      rcases hm with hm | hm | hm
      · simp only [exec_filter hm, Method.filter, e1, Legacy.argOf_run, filter1 hl hR]
      · simp only [exec_find hm, Method.find, e1, Legacy.argOf_run, find1 hl hR]
      · simp only [exec_map hm, Method.map, e1, Legacy.argOf_run, map1 hl hR]) pred recv
  have H2 := fun (hx : p = c!"x") (pred : Bool) (recv : Value) => exec_arrays (X := X) (r := r) (env := env)
    (as := [Legacy.argOf X (rename (oneName p q) body), Legacy.argOf X (.strLit q)]) (as' := [Legacy.argOf X body]) hn (fun items => by
      simp only [oneParameterMethods, List.mem_cons, List.not_mem_nil, or_false] at hm
      subst hx
      rcases hm with hm | hm | hm
      · simp only [exec_filter hm, Method.filter, e1, e2, Legacy.argOf_run, filter1 hl hR]
      · simp only [exec_find hm, Method.find, e1, e2, Legacy.argOf_run, find1 hl hR]
      · simp only [exec_map hm, Method.map, e1, e2, Legacy.argOf_run, map1 hl hR]) pred recv
  simp only [Eval.eval, Legacy.argsOf_eq, List.map_cons, List.map_nil, H1]
  refine ⟨fun _ => trivial, trivial, fun hx pred => ?_, fun hx => ?_⟩
  · simp only [← H1, H2 hx]
  · simp only [← H1, H2 hx]

/-- **C117: the two lambda parameters of the method `reduce`.** -/
theorem C117_reduce_method (X : Ext) (m : Str) (hm : X.lower m = c!"reduce") (t body init : Expr) (p q a b : Str) (hpa : p ≠ a) (hqb : q ≠ b)
    (hq : ∀ n ∈ vars body, n = p ∨ n = a ∨ (n ≠ q ∧ n ≠ b)) (hb : ∀ e ∈ params X body, ∃ c, e = .strLit c ∧ c ∉ [p, q, a, b])
    (r : Option Registry) (env : Env) (pred : Bool) :
    Eval.eval X (.method t m [rename (twoNames p q a b) body, init, .strLit q, .strLit b] pred) r env =
      Eval.eval X (.method t m [body, init, .strLit p, .strLit a] pred) r env ∧
    (p = c!"x" → a = c!"acc" → Eval.eval X (.method t m [rename (twoNames p q a b) body, init, .strLit q, .strLit b] pred) r env =
      Eval.eval X (.method t m [body, init] pred) r env) := by
  have hl := (lam2 X body hpa hqb hq hb r).2
  have hR := outside_refl [p, q, a, b] env
  have e1 : ∀ s t : Str, Method.paramName c!"x" ([Legacy.argOf X (.strLit s), Legacy.argOf X (.strLit t)] : List Arg).head? = s :=
    fun s t => by rw [legacy_lit]; rfl
  have e3 : ∀ s t : Str, Method.paramName c!"acc" ([Legacy.argOf X (.strLit s), Legacy.argOf X (.strLit t)] : List Arg)[1]? = t :=
    fun s t => by rw [legacy_lit, legacy_lit]; rfl
  have e2 : Method.paramName c!"x" ([] : List Arg).head? = c!"x" := rfl
  have e4 : Method.paramName c!"acc" ([] : List Arg)[1]? = c!"acc" := rfl
  have hn : X.lower m ∈ Sim.lambdaNames := by rw [hm]; decide
  simp only [Eval.eval, Legacy.argsOf_eq, List.map_cons, List.map_nil]
  refine ⟨?_, ?_⟩
  · congr 1; funext recv
    refine exec_arrays hn (fun items => ?_) pred recv
    simp only [exec_reduce hm, Method.reduce, e1, e3, Legacy.argOf_run, reduce2 hl hR]
  · rintro rfl rfl
    congr 1; funext recv
    refine exec_arrays hn (fun items => ?_) pred recv
    simp only [exec_reduce hm, Method.reduce, e1, e2, e3, e4, Legacy.argOf_run, reduce2 hl hR]

/-! ### Examples -/

/-- `MAP([:a, 2], :x * :a)`. -/
def Spec.exampleMap : Expr := .call c!"MAP" [.array [.var c!"a", .number (.fin 2)], .binary (.var c!"x") .mul (.var c!"a")]

/-- With `a` renamed to `b` the hypotheses of `C117_rename` hold; the value is `[9, 6]` for `a = 3` and for `b = 3`. -/
example (X : Ext) :
    (∀ n ∈ vars exampleMap, (Env.empty.insert c!"b" (.num (.fin 3))) (oneName c!"a" c!"b" n) = (Env.empty.insert c!"a" (.num (.fin 3))) n) ∧
    (∀ p ∈ params X exampleMap, ∃ b, p = .strLit b ∧ Untouched (oneName c!"a" c!"b") (vars exampleMap) b) ∧
    evalVars X (rename (oneName c!"a" c!"b") exampleMap) (Env.empty.insert c!"b" (.num (.fin 3))) = .ok (.arr [.num (.fin 9), .num (.fin 6)]) := by
  have hv : vars exampleMap = [c!"a", c!"x", c!"a"] := by decide
  refine ⟨?_, ?_, by kernel_rfl⟩
  · intro n hn
    rw [hv] at hn
    fin_cases hn <;> rfl
  · intro p hp
    have hp' : params X exampleMap = [.strLit c!"x"] := rfl
    rw [hp', List.mem_singleton] at hp
    subst hp
    refine ⟨_, rfl, ?_⟩
    intro n hn
    rw [hv] at hn
    fin_cases hn <;> decide

/-- `:t := :a + 1; :t * :a` with `t` and `a` exchanged: the hypotheses of `C117_program` hold. -/
example (X : Ext) : let e : Expr := .seq [.assign c!"t" (.binary (.var c!"a") .add (.number (.fin 1))), .binary (.var c!"t") .mul (.var c!"a")]
    let ρ := twoNames c!"a" c!"t" c!"t" c!"a"
    (∀ n ∈ vars e ++ targets e, (Env.empty.insert c!"t" (.num (.fin 3))) (ρ n) = (Env.empty.insert c!"a" (.num (.fin 3))) n) ∧
    (∀ m ∈ vars e ++ targets e, ∀ n ∈ vars e ++ targets e, ρ m = ρ n → m = n) ∧ params X e = [] ∧
    evalAssign X (rename ρ e) (Env.empty.insert c!"t" (.num (.fin 3))) = .ok (.num (.fin 12)) := by
  intro e ρ
  have hv : vars e ++ targets e = [c!"a", c!"t", c!"a", c!"t"] := by decide
  refine ⟨?_, ?_, rfl, by kernel_rfl⟩
  · intro n hn
    rw [hv] at hn
    fin_cases hn <;> rfl
  · rw [hv]
    decide

/-- `MAP([1, 2], :x * :k)` and `MAP([1, 2], :i * :k, 'i')`: an instance of `C117_parameter`, here with `k = 5`. -/
example (X : Ext) : let body : Expr := .binary (.var c!"x") .mul (.var c!"k")
    c!"MAP" ∈ oneParameter ∧ c!"i" ∉ vars body ∧ params X body = [] ∧
    Eval.eval X (.call c!"MAP" [.array [.number (.fin 1), .number (.fin 2)], rename (oneName c!"x" c!"i") body, .strLit c!"i"]) none
      (Env.empty.insert c!"k" (.num (.fin 5))) = .ok (.arr [.num (.fin 5), .num (.fin 10)]) :=
  ⟨by decide, by decide, rfl, by kernel_rfl⟩

/-- `REDUCE([1, 2], :acc + :x, 0)` and `REDUCE([1, 2], :s + :i, 0, 'i', 's')`: an instance of `C117_reduce`. -/
example (X : Ext) : let body : Expr := .binary (.var c!"acc") .add (.var c!"x")
    (∀ n ∈ vars body, n = c!"x" ∨ n = c!"acc" ∨ (n ≠ c!"i" ∧ n ≠ c!"s")) ∧ params X body = [] ∧
    Eval.eval X (.call c!"REDUCE" [.array [.number (.fin 1), .number (.fin 2)], rename (twoNames c!"x" c!"i" c!"acc" c!"s") body, .number (.zero false), .strLit c!"i", .strLit c!"s"])
      none Env.empty = .ok (.num (.fin 3)) :=
  ⟨by decide, rfl, by kernel_rfl⟩

/-- **C117: a name a lambda binds must stay.** With `y = 5`, `MAP([1, 2], :y)` is `[5, 5]`; with `y` renamed to `x` it is `[1, 2]`. -/
theorem C117_capture (X : Ext) : let e : Expr := .call c!"MAP" [.array [.number (.fin 1), .number (.fin 2)], .var c!"y"]
    evalVars X e (Env.empty.insert c!"y" (.num (.fin 5))) = .ok (.arr [.num (.fin 5), .num (.fin 5)]) ∧
    evalVars X (rename (oneName c!"y" c!"x") e) (Env.empty.insert c!"x" (.num (.fin 5))) = .ok (.arr [.num (.fin 1), .num (.fin 2)]) :=
  ⟨by kernel_rfl, by kernel_rfl⟩

/-- **C117: a parameter's name can be computed.** With `p = 'y'` and `y = 5`, `MAP([1, 2], :y, :p)` is `[1, 2]`; with `y` renamed to `z` it is `[5, 5]`. -/
theorem C117_computed_name (X : Ext) : let e : Expr := .call c!"MAP" [.array [.number (.fin 1), .number (.fin 2)], .var c!"y", .var c!"p"]
    evalVars X e ((Env.empty.insert c!"p" (.str c!"y")).insert c!"y" (.num (.fin 5))) = .ok (.arr [.num (.fin 1), .num (.fin 2)]) ∧
    evalVars X (rename (oneName c!"y" c!"z") e) ((Env.empty.insert c!"p" (.str c!"y")).insert c!"z" (.num (.fin 5))) = .ok (.arr [.num (.fin 5), .num (.fin 5)]) :=
  ⟨by kernel_rfl, by kernel_rfl⟩

/-- **C117: not inside method arguments, with custom functions.** `[[1, 2]].map(MAP(:x, :i * 2, 'i'))` is `[[2, 4]]`; with a registry in reach, even an empty one, `MAP` in a method's
argument does not heed the name given, and the same text fails, whereas `[[1, 2]].map(MAP(:x, :x * 2))` works. -/
theorem C117_ignored_name (X : Ext) (hm : X.lower c!"map" = c!"map") : let twice (n : Str) : Expr := .binary (.var n) .mul (.number (.fin 2))
    let e (args : List Expr) : Expr := .method (.array [.array [.number (.fin 1), .number (.fin 2)]]) c!"map" [.call c!"MAP" (.var c!"x" :: args)] false
    evalVars X (e [twice c!"i", .strLit c!"i"]) Env.empty = .ok (.arr [.arr [.num (.fin 2), .num (.fin 4)]]) ∧
    evalCustom X Registry.empty (e [twice c!"i", .strLit c!"i"]) Env.empty = fail "Undefined variable: {}" [c!"i"] ∧
    evalCustom X Registry.empty (e [twice c!"x"]) Env.empty = .ok (.arr [.arr [.num (.fin 2), .num (.fin 4)]]) := by
  refine ⟨?_, ?_, ?_⟩ <;>
  · simp only [evalVars, evalCustom, Eval.eval, Method.exec, hm]
    kernel_rfl
