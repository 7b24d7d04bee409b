import Verif.Props.HttpFiles
import Verif.Props.CacheTransparent
import Verif.Lemmas.Double
/-! C60: the variables in a response. -/

open Http Spec HttpCache

namespace Spec

mutual
/-- The variables a program assigns: those of its statements `:x := e`. -/
def assigned : Expr → List Str
  | .assign x _ => [x]
  | .seq es => assignedSeq es
  | _ => []
/-- Those of a list of statements. -/
def assignedSeq : List Expr → List Str
  | [] => []
  | e :: es => assigned e ++ assignedSeq es
end

mutual
/-- No number in the document is NaN. (There is no text for NaN in JSON.) -/
def NanFree : Json → Prop
  | .num (.float x) => x ≠ .nan
  | .arr items => NanFrees items
  | _ => True
/-- Those of a list. -/
def NanFrees : List Json → Prop
  | [] => True
  | j :: js => NanFree j ∧ NanFrees js
end

/-- The names to be reported. -/
def Wanted : Include → Str → Prop
  | .all, _ => True
  | .none, _ => False
  | .selected ns, n => n ∈ ns

/-- The value of the variable is another than at the start, or it had none. -/
def Changed (before after : Env) (n : Str) : Prop := ∃ v, after n = some v ∧ ∀ w, before n = some w → Value.equal w v = false

end Spec

mutual
theorem assigned_only (X : Ext) : (e : Expr) → (env : Env) → (v : Value) → (env' : Env) → Eval.assignments X e env = .ok (v, env') →
    (∀ n, n ∉ assigned e → env' n = env n) ∧ (∀ n ∈ assigned e, (env' n).isSome)
  | .assign x e, env, v, env', h => by
    simp only [Eval.assignments] at h
    cases hv : Eval.eval X e none env with
    | error f => rw [hv] at h; simp [bind, Except.bind] at h
    | ok w =>
      rw [hv] at h
      simp only [bind, Except.bind, pure, Except.pure, Except.ok.injEq, Prod.mk.injEq] at h
      rw [← h.2]
      simp only [assigned, List.mem_singleton, Env.insert]
      exact ⟨fun n hn => if_neg hn, fun n hn => by rw [if_pos hn]; rfl⟩
  | .seq es, env, v, env', h => by
    simp only [Eval.assignments] at h
    obtain ⟨h1, h2⟩ := assignedSeq_only X es .null env v env' h
    exact ⟨h1, h2⟩
  | e, env, v, env', h => by
    have key : assigned e = [] → Eval.assignments X e env = (do return (← Eval.eval X e none env, env)) →
        (∀ n, n ∉ assigned e → env' n = env n) ∧ (∀ n ∈ assigned e, (env' n).isSome) := by
      intro ha he
      rw [he] at h
      cases hv : Eval.eval X e none env with
      | error f => rw [hv] at h; simp [bind, Except.bind] at h
      | ok w =>
        rw [hv] at h
        simp only [bind, Except.bind, pure, Except.pure, Except.ok.injEq, Prod.mk.injEq] at h
        rw [h.2, ha]
        exact ⟨fun _ _ => rfl, fun n hn => by simp at hn⟩
    cases e with
    | assign x e' =>
      simp only [Eval.assignments] at h
      cases hv : Eval.eval X e' none env with
      | error f => rw [hv] at h; simp [bind, Except.bind] at h
      | ok w =>
        rw [hv] at h
        simp only [bind, Except.bind, pure, Except.pure, Except.ok.injEq, Prod.mk.injEq] at h
        rw [← h.2]
        simp only [assigned, List.mem_singleton, Env.insert]
        exact ⟨fun n hn => if_neg hn, fun n hn => by rw [if_pos hn]; rfl⟩
    | seq es =>
      simp only [Eval.assignments] at h
      obtain ⟨h1, h2⟩ := assignedSeq_only X es .null env v env' h
      exact ⟨h1, h2⟩
    | _ => exact key (by simp only [assigned]) (by simp only [Eval.assignments])
theorem assignedSeq_only (X : Ext) : (es : List Expr) → (last : Value) → (env : Env) → (v : Value) → (env' : Env) → Eval.assignmentsSeq X es last env = .ok (v, env') →
    (∀ n, n ∉ assignedSeq es → env' n = env n) ∧ (∀ n ∈ assignedSeq es, (env' n).isSome)
  | [], last, env, v, env', h => by
    simp only [Eval.assignmentsSeq, Except.ok.injEq, Prod.mk.injEq] at h
    rw [h.2]
    exact ⟨fun _ _ => rfl, fun n hn => by simp [assignedSeq] at hn⟩
  | e :: es, last, env, v, env', h => by
    simp only [Eval.assignmentsSeq] at h
    cases hv : Eval.assignments X e env with
    | error f => rw [hv] at h; simp [bind, Except.bind] at h
    | ok p =>
      obtain ⟨w, env1⟩ := p
      rw [hv] at h
      simp only [bind, Except.bind] at h
      obtain ⟨h1, h2⟩ := assigned_only X e env w env1 hv
      obtain ⟨h3, h4⟩ := assignedSeq_only X es w env1 v env' h
      simp only [assignedSeq, List.mem_append, not_or]
      refine ⟨fun n hn => by rw [h3 n hn.2, h1 n hn.1], fun n hn => ?_⟩
      by_cases hn' : n ∈ assignedSeq es
      · exact h4 n hn'
      · rw [h3 n hn']
        exact h2 n (hn.resolve_right hn')
end

theorem feq_self {x : F64} (h : x ≠ .nan) : F64.feq x x = true := by
  rw [F64.feq_iff]
  cases x with
  | nan => exact absurd rfl h
  | _ => simp

mutual
theorem toValue_self (X : Ext) : (j : Json) → NanFree j → Value.equal (Json.toValue X j) (Json.toValue X j) = true
  | .null, _ => by simp [Json.toValue, Value.equal]
  | .bool b, _ => by simp [Json.toValue, Value.equal]
  | .num (.int i), _ => by
    simp only [Json.toValue, Value.equal]
    refine feq_self ?_
    split
    · exact F64.round_ne_nan _ _
    · exact F64.round_ne_nan _ _
  | .num (.float x), h => by
    simp only [Json.toValue, Value.equal]
    exact feq_self h
  | .str s, _ => by simp [Json.toValue, Value.equal]
  | .arr items, h => by
    simp only [Json.toValue, Value.equal]
    exact toValues_self X items h
  | .obj ms, _ => by simp [Json.toValue, Value.equal]
theorem toValues_self (X : Ext) : (js : List Json) → NanFrees js → Value.equalList (Json.toValues X js) (Json.toValues X js) = true
  | [], _ => by simp [Json.toValues, Value.equalList]
  | j :: js, h => by
    simp only [Json.toValues, Value.equalList, Bool.and_eq_true]
    exact ⟨toValue_self X j h.1, toValues_self X js h.2⟩
end

theorem argVars_self (X : Ext) : ∀ (js : List (Str × Json)) (vs : Vars), (∀ p ∈ js, NanFree p.2) → (∀ p ∈ vs, Value.equal p.2 p.2 = true) →
    ∀ p ∈ argVars X js vs, Value.equal p.2 p.2 = true
  | [], _, _, h, p, hp => h p hp
  | (k, j) :: rest, vs, hj, h, p, hp => by
    refine argVars_self X rest _ (fun q hq => hj q (by simp [hq])) ?_ p hp
    intro q hq
    unfold setVar at hq
    rcases List.mem_cons.1 hq with rfl | hq
    · exact toValue_self X j (hj (k, j) (by simp))
    · exact h q (List.mem_of_mem_filter hq)

/-- The arguments have no NaN in them. -/
def Spec.ArgumentsOk (q : EvalRequest) : Prop := ∀ js, q.arguments = some js → ∀ p ∈ js, NanFree p.2

theorem vars_self (X : Ext) (q : EvalRequest) (h : ArgumentsOk q) (n : Str) (w : Value) (hw : envOf (varsOf X q.arguments) n = some w) : Value.equal w w = true := by
  unfold envOf at hw
  cases hf : (varsOf X q.arguments).find? fun p => p.1 = n with
  | none => rw [hf] at hw; simp at hw
  | some p =>
    rw [hf] at hw
    simp only [Option.map_some, Option.some.injEq] at hw
    have hm := List.mem_of_find?_eq_some hf
    rw [← hw]
    cases hq : q.arguments with
    | none => rw [hq] at hm; simp [varsOf] at hm
    | some js =>
      rw [hq] at hm
      exact argVars_self X js _ (h js hq) (by simp [Value.equal]) p hm

theorem reported_iff (X : Ext) (vars ctx : Env) (inc : Include) (n : Str) (j : Json) :
    reported X vars (some inc) (some ctx) n = some j ↔ Wanted inc n ∧ ∃ v, ctx n = some v ∧ (∀ w, vars n = some w → Value.equal w v = false) ∧ j = simpleOutput X v := by
  have hw : Include.admits (some inc) n = true ↔ Wanted inc n := by
    cases inc <;> simp [Include.admits, Wanted]
  have e : reported X vars (some inc) (some ctx) n = (match ctx n with
      | none => none
      | some v => if (!(match vars n with | some w => Value.equal w v | none => false) && Include.admits (some inc) n) = true then some (simpleOutput X v) else none) := rfl
  rw [e]
  constructor
  · intro h
    cases hc : ctx n with
    | none => rw [hc] at h; exact absurd h (by simp)
    | some v =>
      rw [hc] at h
      simp only at h
      by_cases hcond : (!(match vars n with | some w => Value.equal w v | none => false) && Include.admits (some inc) n) = true
      · rw [if_pos hcond] at h
        rw [Bool.and_eq_true, Bool.not_eq_true'] at hcond
        refine ⟨hw.1 hcond.2, v, rfl, ?_, (Option.some.inj h).symm⟩
        intro w hv
        rw [hv] at hcond
        exact hcond.1
      · rw [if_neg hcond] at h
        exact absurd h (by simp)
  · rintro ⟨hn, v, hc, hd, rfl⟩
    rw [hc]
    simp only
    rw [if_pos]
    rw [Bool.and_eq_true, Bool.not_eq_true']
    refine ⟨?_, hw.2 hn⟩
    cases hv : vars n with
    | none => rfl
    | some w => exact hd w hv

theorem fresh_program_ctx (X : Ext) (reg : Registry) (text : Str) (vs : Vars) (h : IsProgram text) :
    fresh X reg ⟨text, vs, true⟩ = (do let (v, ctx) ← Lib.evaluateWithAssignmentsCtx X text (envOf vs); return (v, some ctx)) := by
  unfold fresh
  have : (Str.contains text c!";" || Str.contains text c!":=") = true := by simpa [IsProgram] using h
  simp only [this, if_true]

theorem evalRequest_miss (X : Ext) (s : Site) (q : EvalRequest) (v : Value) (ctx : Option Env)
    (hmiss : (s.cache.get (Request.key X ⟨q.expression, varsOf X q.arguments, wantsVariables q.includeVariables⟩)).1 = none)
    (hf : fresh X s.reg ⟨q.expression, varsOf X q.arguments, wantsVariables q.includeVariables⟩ = .ok (v, ctx)) :
    (evalRequest X s q).1 = .ok ⟨true, some v, reported X (envOf (varsOf X q.arguments)) q.includeVariables ctx, none, s.counter⟩ := by
  simp only [evalRequest, evaluateCached]
  cases hg : s.cache.get (Request.key X ⟨q.expression, varsOf X q.arguments, wantsVariables q.includeVariables⟩) with
  | mk o c =>
    rw [hg] at hmiss
    simp only at hmiss
    subst hmiss
    simp only [hf]

/-- The request is not answered from the cache. -/
def Spec.NotCached (X : Ext) (s : Site) (q : EvalRequest) : Prop :=
  (s.cache.get (Request.key X ⟨q.expression, varsOf X q.arguments, wantsVariables q.includeVariables⟩)).1 = none

/-- **C60 (partial).** For a program that is evaluated, not answered from the cache: if it runs (see C11) and leaves the variables `final`, the response has its value, and lists
a variable iff it is wanted, the program assigns it, and its final value is not the one it came with; it is listed with its final value. -/
theorem C60_lists_changed_partial (X : Ext) (s : Site) (q : EvalRequest) (inc : Include) (e : Expr) (v : Value) (final : Env)
    (hargs : ArgumentsOk q) (hinc : q.includeVariables = some inc) (hwants : inc ≠ .none) (hmiss : NotCached X s q) (hprog : IsProgram q.expression)
    (hp : Lib.parse q.expression = .ok e) (hrun : evalAssignCtx X e (envOf (varsOf X q.arguments)) = .ok (v, final)) :
    ∃ r, (evalRequest X s q).1 = .ok r ∧ r.success = true ∧ r.result = some v ∧
      ∀ n j, r.variables n = some j ↔
        Wanted inc n ∧ n ∈ assigned e ∧ Changed (envOf (varsOf X q.arguments)) final n ∧ ∃ w, final n = some w ∧ j = simpleOutput X w := by
  have hw : wantsVariables q.includeVariables = true := by
    rw [hinc]
    cases inc with
    | none => exact absurd rfl hwants
    | _ => rfl
  have hf : fresh X s.reg ⟨q.expression, varsOf X q.arguments, wantsVariables q.includeVariables⟩ = .ok (v, some final) := by
    rw [hw, fresh_program_ctx X s.reg _ _ hprog]
    unfold Lib.evaluateWithAssignmentsCtx
    rw [hp]
    simp only [bind, Except.bind, hrun]
    rfl
  refine ⟨_, evalRequest_miss X s q v (some final) hmiss hf, rfl, rfl, ?_⟩
  intro n j
  obtain ⟨h1, h2⟩ := assigned_only X e _ v final hrun
  rw [hinc, reported_iff]
  constructor
  · rintro ⟨hwn, w, hw, hd, hj⟩
    refine ⟨hwn, ?_, ⟨w, hw, hd⟩, w, hw, hj⟩
    by_contra hn
    have he := (h1 n hn).symm.trans hw
    have := vars_self X q hargs n w he
    rw [hd w he] at this
    exact absurd this (by simp)
  · rintro ⟨hwn, _, ⟨w, hw, hd⟩, w', hw', hj⟩
    have : w = w' := by rw [hw] at hw'; exact Option.some.inj hw'
    subst this
    exact ⟨hwn, w, hw, hd, hj⟩

theorem fresh_expression_ctx (X : Ext) (reg : Registry) (r : Request) (h : ¬ IsProgram r.expr) (p : Value × Option Env) (hf : fresh X reg r = .ok p) : p.2 = none := by
  unfold fresh at hf
  have : (Str.contains r.expr c!";" || Str.contains r.expr c!":=") = false := by
    rw [Bool.eq_false_iff]
    intro hh
    exact h (by simpa [IsProgram] using hh)
  simp only [this, Bool.false_eq_true, if_false] at hf
  cases hv : Lib.evaluateWithCustom X reg r.expr (envOf r.vars) with
  | error f => rw [hv] at hf; exact absurd hf (by simp [bind, Except.bind])
  | ok v =>
    rw [hv] at hf
    simp only [bind, Except.bind, pure, Except.pure, Except.ok.injEq] at hf
    rw [← hf]

/-- **C60.** A request that is no program and is not answered from the cache lists no variables. -/
theorem C60_expression_lists_nothing (X : Ext) (s : Site) (q : EvalRequest) (hmiss : NotCached X s q) (hprog : ¬ IsProgram q.expression) (r : EvalResponse)
    (h : (evalRequest X s q).1 = .ok r) (n : Str) : r.variables n = none := by
  cases hf : fresh X s.reg ⟨q.expression, varsOf X q.arguments, wantsVariables q.includeVariables⟩ with
  | ok p =>
    obtain ⟨v, ctx⟩ := p
    have hc := fresh_expression_ctx X s.reg _ hprog _ hf
    simp only at hc
    subst hc
    rw [evalRequest_miss X s q v none hmiss hf] at h
    rw [← Except.ok.inj h]
    rfl
  | error f =>
    simp only [evalRequest, evaluateCached] at h
    unfold NotCached at hmiss
    cases hg : s.cache.get (Request.key X ⟨q.expression, varsOf X q.arguments, wantsVariables q.includeVariables⟩) with
    | mk o c =>
      rw [hg] at hmiss
      simp only at hmiss
      subst hmiss
      simp only [hg, hf] at h
      cases f with
      | err m a p =>
        rw [← Except.ok.inj h]
      | panic p => exact absurd h (by simp)

/-- A site with an empty cache. -/
def Spec.freshSite : Site := ⟨⟨[], []⟩, Registry.empty, Cache.new 10, 0⟩

/-- **C60 fails.** A variable assigned the value it came with is not listed: `:x := 1` with the argument `x = 1`. -/
theorem C60_same_value_not_listed (X : Ext) :
    ∃ r, (evalRequest X freshSite ⟨c!":x := 1", some [(c!"x", .num (.int 1))], none, some .all⟩).1 = .ok r ∧ r.success = true ∧ r.variables c!"x" = none := by
  refine ⟨_, evalRequest_miss X freshSite _ (.num (.fin 1)) (some (Env.insert (envOf (varsOf X (some [(c!"x", .num (.int 1))]))) c!"x" (.num (.fin 1)))) ?_ ?_, rfl, ?_⟩
  · rfl
  · kernel_rfl
  · kernel_rfl

/-- **C60 fails.** Answered from the cache, a request for variables may list none: the cache was filled by the same request without them. -/
theorem C60_cached_lists_nothing (X : Ext) :
    let s := (evalRequest X freshSite ⟨c!":x := 1; :x", none, none, none⟩).2
    ∃ r, (evalRequest X s ⟨c!":x := 1; :x", none, none, some .all⟩).1 = .ok r ∧ r.success = true ∧ r.variables c!"x" = none := by
  refine ⟨⟨true, some (.num (.fin 1)), fun _ => none, none, 1⟩, ?_, rfl, rfl⟩
  kernel_rfl

/-- A case of `C60_lists_changed_partial`: of `x`, assigned, and `y`, not wanted, the first is listed. -/
example (X : Ext) : ∃ e final, Lib.parse c!":x := 1; :y := 2; :x" = .ok e ∧
    evalAssignCtx X e (envOf (varsOf X none)) = .ok (.num (.fin 1), final) ∧ final c!"y" = some (.num (.fin 2)) ∧ assigned e = [c!"x", c!"y"] ∧
    NotCached X freshSite ⟨c!":x := 1; :y := 2; :x", none, none, some (.selected [c!"x"])⟩ ∧ IsProgram c!":x := 1; :y := 2; :x" := by
  refine ⟨.seq [.assign c!"x" (.number (.fin 1)), .assign c!"y" (.number (.fin 2)), .var c!"x"], (Env.empty.insert c!"x" (.num (.fin 1))).insert c!"y" (.num (.fin 2)), by kernel_rfl, by kernel_rfl, by kernel_rfl, by kernel_rfl, rfl, .inl (by decide)⟩
