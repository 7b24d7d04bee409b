import Verif.Lemmas.EvalBasic
import Verif.Base.KernelRfl
import Verif.Props.Syntax
/-! C10: the entry points agree. -/

open Lib

/-! ### From text to tree

The theorems below are about trees; by C03 they hold of every text of the tree. -/

/-- Evaluating the text of a program is evaluating its tree. -/
theorem C03_evaluate_text (X : Ext) (e : Spec.Src) (es : List Spec.Src) (text : Str) (env : Env) (reg : Registry)
    (h : Spec.ProgText e es text) :
    evaluate X text = evalPlain X (Spec.progExpr e es) ∧
    evaluateWith X text env = evalVars X (Spec.progExpr e es) env ∧
    evaluateWithCustom X reg text env = evalCustom X reg (Spec.progExpr e es) env ∧
    evaluateWithAssignments X text env = evalAssign X (Spec.progExpr e es) env ∧
    evaluateWithAssignmentsCtx X text env = evalAssignCtx X (Spec.progExpr e es) env := by
  have := C03_print_parse e es text h
  refine ⟨?_, ?_, ?_, ?_, ?_⟩
  · unfold evaluate; rw [this]; rfl
  · unfold evaluateWith; rw [this]; rfl
  · unfold evaluateWithCustom; rw [this]; rfl
  · unfold evaluateWithAssignments; rw [this]; rfl
  · unfold evaluateWithAssignmentsCtx; rw [this]; rfl

/-! ### C10 -/

mutual
/-- No statement of the program is an assignment. -/
def Spec.NoAssignStmt : Expr → Prop
  | .assign _ _ => False
  | .seq es => Spec.NoAssignStmts es
  | _ => True
/-- The same of a list of statements. -/
def Spec.NoAssignStmts : List Expr → Prop
  | [] => True
  | e :: es => Spec.NoAssignStmt e ∧ Spec.NoAssignStmts es
end

mutual
theorem assignments_plain (X : Ext) : (e : Expr) → (env : Env) → Spec.NoAssignStmt e →
    Eval.assignments X e env = (do return (← Eval.eval X e none env, env))
  | .assign _ _, _, h => by simp [Spec.NoAssignStmt] at h
  | .seq es, env, h => by
    rw [Spec.NoAssignStmt] at h
    rw [Eval.assignments]
    simp only
    rw [assignmentsSeq_plain X es .null env h, Eval.eval]
  | .number _, _, _ | .strLit _, _, _ | .null, _, _ | .unary _ _, _, _ | .binary _ _ _, _, _ | .var _, _, _
  | .prop _ _, _, _ | .safeProp _ _, _, _ | .safeCall _ _ _, _, _ | .call _ _, _, _ | .spread _, _, _
  | .array _, _, _ | .object _, _, _ | .method _ _ _ _, _, _ | .index _ _, _, _ | .slice _ _ _, _, _
  | .cast _ _, _, _ => by simp only [Eval.assignments]
theorem assignmentsSeq_plain (X : Ext) : (es : List Expr) → (v : Value) → (env : Env) → Spec.NoAssignStmts es →
    Eval.assignmentsSeq X es v env = (do return (← lastOf none env v (Eval.argsOf X es), env))
  | [], v, env, _ => by simp [Eval.assignmentsSeq, Eval.argsOf, lastOf, bind, Except.bind, pure, Except.pure]
  | e :: es, v, env, h => by
    rw [Spec.NoAssignStmts] at h
    rw [Eval.assignmentsSeq, Eval.lastOf_argsOf]
    simp only
    rw [assignments_plain X e env h.1]
    cases he : Eval.eval X e none env with
    | error f => simp [bind, Except.bind]
    | ok w =>
      simp only [bind, Except.bind, pure, Except.pure]
      rw [assignmentsSeq_plain X es w env h.2]; rfl
end

/-- C10: `evaluate(s)` is `evaluate_with(s, {})`. -/
theorem C10_evaluate_is_evaluate_with_empty (X : Ext) (s : Str) : evaluate X s = evaluateWith X s Env.empty := rfl

/-- C10: `evaluate_with_assignments` is `evaluate_with` for programs none of whose statements is an
assignment. -/
theorem C10_assignments_without_assignment (X : Ext) (s : Str) (e : Expr) (env : Env) (hp : parse s = .ok e)
    (h : Spec.NoAssignStmt e) : evaluateWithAssignments X s env = evaluateWith X s env := by
  unfold evaluateWithAssignments evaluateWith evalAssign evalVars
  rw [hp]
  simp only [bind, Except.bind]
  rw [assignments_plain X e env h]
  cases Eval.eval X e none env <;> rfl

/-- A case of it: two statements, one of them failing. -/
example : ∃ e, parse c!":a + 1; NOPE(:a)" = .ok e ∧ Spec.NoAssignStmt e :=
  ⟨.seq [.binary (.var c!"a") .add (.number (F64.ofNat 1)), .call c!"NOPE" [.var c!"a"]], by kernel_rfl,
    by simp [Spec.NoAssignStmt, Spec.NoAssignStmts]⟩

/-- C10 fails for `evaluate_with_custom` with an empty registry: inside method lambdas it uses other code,
which ignores the parameter name of a nested higher-order function (and words errors differently). -/
theorem C10_custom_with_empty_registry_differs (X : Ext) :
    evaluateWith X c!"[[1]].map(MAP(:x, :y, \"y\"))" Env.empty =
      .ok (.arr [.arr [.num (F64.ofNat 1)]]) ∧
    evaluateWithCustom X Registry.empty c!"[[1]].map(MAP(:x, :y, \"y\"))" Env.empty =
      fail "Undefined variable: {}" [c!"y"] :=
  ⟨by kernel_rfl, by kernel_rfl⟩

/-- The names of the methods that take a lambda. -/
def Spec.lambdaMethods : List Str := [c!"filter", c!"map", c!"find", c!"reduce"]

mutual
/-- The expression calls no method that takes a lambda (in any case of letters). -/
def Spec.NoLambdaMethod (X : Ext) : Expr → Prop
  | .number _ | .strLit _ | .null | .var _ => True
  | .unary _ e | .prop e _ | .safeProp e _ | .spread e | .cast e _ | .assign _ e => Spec.NoLambdaMethod X e
  | .binary a _ b | .index a b => Spec.NoLambdaMethod X a ∧ Spec.NoLambdaMethod X b
  | .call _ es | .array es | .seq es => Spec.NoLambdaMethods X es
  | .object ms => Spec.NoLambdaMembers X ms
  | .safeCall t n es | .method t n es _ =>
    X.lower n ∉ Spec.lambdaMethods ∧ Spec.NoLambdaMethod X t ∧ Spec.NoLambdaMethods X es
  | .slice t a b => Spec.NoLambdaMethod X t ∧ Spec.NoLambdaOpt X a ∧ Spec.NoLambdaOpt X b
/-- Of a list. -/
def Spec.NoLambdaMethods (X : Ext) : List Expr → Prop
  | [] => True
  | e :: es => Spec.NoLambdaMethod X e ∧ Spec.NoLambdaMethods X es
/-- Of object members. -/
def Spec.NoLambdaMembers (X : Ext) : List (Str × Expr) → Prop
  | [] => True
  | (_, e) :: es => Spec.NoLambdaMethod X e ∧ Spec.NoLambdaMembers X es
/-- Of an optional operand. -/
def Spec.NoLambdaOpt (X : Ext) : Option Expr → Prop
  | none => True
  | some e => Spec.NoLambdaMethod X e
end

theorem Method.exec_registry_irrelevant (X : Ext) (r r' : Option Registry) (env : Env) (n : Str) (p : Bool) (v : Value)
    (args : List Arg) (h : X.lower n ∉ Spec.lambdaMethods) :
    Method.exec X r env n p v args = Method.exec X r' env n p v args := by
  simp only [Spec.lambdaMethods, List.mem_cons, List.not_mem_nil, or_false, not_or] at h
  unfold Method.exec
  simp only [h.1, h.2.1, h.2.2.1, h.2.2.2, if_false]

/-- Two argument lists that behave alike with and without the (empty) registry. -/
def Spec.SameArgs (r r' : Option Registry) (as : List Arg) : Prop :=
  ∀ a ∈ as, (∀ env, a.run r env = a.run r' env) ∧ ∀ d, a.spread = some d → ∀ env, d r env = d r' env

theorem evalArgs_same {r r' : Option Registry} {as : List Arg} (h : Spec.SameArgs r r' as) (env : Env) :
    evalArgs r env as = evalArgs r' env as := by
  induction as with
  | nil => rfl
  | cons a as ih =>
    have ha := h a (by simp)
    have ih := ih (fun b hb => h b (by simp [hb]))
    rw [evalArgs, evalArgs]
    split
    · rename_i d hd
      rw [ha.2 d hd env, ih]
    · rw [ha.1 env, ih]

theorem elements_same {r r' : Option Registry} {as : List Arg} (h : Spec.SameArgs r r' as) (env : Env) :
    elements r env as = elements r' env as := by
  induction as with
  | nil => rfl
  | cons a as ih =>
    have ha := h a (by simp)
    have ih := ih (fun b hb => h b (by simp [hb]))
    rw [elements, elements, ha.1 env, ih]

theorem lastOf_same {r r' : Option Registry} {as : List Arg} (h : Spec.SameArgs r r' as) (env : Env) (v : Value) :
    lastOf r env v as = lastOf r' env v as := by
  induction as generalizing v with
  | nil => rfl
  | cons a as ih =>
    have ha := h a (by simp)
    rw [lastOf, lastOf, ha.1 env]
    congr 1; funext w
    exact ih (fun b hb => h b (by simp [hb])) w

theorem paramName_same {r r' : Option Registry} {as : List Arg} (h : Spec.SameArgs r r' as) (env : Env) (d : Str)
    (o : Option Arg) (ho : ∀ a, o = some a → a ∈ as) : Eval.paramName r env d o = Eval.paramName r' env d o := by
  cases o with
  | none => rfl
  | some a => simp only [Eval.paramName, (h a (ho a rfl)).1 env]

theorem higherOrder_same (X : Ext) {r r' : Option Registry} {as : List Arg} (h : Spec.SameArgs r r' as) (env : Env)
    (n : Str) (f) (hf : Eval.higherOrder X n = some f) : f r env as = f r' env as := by
  have ex : ∀ {a : Arg}, a ∈ as → a.run r env = a.run r' env := fun ha => (h _ ha).1 env
  unfold Eval.higherOrder at hf
  repeat' split at hf
  all_goals try (simp only [Option.some.injEq, reduceCtorEq] at hf; subst hf)
  · unfold Eval.filter; split
    · rw [ex (by simp), paramName_same h env _ _ (by intro a ha; have := List.mem_of_mem_head? ha; simp [this])]
    · rfl
  · unfold Eval.find; split
    · rw [ex (by simp), paramName_same h env _ _ (by intro a ha; have := List.mem_of_mem_head? ha; simp [this])]
    · rfl
  · unfold Eval.map; split
    · rw [ex (by simp), paramName_same h env _ _ (by intro a ha; have := List.mem_of_mem_head? ha; simp [this])]
    · rfl
  · unfold Eval.reduce; split
    · rename_i a l i rest
      rw [ex (a := a) (by simp), ex (a := i) (by simp),
        paramName_same h env _ rest.head? (by intro a ha; have := List.mem_of_mem_head? ha; simp [this]),
        paramName_same h env _ rest[1]? (by intro a ha; have := List.mem_of_getElem? ha; simp [this])]
    · rfl
  · unfold Eval.sumif
    have hs : ∀ a ∈ as, Eval.staticCriterion r env a = Eval.staticCriterion r' env a := by
      intro a ha; unfold Eval.staticCriterion; rw [ex ha]
    split
    · rename_i a l
      simp only
      rw [ex (a := a) (by simp), hs l (by simp)]
    · rename_i a l s
      simp only
      rw [ex (a := a) (by simp), ex (a := s) (by simp), hs l (by simp)]
    · rfl
  · unfold Eval.avgif; split
    · rw [ex (by simp)]
    · rfl
  · unfold Eval.countif; split
    · rw [ex (by simp)]
    · rfl
  · unfold Eval.jq; split
    · rename_i a b
      rw [ex (a := a) (by simp), ex (a := b) (by simp)]
    · rfl
  · simp at hf

theorem eval_call_empty (X : Ext) (n : Str) (as : List Arg) (env : Env)
    (h : Spec.SameArgs (some Registry.empty) none as) :
    Eval.call X n as (some Registry.empty) env = Eval.call X n as none env := by
  unfold Eval.call
  have ht : Legacy.ternary (some Registry.empty) env as = Legacy.ternary none env as := by
    unfold Legacy.ternary
    split
    · rename_i c a b
      rw [(h c (by simp)).1 env, (h a (by simp)).1 env, (h b (by simp)).1 env]
    · rfl
  rw [ht]
  have hh : Registry.empty.has X n = false := rfl
  simp only [hh, Bool.false_eq_true, if_false]
  cases hf : Eval.higherOrder X n with
  | none => simp only [evalArgs_same h env]
  | some f => simp only [higherOrder_same X h env n f hf]

theorem objectMembers_same (X : Ext) {r r' : Option Registry} (env : Env) (ms : List (Str × Json)) (ds : List (Str × Den))
    (h : ∀ d ∈ ds, ∀ env, d.2 r env = d.2 r' env) :
    objectMembers X r env ms ds = objectMembers X r' env ms ds := by
  induction ds generalizing ms with
  | nil => rfl
  | cons d ds ih =>
    obtain ⟨k, d⟩ := d
    rw [objectMembers, objectMembers, show d r env = d r' env from h (k, d) (by simp) env]
    congr 1; funext v; congr 1; funext j
    exact ih _ (fun d hd => h d (by simp [hd]))

theorem optional_same {r r' : Option Registry} (env : Env) (o : Option Den)
    (h : ∀ d, o = some d → ∀ env, d r env = d r' env) : Legacy.optional r env o = Legacy.optional r' env o := by
  cases o with
  | none => rfl
  | some d => simp only [Legacy.optional, h d rfl env]

mutual
theorem eval_empty (X : Ext) : (e : Expr) → Spec.NoLambdaMethod X e → (env : Env) →
    Eval.eval X e (some Registry.empty) env = Eval.eval X e none env
  | .number _, _, _ | .strLit _, _, _ | .null, _, _ | .var _, _, _ | .spread _, _, _ => by simp only [Eval.eval]
  | .unary _ e, h, env => by
    rw [Spec.NoLambdaMethod] at h; simp only [Eval.eval, eval_empty X e h env]
  | .binary a _ b, h, env => by
    rw [Spec.NoLambdaMethod] at h; simp only [Eval.eval, eval_empty X a h.1 env, eval_empty X b h.2 env]
  | .prop e _, h, env => by rw [Spec.NoLambdaMethod] at h; simp only [Eval.eval, eval_empty X e h env]
  | .safeProp e _, h, env => by rw [Spec.NoLambdaMethod] at h; simp only [Eval.eval, eval_empty X e h env]
  | .safeCall t n es, h, env => by
    rw [Spec.NoLambdaMethod] at h
    simp only [Eval.eval, eval_empty X t h.2.1 env]
    congr 1; funext v
    split
    · rfl
    · exact Method.exec_registry_irrelevant X _ _ env n _ _ _ h.1
  | .array es, h, env => by
    rw [Spec.NoLambdaMethod] at h; simp only [Eval.eval, elements_same (args_empty X es h) env]
  | .object ms, h, env => by
    rw [Spec.NoLambdaMethod] at h; simp only [Eval.eval, objectMembers_same X env [] _ (members_empty X ms h)]
  | .cast e _, h, env => by rw [Spec.NoLambdaMethod] at h; simp only [Eval.eval, eval_empty X e h env]
  | .index a b, h, env => by
    rw [Spec.NoLambdaMethod] at h; simp only [Eval.eval, eval_empty X a h.1 env, eval_empty X b h.2 env]
  | .slice t a b, h, env => by
    rw [Spec.NoLambdaMethod] at h
    simp only [Eval.eval, eval_empty X t h.1 env, optional_same env _ (opt_empty X a h.2.1),
      optional_same env _ (opt_empty X b h.2.2)]
  | .call n es, h, env => by
    rw [Spec.NoLambdaMethod] at h; simp only [Eval.eval, eval_call_empty X n _ env (args_empty X es h)]
  | .method t n es p, h, env => by
    rw [Spec.NoLambdaMethod] at h
    simp only [Eval.eval, eval_empty X t h.2.1 env]
    congr 1; funext v
    exact Method.exec_registry_irrelevant X _ _ env n _ _ _ h.1
  | .assign _ e, h, env => by rw [Spec.NoLambdaMethod] at h; simp only [Eval.eval, eval_empty X e h env]
  | .seq es, h, env => by
    rw [Spec.NoLambdaMethod] at h; simp only [Eval.eval, lastOf_same (args_empty X es h) env]
theorem args_empty (X : Ext) : (es : List Expr) → Spec.NoLambdaMethods X es →
    Spec.SameArgs (some Registry.empty) none (Eval.argsOf X es)
  | [], _ => by intro a ha; simp [Eval.argsOf] at ha
  | e :: es, h => by
    rw [Spec.NoLambdaMethods] at h
    have ih := args_empty X es h.2
    have he := eval_empty X e h.1
    intro a ha
    rw [Eval.argsOf_cons] at ha
    rcases List.mem_cons.1 ha with rfl | ha
    · refine ⟨he, fun d hd => ?_⟩
      unfold Eval.argOf at hd
      split at hd
      · rename_i e'
        simp at hd; subst hd
        have h1 := h.1
        rw [Spec.NoLambdaMethod] at h1
        exact eval_empty X e' h1
      · simp at hd
    · exact ih a ha
theorem members_empty (X : Ext) : (ms : List (Str × Expr)) → Spec.NoLambdaMembers X ms →
    ∀ d ∈ Eval.membersOf X ms, ∀ env, d.2 (some Registry.empty) env = d.2 none env
  | [], _ => by intro a ha; simp [Eval.membersOf] at ha
  | (k, e) :: ms, h => by
    rw [Spec.NoLambdaMembers] at h
    intro d hd
    rw [Eval.membersOf] at hd
    rcases List.mem_cons.1 hd with rfl | hd
    · exact eval_empty X e h.1
    · exact members_empty X ms h.2 d hd
theorem opt_empty (X : Ext) : (o : Option Expr) → Spec.NoLambdaOpt X o →
    ∀ d, Eval.optOf X o = some d → ∀ env, d (some Registry.empty) env = d none env
  | none, _ => by intro d hd; simp [Eval.optOf] at hd
  | some e, h => by
    rw [Spec.NoLambdaOpt] at h
    intro d hd
    simp [Eval.optOf] at hd; subst hd
    exact eval_empty X e h
end

/-- C10, partial: `evaluate_with_custom` with an empty registry is `evaluate_with` for programs that call no
method taking a lambda. Missing: `.filter`, `.map`, `.find` and `.reduce`, for which it is false
(`C10_custom_with_empty_registry_differs`). -/
theorem C10_custom_with_empty_registry_partial (X : Ext) (s : Str) (e : Expr) (env : Env) (hp : parse s = .ok e)
    (h : Spec.NoLambdaMethod X e) : evaluateWithCustom X Registry.empty s env = evaluateWith X s env := by
  unfold evaluateWithCustom evaluateWith evalCustom evalVars
  rw [hp]
  exact eval_empty X e h env

/-- A case of it, with a method, a function with a lambda, and a spread. -/
example (X : Ext) : Spec.NoLambdaMethod X
    (.method (.call c!"MAP" [.array [.number .nan], .var c!"x"]) c!"sum" [.spread (.var c!"y")] false) := by
  have : X.lower c!"sum" = c!"sum" := by unfold Ext.lower; rw [if_pos (by decide)]; decide
  simp [Spec.NoLambdaMethod, Spec.NoLambdaMethods, Spec.lambdaMethods, this]
