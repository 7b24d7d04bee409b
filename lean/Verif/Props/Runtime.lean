import Verif.Model.Runtime
import Verif.Props.Forms
/-! C81: the evaluation functions of `skillet::runtime` against each other and against the library's entry points. -/

open Lib Spec

/-- Everything the first run produces, the second produces: values and panics. The first may fail where the second does not. -/
def Spec.Extends {α : Type} : Res α → Res α → Prop
  | .ok v, b => b = .ok v
  | .error (.panic w), b => b = .error (.panic w)
  | .error (.err ..), _ => True

/-- `Extends` as a congruence. -/
def Cong.extends : Cong where
  rel := Extends
  refl := by rintro α (f | v) <;> [cases f; skip] <;> simp [Extends]
  bind := by
    intro α β a b f g h hf
    match a, h with
    | .ok v, h => rw [show b = .ok v from h]; exact hf v
    | .error (.panic w), h => rw [show b = .error (.panic w) from h]; rfl
    | .error (.err ..), _ => trivial

theorem Spec.Extends.fail {α : Type} (m : String) (as : List Str) (b : Res α) : Extends (_root_.fail m as) b := trivial

theorem refl_extends {α : Type} (a : Res α) : Extends a a := Cong.extends.refl a

theorem runtime_binary (X : Ext) (op : BinaryOp) (a b : Value) : Extends (Runtime.binary X op a b) (Ops.binary X op a b) := by
  unfold Runtime.binary
  cases op <;> first
    | exact Cong.extends.refl _
    | (cases a <;> cases b <;> first | exact trivial | rfl)

theorem runtime_index (a b : Value) : Extends (Runtime.index a b) (Legacy.index a b) := by
  cases b with
  | num n => cases a <;> first | exact trivial | exact Cong.extends.refl _
  | _ => exact trivial

/-- The variable maps of the two runs: both empty at first, then unused. -/
def anyEnv : EnvRel := ⟨fun _ _ => True, fun _ _ _ => trivial⟩

/-- An argument as run in one fixed map. -/
def freeze (env : Env) (a : Arg) : Arg := ⟨fun _ _ => a.run none env, a.spread.map fun d _ _ => d none env, a.lit⟩

theorem evalArgs_freeze (env : Env) (as : List Arg) : evalArgs none env (as.map (freeze env)) = evalArgs none env as := by
  induction as with
  | nil => rfl
  | cons a as ih =>
    rw [List.map_cons, evalArgs, evalArgs, ih]
    cases h : a.spread <;> simp [freeze, h]

theorem elements_freeze (env : Env) (as : List Arg) : elements none env (as.map (freeze env)) = elements none env as := by
  induction as with
  | nil => rfl
  | cons a as ih => rw [List.map_cons, elements, elements, ih]; rfl

theorem ternary_freeze (env : Env) (as : List Arg) : Legacy.ternary none env (as.map (freeze env)) = Legacy.ternary none env as := by
  match as with
  | [] | [_] | [_, _] | [_, _, _] | _ :: _ :: _ :: _ :: _ => rfl

abbrev ExtArgs (X : Ext) (es : List Expr) : Prop :=
  ArgsRel Cong.extends anyEnv none none (Runtime.argsOf X es) ((Legacy.argsOf X es).map (freeze Env.empty))

theorem runtime_call (X : Ext) (n : Str) (es : List Expr) (h : ExtArgs X es) :
    Extends (Runtime.call X n (Runtime.argsOf X es)) (Legacy.call X n (Legacy.argsOf X es) none Env.empty) := by
  unfold Runtime.call Legacy.call
  split
  · rw [← ternary_freeze Env.empty (Legacy.argsOf X es)]; exact Sim.ternary (Q := Cong.extends) (E := anyEnv) h trivial
  split
  · exact trivial
  rename_i hn
  simp only [List.mem_cons, List.not_mem_nil, or_false, not_or] at hn
  have e : Legacy.higherOrder n = none := by simp [Legacy.higherOrder, hn]
  rw [e, ← evalArgs_freeze Env.empty (Legacy.argsOf X es)]
  exact Cong.extends.bind (Sim.evalArgs (E := anyEnv) h trivial) fun _ => Cong.extends.refl _

theorem runtime_method (X : Ext) (n : Str) (p : Bool) (v : Value) (es : List Expr) (h : ExtArgs X es) :
    Extends (Runtime.method X n p v (Legacy.argsOf X es) (Runtime.argsOf X es)) (Method.exec X none Env.empty n p v (Legacy.argsOf X es)) := by
  have hev : Sim.EvRel Cong.extends Env.empty Env.empty (Runtime.argsOf X es) (Legacy.argsOf X es) := by
    have := Sim.EvRel.of (env := Env.empty) (env' := Env.empty) h trivial
    rw [Sim.EvRel, List.forall₂_map_right_iff] at this
    exact this
  by_cases hn : X.lower n ∈ Sim.lambdaNames
  · cases v with
    | arr items =>
      unfold Runtime.method
      simp only
      rw [if_pos (by exact hn)]
      exact Cong.extends.refl _
    | _ =>
      unfold Runtime.method
      simp only
      exact Sim.exec_ev hev X n p _ (by rintro _ ⟨⟩)
  · have : Runtime.method X n p v (Legacy.argsOf X es) (Runtime.argsOf X es) = Method.exec X none Env.empty n p v (Runtime.argsOf X es) := by
      unfold Runtime.method
      cases v with
      | arr items => simp only; rw [if_neg (by exact hn)]
      | _ => rfl
    rw [this]
    exact Sim.exec_ev hev X n p v fun _ _ => hn

theorem Legacy.argsOf_freeze_cons (X : Ext) (e : Expr) (es : List Expr) :
    (Legacy.argsOf X (e :: es)).map (freeze Env.empty) = freeze Env.empty (Legacy.argOf X e) :: (Legacy.argsOf X es).map (freeze Env.empty) := by
  rw [Legacy.argsOf_cons]; rfl

mutual
theorem runtime_eval (X : Ext) (e : Expr) : Extends (Runtime.eval X e) (Legacy.eval X e none Env.empty) := by
  have B := @Cong.bind Cong.extends
  cases e with
  | number _ => simp only [Runtime.eval, Legacy.eval]; rfl
  | strLit _ => simp only [Runtime.eval, Legacy.eval]; rfl
  | null => simp only [Runtime.eval, Legacy.eval]; rfl
  | spread _ => simp only [Runtime.eval]; exact trivial
  | var n => simp only [Runtime.eval]; exact trivial
  | prop _ _ => simp only [Runtime.eval]; exact trivial
  | safeProp _ _ => simp only [Runtime.eval]; exact trivial
  | safeCall _ _ _ => simp only [Runtime.eval]; exact trivial
  | assign _ _ => simp only [Runtime.eval]; exact trivial
  | seq _ => simp only [Runtime.eval]; exact trivial
  | unary op e => simp only [Runtime.eval, Legacy.eval]; exact B (runtime_eval X e) fun v => Cong.extends.refl _
  | cast e t => simp only [Runtime.eval, Legacy.eval]; exact B (runtime_eval X e) fun v => Cong.extends.refl _
  | binary a op b =>
    simp only [Runtime.eval, Legacy.eval]
    exact B (runtime_eval X a) fun v => B (runtime_eval X b) fun w => runtime_binary X op v w
  | index a b =>
    simp only [Runtime.eval, Legacy.eval]
    exact B (runtime_eval X a) fun v => B (runtime_eval X b) fun w => runtime_index v w
  | call n es =>
    simp only [Runtime.eval, Legacy.eval]
    exact runtime_call X n es (runtime_args X es)
  | array es =>
    simp only [Runtime.eval, Legacy.eval]
    rw [← elements_freeze Env.empty (Legacy.argsOf X es)]
    exact B (Sim.elements (E := anyEnv) (runtime_args X es) trivial) fun v => Cong.extends.refl _
  | object ms =>
    simp only [Runtime.eval, Legacy.eval]
    exact B (runtime_members X ms []) fun v => Cong.extends.refl _
  | method t n es p =>
    simp only [Runtime.eval, Legacy.eval]
    exact B (runtime_eval X t) fun v => runtime_method X n p v es (runtime_args X es)
  | slice t a b =>
    simp only [Runtime.eval, Legacy.eval]
    refine B (runtime_eval X t) fun v => ?_
    cases v <;> first
      | exact trivial
      | exact B (runtime_opt X a) fun s => B (runtime_opt X b) fun e => Cong.extends.refl _
theorem runtime_args (X : Ext) (es : List Expr) : ExtArgs X es := by
  cases es with
  | nil => unfold ExtArgs; simp only [Runtime.argsOf, Legacy.argsOf]; exact .nil
  | cons e es =>
    unfold ExtArgs
    rw [Legacy.argsOf_freeze_cons]
    have ih := runtime_args X es
    have h' := runtime_eval X e
    cases e with
    | spread e =>
      have h := runtime_eval X e
      simp only [Runtime.argsOf]
      exact .cons ⟨fun _ _ _ => trivial, rfl, fun _ _ _ => h⟩ ih
    | strLit s =>
      simp only [Runtime.argsOf]
      exact .cons ⟨fun _ _ _ => Cong.extends.refl _, rfl, trivial⟩ ih
    | _ =>
      simp only [Runtime.argsOf]
      exact .cons ⟨fun _ _ _ => h', rfl, trivial⟩ ih
theorem runtime_members (X : Ext) (ms : List (Str × Expr)) (acc : List (Str × Json)) :
    Extends (objectMembers X none Env.empty acc (Runtime.membersOf X ms)) (objectMembers X none Env.empty acc (Legacy.membersOf X ms)) := by
  cases ms with
  | nil => simp only [Runtime.membersOf, Legacy.membersOf]; exact refl_extends _
  | cons m ms =>
    obtain ⟨k, e⟩ := m
    simp only [Runtime.membersOf, Legacy.membersOf, objectMembers]
    exact @Cong.bind Cong.extends _ _ _ _ _ _ (runtime_eval X e) fun v => @Cong.bind Cong.extends _ _ _ _ _ _ (Cong.extends.refl _) fun j => runtime_members X ms _
theorem runtime_opt (X : Ext) (o : Option Expr) :
    Extends (Legacy.optional none Env.empty (Runtime.optOf X o)) (Legacy.optional none Env.empty (Legacy.optOf X o)) := by
  cases o with
  | none => simp only [Runtime.optOf, Legacy.optOf]; exact refl_extends _
  | some e =>
    simp only [Runtime.optOf, Legacy.optOf, Legacy.optional]
    exact @Cong.bind Cong.extends _ _ _ _ _ _ (runtime_eval X e) fun v => Cong.extends.refl _
end

/-! ### Assignment programs -/

/-- An assignment program as the parser builds it from statements: a sequence of statements, each an assignment `:x := e` or an
expression `e`, where `e` reads alike in both evaluators and is not itself an assignment or a sequence. -/
def Spec.Statement : Expr → Prop
  | .assign _ e => Shared e ∧ (∀ x d, e ≠ .assign x d) ∧ (∀ ds, e ≠ .seq ds)
  | .seq _ => False
  | e => Shared e

/-- A program: one statement or several. -/
def Spec.Program : Expr → Prop
  | .seq es => ∀ e ∈ es, Statement e
  | e => Statement e

theorem assignments_other (X : Ext) (e : Expr) (h1 : ∀ x d, e ≠ .assign x d) (h2 : ∀ ds, e ≠ .seq ds) (env : Env) :
    Runtime.assignments X e env = (do return (← Legacy.eval X e none env, env)) ∧
    Eval.assignments X e env = (do return (← Eval.eval X e none env, env)) := by
  cases e with
  | assign x d => exact absurd rfl (h1 x d)
  | seq ds => exact absurd rfl (h2 ds)
  | _ => constructor <;> simp only [Runtime.assignments, Eval.assignments]

theorem statement_agree (X : Ext) (e : Expr) (h : Statement e) (env : Env) :
    Agree (Eval.assignments X e env) (Runtime.assignments X e env) := by
  have B := @Cong.bind Cong.agree
  by_cases ha : ∃ x d, e = .assign x d
  · obtain ⟨x, d, rfl⟩ := ha
    obtain ⟨hs, h1, h2⟩ := h
    simp only [Eval.assignments, Runtime.assignments]
    simp only [bind_assoc, pure_bind]
    exact B (eval_agree X d hs env) fun v => Cong.agree.refl _
  · have h1 : ∀ x d, e ≠ .assign x d := fun x d he => ha ⟨x, d, he⟩
    have h2 : ∀ ds, e ≠ .seq ds := by rintro ds rfl; exact h
    have hs : Shared e := by
      cases e with
      | assign x d => exact absurd rfl (h1 x d)
      | seq ds => exact absurd rfl (h2 ds)
      | _ => exact h
    rw [(assignments_other X e h1 h2 env).1, (assignments_other X e h1 h2 env).2]
    exact B (eval_agree X e hs env) fun v => Cong.agree.refl _

theorem statements_agree (X : Ext) (es : List Expr) (h : ∀ e ∈ es, Statement e) (v : Value) (env : Env) :
    Agree (Eval.assignmentsSeq X es v env) (Runtime.assignmentsSeq X es v env) := by
  induction es generalizing v env with
  | nil => simp only [Eval.assignmentsSeq, Runtime.assignmentsSeq]; rfl
  | cons e es ih =>
    simp only [Eval.assignmentsSeq, Runtime.assignmentsSeq]
    exact @Cong.bind Cong.agree _ _ _ _ _ _ (statement_agree X e (h e (by simp)) env) fun p => ih (fun e he => h e (by simp [he])) p.1 p.2

/-! ### C81 -/

/-- C81: whatever `runtime::eval` computes without variables, a value or a panic, `runtime::eval_with_vars` computes with the
empty map, for every expression. -/
theorem C81_eval_extends (X : Ext) (e : Expr) : Extends (Runtime.eval X e) (Runtime.evalWithVars X e Env.empty) := runtime_eval X e

/-- C81, partial: for expressions both evaluators read alike, `runtime::eval_with_vars` gives the value that
`evaluator::eval_with_vars` (behind `evaluate_with`) gives, fails when it fails (texts of errors may differ), and panics when it panics.
Missing: the calls `Shared` excludes, for which it is false, and the texts of errors. -/
theorem C81_with_vars_partial (X : Ext) (e : Expr) (h : Shared e) (vars : Env) :
    Agree (evalVars X e vars) (Runtime.evalWithVars X e vars) := eval_agree X e h vars

/-- C81, partial: the same for programs with assignments, including the variables afterwards. -/
theorem C81_assignments_partial (X : Ext) (e : Expr) (h : Program e) (vars : Env) :
    Agree (evalAssignCtx X e vars) (Runtime.evalWithAssignmentsCtx X e vars) ∧
    Agree (evalAssign X e vars) (Runtime.evalWithAssignments X e vars) := by
  have key : Agree (Eval.assignments X e vars) (Runtime.assignments X e vars) := by
    cases e with
    | seq es => simp only [Eval.assignments, Runtime.assignments]; exact statements_agree X es h _ _
    | _ => exact statement_agree X _ (by simpa only [Program] using h) vars
  exact ⟨key, @Cong.bind Cong.agree _ _ _ _ _ _ key fun _ => Cong.agree.refl _⟩

/-- C81 fails: `runtime::eval` refuses to compare texts; the value of an assignment inside an assignment is bound by
`runtime::eval_with_assignments_and_context` but not by the evaluator behind the entry points; and `BETWEEN` is known to one evaluator only. -/
theorem C81_differ (X : Ext) :
    Runtime.eval X (.binary (.strLit c!"a") .eq (.strLit c!"a")) = fail "Comparison on non-number" ∧
    Runtime.evalWithVars X (.binary (.strLit c!"a") .eq (.strLit c!"a")) Env.empty = .ok (.bool true) ∧
    (∃ e env env', parse c!":a := (:b := 1)" = .ok e ∧
      Runtime.evalWithAssignmentsCtx X e Env.empty = .ok (.num (.fin 1), env) ∧ env c!"b" = some (.num (.fin 1)) ∧
      evalAssignCtx X e Env.empty = .ok (.num (.fin 1), env') ∧ env' c!"b" = none) ∧
    (∃ e, parse c!"BETWEEN(1, 3, 2)" = .ok e ∧ Runtime.evalWithVars X e Env.empty = .ok (.bool true) ∧
      evalVars X e Env.empty = fail "Unknown function: {}" [c!"BETWEEN"]) := by
  refine ⟨by kernel_rfl, by kernel_rfl, ?_, ?_⟩
  · refine ⟨.assign c!"a" (.assign c!"b" (.number (.fin 1))), (Env.empty.insert c!"b" (.num (.fin 1))).insert c!"a" (.num (.fin 1)),
      Env.empty.insert c!"a" (.num (.fin 1)), by kernel_rfl, by kernel_rfl, by kernel_rfl, by kernel_rfl, by kernel_rfl⟩
  · exact ⟨.call c!"BETWEEN" [.number (.fin 1), .number (.fin 3), .number (.fin 2)], by kernel_rfl, by kernel_rfl, by kernel_rfl⟩

/-- A value, a panic and a program the theorems are about. -/
example (X : Ext) : (∃ v, Runtime.eval X (.method (.array [.number (.fin 1)]) c!"map" [.binary (.var c!"x") .add (.number (.fin 1))] false) = .ok v) ∧
    (∃ w, Runtime.eval X (.index (.array []) (.unary .minus (.number (.fin (2 ^ 63))))) = panics w) :=
  ⟨⟨.arr [.num (.fin 2)], by kernel_rfl⟩, ⟨"attempt to negate with overflow", by kernel_rfl⟩⟩

example : Program (.seq [.assign c!"a" (.number (.fin 1)), .binary (.var c!"a") .add (.number (.fin 1))]) := by
  intro e he
  simp only [List.mem_cons, List.not_mem_nil, or_false] at he
  rcases he with rfl | rfl <;> simp [Statement, Shared]
