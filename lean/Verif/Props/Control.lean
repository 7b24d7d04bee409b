import Verif.Lemmas.F64Order
import Verif.Props.Entry
/-! C11–C16, C23: assignments, ternary, operators, safe navigation. -/

open Lib

/-! ### C11, C12: assignments -/

namespace Spec

/-- A statement: `:x := e`, or an expression. -/
inductive Stmt where
  | set (x : Str) (e : Expr)
  | run (e : Expr)

/-- The tree of a statement. -/
def Stmt.expr : Stmt → Expr
  | .set x e => .assign x e
  | .run e => e

/-- The right-hand side, or the expression. -/
def Stmt.value : Stmt → Expr
  | .set _ e => e
  | .run e => e

/-- What a statement with value `v` does to the variables. -/
def Stmt.after : Stmt → Value → Env → Env
  | .set x _, v, env => env.insert x v
  | .run _, _, env => env

/-- An expression statement is not itself an assignment or a sequence. -/
def Stmt.Ok : Stmt → Prop
  | .set _ _ => True
  | .run (.assign _ _) => False
  | .run (.seq _) => False
  | .run _ => True

/-- `Exec X env ss last v env'`: from variables `env`, running the statements `ss` in order, each in the
variables left by those before it, all succeed; the last value is `v` (or `last` when there is no statement) and
the variables are then `env'`. -/
inductive Exec (X : Ext) : Env → List Stmt → Value → Value → Env → Prop
  | nil {env : Env} {last : Value} : Exec X env [] last last env
  | cons {env env' : Env} {s : Stmt} {ss : List Stmt} {last v w : Value} :
      evalVars X s.value env = .ok v → Exec X (s.after v env) ss v w env' → Exec X env (s :: ss) last w env'

end Spec

open Spec

theorem assignments_stmt (X : Ext) (s : Stmt) (h : s.Ok) (env : Env) :
    Eval.assignments X s.expr env = (do let v ← evalVars X s.value env; return (v, s.after v env)) := by
  cases s with
  | set x e => simp only [Stmt.expr, Eval.assignments, Stmt.value, Stmt.after, evalVars]
  | run e => cases e <;> first | exact False.elim h | simp only [Stmt.expr, Eval.assignments, Stmt.value, Stmt.after, evalVars]

theorem assignmentsSeq_cons (X : Ext) (s : Stmt) (h : s.Ok) (ss : List Expr) (last : Value) (env : Env) :
    Eval.assignmentsSeq X (s.expr :: ss) last env =
      (do let v ← evalVars X s.value env; Eval.assignmentsSeq X ss v (s.after v env)) := by
  rw [Eval.assignmentsSeq]
  simp only
  rw [assignments_stmt X s h env]
  cases evalVars X s.value env <;> rfl

theorem assignmentsSeq_ok (X : Ext) (ss : List Stmt) (h : ∀ s ∈ ss, s.Ok) (last v : Value) (env env' : Env) :
    Eval.assignmentsSeq X (ss.map Stmt.expr) last env = .ok (v, env') ↔ Exec X env ss last v env' := by
  induction ss generalizing last env with
  | nil =>
    simp only [List.map_nil, Eval.assignmentsSeq]
    constructor
    · intro h; simp at h; obtain ⟨rfl, rfl⟩ := h; exact .nil
    · intro h; cases h; rfl
  | cons s ss ih =>
    rw [List.map_cons, assignmentsSeq_cons X s (h s (by simp))]
    have ih := fun last env => ih (fun t ht => h t (by simp [ht])) last env
    constructor
    · intro hx
      cases hv : evalVars X s.value env with
      | error f => rw [hv] at hx; simp [bind, Except.bind] at hx
      | ok w =>
        rw [hv] at hx
        exact .cons hv ((ih _ _).1 hx)
    · intro hx
      cases hx with
      | cons hv hr => rw [hv]; exact (ih _ _).2 hr

/-- C11. Running `s1; …; sn` succeeds with value `v` and variables `env'` exactly when evaluating the statements
left to right does: `:x := e` gives the value of `e` and binds `x` to it, an expression changes no variable. -/
theorem C11_assignment_semantics (X : Ext) (ss : List Stmt) (h : ∀ s ∈ ss, s.Ok) (env env' : Env) (v : Value) :
    evalAssignCtx X (.seq (ss.map Stmt.expr)) env = .ok (v, env') ↔ Exec X env ss .null v env' := by
  unfold evalAssignCtx
  rw [Eval.assignments]
  exact assignmentsSeq_ok X ss h .null v env env'

/-- The hypothesis of `C11_assignment_semantics`: `:a := 1; :a`. -/
example (X : Ext) := C11_assignment_semantics X [.set c!"a" (.number (F64.ofNat 1)), .run (.var c!"a")]
  (by intro s hs; simp at hs; rcases hs with rfl | rfl <;> trivial) Env.empty

/-- C11, errors: the program fails exactly with the first failing statement, evaluated in the variables left by
those before it. -/
theorem C11_first_error_aborts (X : Ext) (ss : List Stmt) (h : ∀ s ∈ ss, s.Ok) (env : Env) (f : Fail) :
    evalAssignCtx X (.seq (ss.map Stmt.expr)) env = .error f ↔
      ∃ pre s post w env1, ss = pre ++ s :: post ∧ Exec X env pre .null w env1 ∧
        evalVars X s.value env1 = .error f := by
  unfold evalAssignCtx
  rw [Eval.assignments]
  have gen : ∀ (ss : List Stmt) (_ : ∀ s ∈ ss, s.Ok) (last : Value) (env : Env),
      Eval.assignmentsSeq X (ss.map Stmt.expr) last env = .error f ↔
        ∃ pre s post w env1, ss = pre ++ s :: post ∧ Exec X env pre last w env1 ∧
          evalVars X s.value env1 = .error f := by
    intro ss
    induction ss with
    | nil =>
      intro _ last env
      simp [Eval.assignmentsSeq]
    | cons s ss ih =>
      intro h last env
      rw [List.map_cons, assignmentsSeq_cons X s (h s (by simp))]
      have ih := fun last env => ih (fun t ht => h t (by simp [ht])) last env
      cases hv : evalVars X s.value env with
      | error g =>
        constructor
        · intro hx
          have hx : Except.error g = (Except.error f : Res (Value × Env)) := hx
          simp at hx; subst hx
          exact ⟨[], s, ss, last, env, rfl, .nil, hv⟩
        · rintro ⟨pre, t, post, w, env1, heq, hex, herr⟩
          cases pre with
          | nil =>
            simp at heq; obtain ⟨rfl, rfl⟩ := heq
            cases hex
            rw [hv] at herr; simp at herr; subst herr; rfl
          | cons u pre =>
            simp at heq; obtain ⟨rfl, rfl⟩ := heq
            cases hex with
            | cons hv' _ => rw [hv] at hv'; simp at hv'
      | ok w =>
        constructor
        · intro hx
          obtain ⟨pre, t, post, w', env1, heq, hex, herr⟩ := (ih _ _).1 hx
          exact ⟨s :: pre, t, post, w', env1, by rw [heq]; rfl, .cons hv hex, herr⟩
        · rintro ⟨pre, t, post, w', env1, heq, hex, herr⟩
          cases pre with
          | nil =>
            simp at heq; obtain ⟨rfl, rfl⟩ := heq
            cases hex
            rw [hv] at herr; simp at herr
          | cons u pre =>
            simp at heq; obtain ⟨rfl, rfl⟩ := heq
            cases hex with
            | cons hv' hr =>
              rw [hv] at hv'; simp at hv'; subst hv'
              exact (ih _ _).2 ⟨pre, t, post, w', env1, rfl, hr, herr⟩
  exact gen ss h .null env

/-- The hypothesis of `C11_first_error_aborts`: `:a := 1; :b; :a`. -/
example (X : Ext) := C11_first_error_aborts X [.set c!"a" (.number (F64.ofNat 1)), .run (.var c!"b"), .run (.var c!"a")]
  (by intro s hs; simp at hs; rcases hs with rfl | rfl | rfl <;> trivial) Env.empty

/-- C11 for a program of a single statement (no `;`). -/
theorem C11_single_statement (X : Ext) (s : Stmt) (h : s.Ok) (env : Env) :
    evalAssignCtx X s.expr env = (match evalVars X s.value env with
      | .ok v => .ok (v, s.after v env)
      | .error f => .error f) := by
  unfold evalAssignCtx
  rw [assignments_stmt X s h env]
  cases evalVars X s.value env <;> rfl

/-- `evaluate_with_assignments` is the value of the program. -/
theorem C11_value_only (X : Ext) (e : Expr) (env : Env) :
    evalAssign X e env = (evalAssignCtx X e env).map Prod.fst := by
  unfold evalAssign evalAssignCtx
  cases Eval.assignments X e env <;> rfl

/-- A concrete case of C11: `:a := 1; :b := :a + 1; :a := :b`. -/
example (X : Ext) : ∃ env', evaluateWithAssignmentsCtx X c!":a := 1; :b := :a + 1; :a := :b" Env.empty =
    .ok (.num (F64.ofNat 2), env') ∧ env' c!"a" = some (.num (F64.ofNat 2)) ∧ env' c!"c" = none :=
  ⟨((Env.empty.insert c!"a" (.num (F64.ofNat 1))).insert c!"b" (.num (F64.ofNat 2))).insert c!"a" (.num (F64.ofNat 2)),
    by kernel_rfl, by kernel_rfl, by kernel_rfl⟩

/-- C12 fails: an assignment inside another expression is lost; the next statement does not see it. -/
theorem C12_nested_assignment_is_lost (X : Ext) :
    evaluateWithAssignments X c!"1 + (:x := 2); :x" Env.empty = fail "Missing variable: :{}" [c!"x"] ∧
    evaluateWithAssignments X c!":a := (:x := 2); :x" Env.empty = fail "Missing variable: :{}" [c!"x"] :=
  ⟨by kernel_rfl, by kernel_rfl⟩

/-- C12, in general: no expression statement changes any variable, whatever assignments it contains. -/
theorem C12_expression_statements_bind_nothing (X : Ext) (e : Expr) (h : (Stmt.run e).Ok) (env env' : Env)
    (v : Value) (hx : evalAssignCtx X e env = .ok (v, env')) : env' = env := by
  have := C11_single_statement X (.run e) h env
  rw [show Stmt.expr (.run e) = e from rfl, hx] at this
  revert this
  simp only [Stmt.value, Stmt.after]
  cases evalVars X e env with
  | error f => intro h; cases h
  | ok w => intro h; cases h; rfl

/-- The hypotheses of `C12_expression_statements_bind_nothing`: an assignment below the top level. -/
example (X : Ext) := C12_expression_statements_bind_nothing X (.array [.assign c!"a" (.number (F64.ofNat 1))]) trivial
  Env.empty Env.empty (.arr [.num (F64.ofNat 1)]) rfl

/-- C12, partial: an assignment that is a statement of its own is visible to the next statement. Missing: an
assignment below the top level, for which it is false. -/
theorem C12_statement_assignment_visible_partial (X : Ext) (x : Str) (e : Expr) (env : Env) (v : Value)
    (h : evalVars X e env = .ok v) : evalAssign X (.seq [.assign x e, .var x]) env = .ok v := by
  have := (C11_assignment_semantics X [.set x e, .run (.var x)] (by intro s hs; simp at hs; rcases hs with rfl | rfl <;> trivial)
    env (env.insert x v) v).2 (.cons h (.cons (v := v) (by simp [Stmt.value, Stmt.after, evalVars, Eval.eval, Env.insert]) .nil))
  rw [C11_value_only]
  simp only [List.map_cons, List.map_nil, Stmt.expr] at this
  rw [this]; rfl

/-! ### C13: the ternary -/

/-- C13. `c ? a : b` evaluates `c`; if it is a boolean the result is exactly the one of the chosen branch (value,
error or panic) and the other branch plays no part; a failing condition fails with that error; a condition that
is no boolean is an error. -/
theorem C13_ternary_lazy (X : Ext) (c a b : Src) (r : Option Registry) (env : Env) :
    Eval.eval X (Src.tern c a b).toExpr r env =
      match Eval.eval X c.toExpr r env with
      | .ok (.bool true) => Eval.eval X a.toExpr r env
      | .ok (.bool false) => Eval.eval X b.toExpr r env
      | .ok _ => fail "Ternary condition must be boolean"
      | .error f => .error f := by
  rw [Src.toExpr]
  simp only [Eval.eval, Eval.argsOf_eq, List.map_cons, List.map_nil, Eval.call, if_true, Legacy.ternary, Eval.argOf_run]
  cases Eval.eval X c.toExpr r env with
  | error f => rfl
  | ok v =>
    cases v with
    | bool q => cases q <;> rfl
    | _ => rfl

/-- A concrete case of C13: the branch not taken fails. -/
example (X : Ext) : evaluate X c!"1 < 2 ? 3 : NOPE()" = .ok (.num (F64.ofNat 3)) ∧
    evaluate X c!"1 > 2 ? :missing : 4" = .ok (.num (F64.ofNat 4)) := ⟨by kernel_rfl, by kernel_rfl⟩

/-! ### C14: `&&` and `||` -/

/-- C14 fails: the right operand is evaluated whatever the left one is, and its errors surface. -/
theorem C14_no_short_circuit (X : Ext) :
    evaluate X c!"FALSE && :missing" = fail "Missing variable: :{}" [c!"missing"] ∧
    evaluate X c!"TRUE || 1" = fail "Logical op on non-boolean" := ⟨by kernel_rfl, by kernel_rfl⟩

/-- C14 fails in general: any operator applied to a failing right operand fails with its error, once the left
operand has a value. -/
theorem C14_right_operand_always_evaluated (X : Ext) (a b : Expr) (op : BinaryOp) (r : Option Registry) (env : Env)
    (v : Value) (f : Fail) (ha : Eval.eval X a r env = .ok v) (hb : Eval.eval X b r env = .error f) :
    Eval.eval X (.binary a op b) r env = .error f := by
  simp [Eval.eval, ha, hb, bind, Except.bind]

/-- The hypotheses of `C14_right_operand_always_evaluated`: `FALSE && :missing`. -/
example (X : Ext) := C14_right_operand_always_evaluated X (.call c!"__CONST_FALSE__" []) (.var c!"missing") .and none Env.empty
  (.bool false) (.err "Missing variable: :{}" [c!"missing"] none) rfl rfl

/-- C14, partial: when both operands evaluate to booleans, `&&` and `||` are conjunction and disjunction. Missing:
operands that fail or are not booleans, for which there is no short circuit. -/
theorem C14_and_or_partial (X : Ext) (a b : Expr) (r : Option Registry) (env : Env) (p q : Bool)
    (ha : Eval.eval X a r env = .ok (.bool p)) (hb : Eval.eval X b r env = .ok (.bool q)) :
    Eval.eval X (.binary a .and b) r env = .ok (.bool (p && q)) ∧
    Eval.eval X (.binary a .or b) r env = .ok (.bool (p || q)) := by
  simp [Eval.eval, ha, hb, bind, Except.bind, Ops.binary, Value.asBool]

/-- A case of the partial theorem. -/
example (X : Ext) : evaluate X c!"1 < 2 && !(2 < 1) || FALSE" = .ok (.bool true) := by kernel_rfl

/-! ### C15, C16: comparison -/

/-- The result of evaluating `a op b` where the operands evaluate to the values `a` and `b`. -/
def Spec.Op (X : Ext) (op : BinaryOp) (a b : Value) (res : Res Value) : Prop :=
  ∀ (r : Option Registry) (env : Env) (ea eb : Expr), Eval.eval X ea r env = .ok a → Eval.eval X eb r env = .ok b →
    Eval.eval X (.binary ea op eb) r env = res

theorem Spec.op_iff (X : Ext) (op : BinaryOp) (a b : Value) (res : Res Value) :
    Op X op a b res ↔ Ops.binary X op a b = res := by
  constructor
  · intro h
    have := h none ((Env.empty.insert c!"a" a).insert c!"b" b) (.var c!"a") (.var c!"b")
      (by simp [Eval.eval, Env.insert]) (by simp [Eval.eval, Env.insert])
    rw [← this]
    simp [Eval.eval, Env.insert, bind, Except.bind]
  · intro h r env ea eb ha hb
    simp [Eval.eval, ha, hb, bind, Except.bind, h]

/-- C15: `==` and `!=` are defined for all values, and `!=` is the negation of `==`. -/
theorem C15_ne_is_not_eq (X : Ext) (a b : Value) :
    ∃ t : Bool, Op X .eq a b (.ok (.bool t)) ∧ Op X .ne a b (.ok (.bool !t)) := by
  simp only [op_iff]
  cases a <;> cases b <;> exact ⟨_, rfl, rfl⟩

/-- C15: `a > b` is `b < a` and `a >= b` is `b <= a`, result and error alike. -/
theorem C15_flip (X : Ext) (a b : Value) :
    (∃ res, Op X .gt a b res ∧ Op X .lt b a res) ∧ (∃ res, Op X .ge a b res ∧ Op X .le b a res) := by
  simp only [op_iff]
  constructor
  · refine ⟨_, rfl, ?_⟩
    cases a <;> cases b <;> rfl
  · refine ⟨_, rfl, ?_⟩
    cases a <;> cases b <;> rfl

/-- Values with an order: two numbers or two strings. -/
inductive Spec.Ordered : Value → Value → Prop
  | num (x y : F64) : Ordered (.num x) (.num y)
  | str (x y : Str) : Ordered (.str x) (.str y)

/-- C15: on numbers (NaN included) and on strings, `a <= b` is `a < b || a == b`. -/
theorem C15_le_is_lt_or_eq (X : Ext) (a b : Value) (h : Ordered a b) :
    ∃ l e : Bool, Op X .lt a b (.ok (.bool l)) ∧ Op X .eq a b (.ok (.bool e)) ∧ Op X .le a b (.ok (.bool (l || e))) := by
  simp only [op_iff]
  cases h with
  | num x y => exact ⟨_, _, rfl, rfl, by simp [Ops.binary, Ops.compare, Ops.cmpNum, F64.fle_iff_flt_or_feq]⟩
  | str x y => exact ⟨_, _, rfl, rfl, by simp [Ops.binary, Ops.compare, Ops.cmpStr, Str.le_iff]⟩

/-- C15: on numbers that are not NaN and on strings, exactly one of `a < b`, `a == b`, `b < a` holds. -/
theorem C15_trichotomy (X : Ext) (a b : Value) (h : Ordered a b) (ha : a ≠ .num .nan) (hb : b ≠ .num .nan) :
    ∃ l e g : Bool, Op X .lt a b (.ok (.bool l)) ∧ Op X .eq a b (.ok (.bool e)) ∧ Op X .lt b a (.ok (.bool g)) ∧
      (l, e, g) ∈ [(true, false, false), (false, true, false), (false, false, true)] := by
  simp only [op_iff]
  cases h with
  | num x y =>
    refine ⟨_, _, _, rfl, rfl, rfl, ?_⟩
    have hx : x ≠ .nan := by rintro rfl; exact ha rfl
    have hy : y ≠ .nan := by rintro rfl; exact hb rfl
    simp only [Ops.cmpNum]
    rcases lt_trichotomy x.key y.key with h | h | h
    · have h1 : F64.flt x y = true := (F64.flt_iff x y).2 ⟨hx, hy, h⟩
      have h2 : F64.feq x y = false := by rw [← Bool.not_eq_true, F64.feq_iff]; rintro ⟨_, _, h'⟩; rw [h'] at h; exact lt_irrefl _ h
      have h3 : F64.flt y x = false := by rw [← Bool.not_eq_true, F64.flt_iff]; rintro ⟨_, _, h'⟩; exact lt_asymm h h'
      simp [h1, h2, h3]
    · have h1 : F64.flt x y = false := by rw [← Bool.not_eq_true, F64.flt_iff, h]; rintro ⟨_, _, h'⟩; exact lt_irrefl _ h'
      have h2 : F64.feq x y = true := (F64.feq_iff x y).2 ⟨hx, hy, h⟩
      have h3 : F64.flt y x = false := by rw [← Bool.not_eq_true, F64.flt_iff, h]; rintro ⟨_, _, h'⟩; exact lt_irrefl _ h'
      simp [h1, h2, h3]
    · have h1 : F64.flt y x = true := (F64.flt_iff y x).2 ⟨hy, hx, h⟩
      have h2 : F64.feq x y = false := by rw [← Bool.not_eq_true, F64.feq_iff]; rintro ⟨_, _, h'⟩; rw [h'] at h; exact lt_irrefl _ h
      have h3 : F64.flt x y = false := by rw [← Bool.not_eq_true, F64.flt_iff]; rintro ⟨_, _, h'⟩; exact lt_asymm h h'
      simp [h1, h2, h3]
  | str x y =>
    refine ⟨_, _, _, rfl, rfl, rfl, ?_⟩
    simp only [Ops.cmpStr]
    have asym : ∀ {p q : Str}, Str.lt p q = true → Str.lt q p = false := by
      intro p q hpq
      cases hq : Str.lt q p with
      | false => rfl
      | true => have := Str.lt_trans hpq hq; rw [Str.lt_irrefl] at this; simp at this
    have ne : ∀ {p q : Str}, Str.lt p q = true → (p == q) = false := by
      intro p q hpq
      rw [← Bool.not_eq_true, beq_iff_eq]; rintro rfl; rw [Str.lt_irrefl] at hpq; simp at hpq
    rcases Str.lt_trichotomy x y with h | h | h
    · simp [h, asym h, show x ≠ y by have := ne h; simpa using this]
    · subst h; simp [Str.lt_irrefl]
    · simp [h, asym h, show x ≠ y by have := ne h; simp at this; exact fun h => this h.symm]

/-- The hypotheses of `C15_trichotomy`, for numbers and for texts. -/
example (X : Ext) := And.intro
  (C15_trichotomy X (.num (F64.ofNat 1)) (.num (F64.ofNat 2)) (.num _ _)
    (by intro h; injection h with h; revert h; decide +kernel) (by intro h; injection h with h; revert h; decide +kernel))
  (C15_trichotomy X (.str c!"a") (.str c!"b") (.str _ _) (by simp) (by simp))

/-- C15: `<` is transitive. -/
theorem C15_lt_trans (X : Ext) (a b c : Value) (hab : Op X .lt a b (.ok (.bool true)))
    (hbc : Op X .lt b c (.ok (.bool true))) : Op X .lt a c (.ok (.bool true)) := by
  rw [op_iff] at *
  cases a <;> cases b <;> first
    | (simp [Ops.binary, Ops.compare, fail] at hab; done)
    | (cases c <;> first
        | (simp [Ops.binary, Ops.compare, fail] at hbc; done)
        | (simp [Ops.binary, Ops.compare, Ops.cmpNum, Ops.cmpStr] at *
           first | exact F64.flt_trans hab hbc | exact Str.lt_trans hab hbc))

/-- C15: the order on numbers is the order of their values (`F64.key`: infinities outside, both zeros equal), and
NaN is unordered and different from everything. -/
theorem C15_numbers_by_value (X : Ext) (x y : F64) :
    (x ≠ .nan → y ≠ .nan → Op X .lt (.num x) (.num y) (.ok (.bool (decide (x.key < y.key)))) ∧
      Op X .eq (.num x) (.num y) (.ok (.bool (decide (x.key = y.key))))) ∧
    (x = .nan ∨ y = .nan → Op X .lt (.num x) (.num y) (.ok (.bool false)) ∧
      Op X .eq (.num x) (.num y) (.ok (.bool false))) := by
  simp only [op_iff, Ops.binary, Ops.compare, Ops.cmpNum]
  constructor
  · intro hx hy
    constructor <;> congr 2 <;> rw [Bool.eq_iff_iff, decide_eq_true_iff]
    · rw [F64.flt_iff]; tauto
    · rw [F64.feq_iff]; tauto
  · intro h
    constructor <;> congr 2 <;> rw [← Bool.not_eq_true]
    · rw [F64.flt_iff]; tauto
    · rw [F64.feq_iff]; tauto

/-- C15: for two booleans no order holds; for any other pair that is not two numbers or two strings, ordering is
an error. -/
theorem C15_unordered (X : Ext) (a b : Value) (h : ¬ Ordered a b) (op : BinaryOp) (hop : op ∈ [BinaryOp.lt, .le, .gt, .ge]) :
    ((∃ p q, a = .bool p ∧ b = .bool q) → Op X op a b (.ok (.bool false))) ∧
    ((¬ ∃ p q, a = .bool p ∧ b = .bool q) → Op X op a b (fail "Comparison of incompatible types")) := by
  simp only [op_iff]
  simp only [List.mem_cons, List.not_mem_nil, or_false] at hop
  constructor
  · rintro ⟨p, q, rfl, rfl⟩
    rcases hop with rfl | rfl | rfl | rfl <;> rfl
  · intro hb
    rcases hop with rfl | rfl | rfl | rfl <;> cases a <;> cases b <;> first
      | rfl
      | exact (h (.num _ _)).elim
      | exact (h (.str _ _)).elim
      | exact (hb ⟨_, _, rfl, rfl⟩).elim

/-- The hypotheses of `C15_unordered`: a number and a text. -/
example (X : Ext) := C15_unordered X (.num (F64.ofNat 1)) (.str c!"a") (by intro h; cases h) .le (by simp)

/-- C16 fails: `NULL == NULL`, `[1] == [1]` and a currency compared with itself are all false. -/
theorem C16_eq_not_reflexive (X : Ext) :
    evaluate X c!"NULL == NULL" = .ok (.bool false) ∧ evaluate X c!"[1] == [1]" = .ok (.bool false) ∧
    evaluate X c!"1::Currency == 1::Currency" = .ok (.bool false) ∧
    evaluate X c!"0/0 == 0/0" = .ok (.bool false) :=
  ⟨by kernel_rfl, by kernel_rfl, by kernel_rfl, by kernel_rfl⟩

/-- C16, exactly: `e == e` is true iff the value of `e` is a number other than NaN, a string or a boolean. -/
theorem C16_eq_reflexive_iff (X : Ext) (e : Expr) (r : Option Registry) (env : Env) (v : Value)
    (h : Eval.eval X e r env = .ok v) :
    Eval.eval X (.binary e .eq e) r env = .ok (.bool true) ↔
      (∃ x, v = .num x ∧ x ≠ .nan) ∨ (∃ s, v = .str s) ∨ (∃ b, v = .bool b) := by
  simp only [Eval.eval, h, bind, Except.bind, Ops.binary]
  cases v <;> simp [Ops.compare, Ops.cmpNum, Ops.cmpStr, F64.feq_iff]

/-- C16, partial: equality is reflexive on strings, booleans and numbers other than NaN. Missing: the values for
which it is false. -/
theorem C16_eq_reflexive_partial (X : Ext) (e : Expr) (r : Option Registry) (env : Env) (v : Value)
    (h : Eval.eval X e r env = .ok v)
    (hv : (∃ x, v = .num x ∧ x ≠ .nan) ∨ (∃ s, v = .str s) ∨ (∃ b, v = .bool b)) :
    Eval.eval X (.binary e .eq e) r env = .ok (.bool true) := (C16_eq_reflexive_iff X e r env v h).2 hv

/-- A case of C16's partial theorem. -/
example (X : Ext) : evaluate X c!"1 + 2 == 1 + 2" = .ok (.bool true) := by kernel_rfl

/-! ### C23: safe navigation -/

/-- C23: on null, `x&.p` and `x&.m(…)` are null, and the arguments are not evaluated. -/
theorem C23_null_receiver (X : Ext) (t : Expr) (p m : Str) (args : List Expr) (r : Option Registry) (env : Env)
    (h : Eval.eval X t r env = .ok .null) :
    Eval.eval X (.safeProp t p) r env = .ok .null ∧ Eval.eval X (.safeCall t m args) r env = .ok .null := by
  simp [Eval.eval, h, bind, Except.bind, Ops.property, pure, Except.pure]

/-- C23: on a JSON document, `x&.p` is null when the document has no member `p` (objects without it, and
documents that are not objects) and the member otherwise; `x.p` differs only in the first case, which is an error. -/
theorem C23_property (X : Ext) (t : Expr) (p : Str) (r : Option Registry) (env : Env) (s : Str) (j : Json)
    (h : Eval.eval X t r env = .ok (.json s)) (hj : X.jsonParse s = .ok j) :
    (j.get p = none → Eval.eval X (.safeProp t p) r env = .ok .null ∧
      Eval.eval X (.prop t p) r env = fail "Property '{}' not found in JSON object" [p]) ∧
    (∀ m, j.get p = some m → Eval.eval X (.safeProp t p) r env = .ok (m.toValue X) ∧
      Eval.eval X (.prop t p) r env = .ok (m.toValue X)) := by
  simp only [Eval.eval, h, bind, Except.bind, Ops.property, parseJson, hj]
  constructor
  · intro hg; simp [hg]
  · intro m hg; simp [hg]

/-- The hypotheses of `C23_property`: a document in a variable. -/
example (X : Ext) (h : X.jsonParse c!"{\"a\":1}" = .ok (.obj [(c!"a", .num (.int 1))])) :=
  C23_property X (.var c!"d") c!"a" none (Env.empty.insert c!"d" (.json c!"{\"a\":1}")) c!"{\"a\":1}" _ rfl h

/-- C23: whenever `x.p` succeeds, `x&.p` is the same value. -/
theorem C23_agrees (X : Ext) (t : Expr) (p : Str) (r : Option Registry) (env : Env) (v : Value)
    (h : Eval.eval X (.prop t p) r env = .ok v) : Eval.eval X (.safeProp t p) r env = .ok v := by
  simp only [Eval.eval] at *
  cases ht : Eval.eval X t r env with
  | error f => rw [ht] at h; simp [bind, Except.bind] at h
  | ok w =>
    rw [ht] at h
    simp only [bind, Except.bind] at *
    cases w with
    | json s =>
      simp only [Ops.property, bind, Except.bind] at *
      cases hp : parseJson X s with
      | error f => rw [hp] at h; simp at h
      | ok j =>
        rw [hp] at h
        simp only at *
        cases hg : j.get p with
        | none => rw [hg] at h; simp [fail] at h
        | some m => rw [hg] at h; exact h
    | _ => simp [Ops.property] at h

/-- C23: on any receiver other than null, `x&.m(…)` is `x.m(…)`. -/
theorem C23_method (X : Ext) (t : Expr) (m : Str) (args : List Expr) (r : Option Registry) (env : Env)
    (h : Eval.eval X t r env ≠ .ok .null) :
    Eval.eval X (.safeCall t m args) r env = Eval.eval X (.method t m args false) r env := by
  simp only [Eval.eval]
  cases ht : Eval.eval X t r env with
  | error f => rfl
  | ok v => cases v <;> first | exact absurd ht h | rfl

/-- The hypothesis of `C23_method`. -/
example (X : Ext) := C23_method X (.strLit c!"ab") c!"upper" [] none Env.empty (by simp [Eval.eval])

/-- Cases of C23. -/
example (X : Ext) : evaluateWith X c!":x&.name" (Env.empty.insert c!"x" .null) = .ok .null ∧
    evaluateWith X c!":x&.foo(NOPE())" (Env.empty.insert c!"x" .null) = .ok .null ∧
    evaluate X c!"\"ab\"&.upper()" = .ok (.str c!"AB") := ⟨by kernel_rfl, by kernel_rfl, by kernel_rfl⟩
