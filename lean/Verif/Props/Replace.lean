import Verif.Props.Independence
/-! C102: equals may replace equals; naming a part of an expression. -/

/-- An expression with a hole. The arguments of functions and methods also have holes under a spread. -/
inductive Spec.Ctx where
  | hole
  | unary (op : UnaryOp) (c : Ctx)
  | binaryL (c : Ctx) (op : BinaryOp) (e : Expr)
  | binaryR (e : Expr) (op : BinaryOp) (c : Ctx)
  | prop (c : Ctx) (name : Str)
  | safeProp (c : Ctx) (name : Str)
  | cast (c : Ctx) (ty : CastTy)
  | assign (x : Str) (c : Ctx)
  | indexL (c : Ctx) (i : Expr)
  | indexR (t : Expr) (c : Ctx)
  | sliceT (c : Ctx) (start stop : Option Expr)
  | sliceStart (t : Expr) (c : Ctx) (stop : Option Expr)
  | sliceStop (t : Expr) (start : Option Expr) (c : Ctx)
  | array (before : List Expr) (c : Ctx) (after : List Expr)
  | seq (before : List Expr) (c : Ctx) (after : List Expr)
  | object (before : List (Str × Expr)) (key : Str) (c : Ctx) (after : List (Str × Expr))
  | call (name : Str) (before : List Expr) (c : Ctx) (after : List Expr)
  | callSpread (name : Str) (before : List Expr) (c : Ctx) (after : List Expr)
  | methodT (c : Ctx) (name : Str) (args : List Expr) (predicate : Bool)
  | methodA (t : Expr) (name : Str) (before : List Expr) (c : Ctx) (after : List Expr) (predicate : Bool)
  | safeCallT (c : Ctx) (name : Str) (args : List Expr)
  | safeCallA (t : Expr) (name : Str) (before : List Expr) (c : Ctx) (after : List Expr)

/-- The hole filled. -/
def Spec.Ctx.fill : Ctx → Expr → Expr
  | .hole, x => x
  | .unary op c, x => .unary op (c.fill x)
  | .binaryL c op e, x => .binary (c.fill x) op e
  | .binaryR e op c, x => .binary e op (c.fill x)
  | .prop c n, x => .prop (c.fill x) n
  | .safeProp c n, x => .safeProp (c.fill x) n
  | .cast c t, x => .cast (c.fill x) t
  | .assign y c, x => .assign y (c.fill x)
  | .indexL c i, x => .index (c.fill x) i
  | .indexR t c, x => .index t (c.fill x)
  | .sliceT c a b, x => .slice (c.fill x) a b
  | .sliceStart t c b, x => .slice t (some (c.fill x)) b
  | .sliceStop t a c, x => .slice t a (some (c.fill x))
  | .array l c m, x => .array (l ++ c.fill x :: m)
  | .seq l c m, x => .seq (l ++ c.fill x :: m)
  | .object l k c m, x => .object (l ++ (k, c.fill x) :: m)
  | .call n l c m, x => .call n (l ++ c.fill x :: m)
  | .callSpread n l c m, x => .call n (l ++ .spread (c.fill x) :: m)
  | .methodT c n es p, x => .method (c.fill x) n es p
  | .methodA t n l c m p, x => .method t n (l ++ c.fill x :: m) p
  | .safeCallT c n es, x => .safeCall (c.fill x) n es
  | .safeCallA t n l c m, x => .safeCall t n (l ++ c.fill x :: m)

/-- The functions whose second argument is evaluated once for every element. -/
def Spec.perElement : List Str := [c!"FILTER", c!"FIND", c!"MAP", c!"REDUCE", c!"SUMIF", c!"AVGIF", c!"COUNTIF"]

/-- The hole is neither in the arguments of a method nor in an argument that is evaluated for every element. -/
def Spec.Ctx.Outer : Ctx → Prop
  | .hole => True
  | .unary _ c | .binaryL c _ _ | .binaryR _ _ c | .prop c _ | .safeProp c _ | .cast c _ | .assign _ c | .indexL c _ | .indexR _ c
  | .sliceT c _ _ | .sliceStart _ c _ | .sliceStop _ _ c | .array _ c _ | .seq _ c _ | .object _ _ c _
  | .methodT c _ _ _ | .safeCallT c _ _ => c.Outer
  | .call n l c _ | .callSpread n l c _ => (n ∈ perElement → l.length ≠ 1) ∧ c.Outer
  | .methodA .. | .safeCallA .. => False

/-- Neither `...e` nor a text in quotes: those are treated specially as arguments. -/
def Spec.Ordinary : Expr → Prop
  | .spread _ => False
  | .strLit _ => False
  | _ => True

/-- Not `...e`. -/
def Spec.NotSpread : Expr → Prop
  | .spread _ => False
  | _ => True

open Spec

/-! ### Everywhere -/

theorem fill_ordinary {a b : Expr} (ha : Ordinary a) (hb : Ordinary b) (c : Ctx) : Ordinary (c.fill a) ∧ Ordinary (c.fill b) := by
  cases c <;> first | exact ⟨ha, hb⟩ | exact ⟨trivial, trivial⟩

theorem evalArgs_ordinary (X : Ext) {e : Expr} (h : Ordinary e) (es : List Expr) : Eval.argsOf X (e :: es) = ⟨Eval.eval X e, none, none⟩ :: Eval.argsOf X es := by
  cases e <;> first | exact h.elim | rfl

theorem legacyArgs_ordinary (X : Ext) {e : Expr} (h : Ordinary e) (es : List Expr) : Legacy.argsOf X (e :: es) = ⟨Legacy.eval X e, none, none⟩ :: Legacy.argsOf X es := by
  cases e <;> first | exact h.elim | rfl

theorem eval_args_replace (X : Ext) {a b : Expr} (ha : Ordinary a) (hb : Ordinary b) (h : Eval.eval X a = Eval.eval X b) (after : List Expr) :
    ∀ before : List Expr, Eval.argsOf X (before ++ a :: after) = Eval.argsOf X (before ++ b :: after)
  | [] => by simp only [List.nil_append]; rw [evalArgs_ordinary X ha, evalArgs_ordinary X hb, h]
  | e :: es => by
    have ih := eval_args_replace X ha hb h after es
    simp only [List.cons_append]
    rw [Eval.argsOf_cons, Eval.argsOf_cons, ih]

theorem legacy_args_replace (X : Ext) {a b : Expr} (ha : Ordinary a) (hb : Ordinary b) (h : Legacy.eval X a = Legacy.eval X b) (after : List Expr) :
    ∀ before : List Expr, Legacy.argsOf X (before ++ a :: after) = Legacy.argsOf X (before ++ b :: after)
  | [] => by simp only [List.nil_append]; rw [legacyArgs_ordinary X ha, legacyArgs_ordinary X hb, h]
  | e :: es => by
    have ih := legacy_args_replace X ha hb h after es
    simp only [List.cons_append]
    rw [Legacy.argsOf_cons, Legacy.argsOf_cons, ih]

theorem eval_spread_replace (X : Ext) {a b : Expr} (h : Eval.eval X a = Eval.eval X b) (after : List Expr) :
    ∀ before : List Expr, Eval.argsOf X (before ++ .spread a :: after) = Eval.argsOf X (before ++ .spread b :: after)
  | [] => by simp only [List.nil_append, Eval.argsOf, h]
  | e :: es => by
    have ih := eval_spread_replace X h after es
    simp only [List.cons_append]
    rw [Eval.argsOf_cons, Eval.argsOf_cons, ih]

theorem legacy_spread_replace (X : Ext) {a b : Expr} (h : Legacy.eval X a = Legacy.eval X b) (after : List Expr) :
    ∀ before : List Expr, Legacy.argsOf X (before ++ .spread a :: after) = Legacy.argsOf X (before ++ .spread b :: after)
  | [] => by simp only [List.nil_append, Legacy.argsOf, h]
  | e :: es => by
    have ih := legacy_spread_replace X h after es
    simp only [List.cons_append]
    rw [Legacy.argsOf_cons, Legacy.argsOf_cons, ih]

theorem eval_members_replace (X : Ext) {a b : Expr} (k : Str) (h : Eval.eval X a = Eval.eval X b) (after : List (Str × Expr)) :
    ∀ before : List (Str × Expr), Eval.membersOf X (before ++ (k, a) :: after) = Eval.membersOf X (before ++ (k, b) :: after)
  | [] => by simp only [List.nil_append, Eval.membersOf, h]
  | (k', e) :: es => by
    have ih := eval_members_replace X k h after es
    simp only [List.cons_append, Eval.membersOf, ih]

theorem legacy_members_replace (X : Ext) {a b : Expr} (k : Str) (h : Legacy.eval X a = Legacy.eval X b) (after : List (Str × Expr)) :
    ∀ before : List (Str × Expr), Legacy.membersOf X (before ++ (k, a) :: after) = Legacy.membersOf X (before ++ (k, b) :: after)
  | [] => by simp only [List.nil_append, Legacy.membersOf, h]
  | (k', e) :: es => by
    have ih := legacy_members_replace X k h after es
    simp only [List.cons_append, Legacy.membersOf, ih]

theorem replace_den (X : Ext) {a b : Expr} (ha : Ordinary a) (hb : Ordinary b) (h : Eval.eval X a = Eval.eval X b) (hl : Legacy.eval X a = Legacy.eval X b) :
    ∀ c : Ctx, Eval.eval X (c.fill a) = Eval.eval X (c.fill b) ∧ Legacy.eval X (c.fill a) = Legacy.eval X (c.fill b) := by
  intro c
  induction c with
  | hole => exact ⟨h, hl⟩
  | unary op c ih | prop c n ih | safeProp c n ih | cast c t ih | assign x c ih | methodT c n es p ih | safeCallT c n es ih =>
    simp only [Ctx.fill, Eval.eval, Legacy.eval, ih.1, ih.2]
    exact ⟨trivial, trivial⟩
  | binaryL c op e ih | binaryR e op c ih | indexL c i ih | indexR t c ih =>
    simp only [Ctx.fill, Eval.eval, Legacy.eval, ih.1, ih.2]
    exact ⟨trivial, trivial⟩
  | sliceT c x y ih | sliceStart t c y ih | sliceStop t x c ih =>
    simp only [Ctx.fill, Eval.eval, Legacy.eval, Eval.optOf, Legacy.optOf, ih.1, ih.2]
    exact ⟨trivial, trivial⟩
  | array l c m ih | seq l c m ih | call n l c m ih =>
    obtain ⟨oa, ob⟩ := fill_ordinary ha hb c
    simp only [Ctx.fill, Eval.eval, Legacy.eval, eval_args_replace X oa ob ih.1, legacy_args_replace X oa ob ih.2]
    exact ⟨trivial, trivial⟩
  | object l k c m ih =>
    simp only [Ctx.fill, Eval.eval, Legacy.eval, eval_members_replace X k ih.1, legacy_members_replace X k ih.2]
    exact ⟨trivial, trivial⟩
  | callSpread n l c m ih =>
    simp only [Ctx.fill, Eval.eval, Legacy.eval, eval_spread_replace X ih.1, legacy_spread_replace X ih.2]
    exact ⟨trivial, trivial⟩
  | methodA t n l c m p ih | safeCallA t n l c m ih =>
    obtain ⟨oa, ob⟩ := fill_ordinary ha hb c
    simp only [Ctx.fill, Eval.eval, Legacy.eval, legacy_args_replace X oa ob ih.2]
    exact ⟨trivial, trivial⟩

theorem assignmentsSeq_congr (X : Ext) {a b : Expr} (h : Eval.assignments X a = Eval.assignments X b) (after : List Expr) : ∀ (before : List Expr) (last : Value) (env : Env),
    Eval.assignmentsSeq X (before ++ a :: after) last env = Eval.assignmentsSeq X (before ++ b :: after) last env
  | [], last, env => by simp only [List.nil_append, Eval.assignmentsSeq, h]
  | e :: es, last, env => by
    simp only [List.cons_append, Eval.assignmentsSeq]
    congr 1
    funext p
    exact assignmentsSeq_congr X h after es p.1 p.2

theorem assignments_value (X : Ext) {e : Expr} (h1 : ∀ x v, e ≠ .assign x v) (h2 : ∀ es, e ≠ .seq es) :
    Eval.assignments X e = fun env => do return (← Eval.eval X e none env, env) := by
  cases e <;> first | exact absurd rfl (h1 _ _) | exact absurd rfl (h2 _) | (simp only [Eval.assignments])

theorem assignments_congr (X : Ext) {a b : Expr} (ha : Ordinary a) (hb : Ordinary b) (h : Eval.eval X a = Eval.eval X b) (hl : Legacy.eval X a = Legacy.eval X b)
    (hs : Eval.assignments X a = Eval.assignments X b) (c : Ctx) : Eval.assignments X (c.fill a) = Eval.assignments X (c.fill b) := by
  induction c with
  | hole => exact hs
  | assign x c ih => simp only [Ctx.fill, Eval.assignments, (replace_den X ha hb h hl c).1]
  | seq l c m ih =>
    funext env
    simp only [Ctx.fill, Eval.assignments]
    exact assignmentsSeq_congr X ih m l .null env
  | _ => rw [assignments_value X (by simp [Ctx.fill]) (by simp [Ctx.fill]), assignments_value X (by simp [Ctx.fill]) (by simp [Ctx.fill]), (replace_den X ha hb h hl _).1]

/-- The two expressions do the same wherever they stand: as values, as arguments of methods, and as statements. -/
structure Spec.SameEverywhere (X : Ext) (a b : Expr) : Prop where
  value : ∀ r env, Eval.eval X a r env = Eval.eval X b r env
  argument : ∀ r env, Legacy.eval X a r env = Legacy.eval X b r env
  statement : ∀ env, Eval.assignments X a env = Eval.assignments X b env

/-- **C102.** Two expressions that do the same for all variables may replace each other anywhere: in every expression, also in the arguments of methods and
in expressions evaluated for every element, the value or error stays the same, with and without custom functions and assignments. -/
theorem C102_replace (X : Ext) (a b : Expr) (ha : Ordinary a) (hb : Ordinary b) (h : SameEverywhere X a b) (c : Ctx) (reg : Registry) (env : Env) :
    evalVars X (c.fill a) env = evalVars X (c.fill b) env ∧ evalCustom X reg (c.fill a) env = evalCustom X reg (c.fill b) env ∧
      evalAssignCtx X (c.fill a) env = evalAssignCtx X (c.fill b) env := by
  have h1 : Eval.eval X a = Eval.eval X b := funext fun r => funext (h.value r)
  have h2 : Legacy.eval X a = Legacy.eval X b := funext fun r => funext (h.argument r)
  have h3 : Eval.assignments X a = Eval.assignments X b := funext h.statement
  have := (replace_den X ha hb h1 h2 c).1
  unfold evalVars evalCustom evalAssignCtx
  rw [this, assignments_congr X ha hb h1 h2 h3 c]
  exact ⟨rfl, rfl, rfl⟩

/-! ### At the given variables -/

/-- Two arguments that give the same at these variables. -/
def SameArg (r : Option Registry) (env : Env) (a a' : Arg) : Prop :=
  a.run r env = a'.run r env ∧ match a.spread, a'.spread with
    | none, none => True
    | some d, some d' => d r env = d' r env
    | _, _ => False

theorem SameArg.refl (r : Option Registry) (env : Env) (a : Arg) : SameArg r env a a := by
  refine ⟨rfl, ?_⟩
  cases a.spread <;> trivial

theorem same_evalArgs {r : Option Registry} {env : Env} {as as' : List Arg} (h : List.Forall₂ (SameArg r env) as as') : evalArgs r env as = evalArgs r env as' := by
  induction h with
  | nil => rfl
  | @cons a a' l l' ha hl ih =>
    obtain ⟨h1, h2⟩ := ha
    rw [evalArgs, evalArgs, ih, h1]
    revert h2
    cases a.spread <;> cases a'.spread <;> intro h2 <;> first | exact h2.elim | rfl | (simp only at h2 ⊢; rw [h2])

theorem same_elements {r : Option Registry} {env : Env} {as as' : List Arg} (h : List.Forall₂ (SameArg r env) as as') : elements r env as = elements r env as' := by
  induction h with
  | nil => rfl
  | @cons a a' l l' ha hl ih => rw [elements, elements, ih, ha.1]

theorem same_lastOf {r : Option Registry} {env : Env} {as as' : List Arg} (h : List.Forall₂ (SameArg r env) as as') (v : Value) : lastOf r env v as = lastOf r env v as' := by
  induction h generalizing v with
  | nil => rfl
  | @cons a a' l l' ha hl ih =>
    rw [lastOf, lastOf, ha.1]
    congr 1
    funext w
    exact ih w

theorem same_param {r : Option Registry} {env : Env} {as as' : List Arg} (h : List.Forall₂ (SameArg r env) as as') (d : Str) (i : Nat) :
    Eval.paramName r env d as[i]? = Eval.paramName r env d as'[i]? := by
  induction h generalizing i with
  | nil => rfl
  | @cons a a' l l' ha hl ih =>
    cases i with
    | zero => simp only [List.getElem?_cons_zero, Eval.paramName, ha.1]
    | succ i => simpa using ih i

theorem same_filter {r : Option Registry} {env : Env} {as as' : List Arg} (h : List.Forall₂ (SameArg r env) as as') (h1 : as[1]? = as'[1]?) :
    Eval.filter r env as = Eval.filter r env as' ∧ Eval.find r env as = Eval.find r env as' ∧ Eval.map r env as = Eval.map r env as' := by
  cases h with
  | nil => exact ⟨rfl, rfl, rfl⟩
  | @cons a a' l l' ha hl =>
    cases hl with
    | nil => exact ⟨rfl, rfl, rfl⟩
    | @cons b b' l l' hb hl =>
      have hp := same_param hl c!"x" 0
      simp only [List.getElem?_cons_succ, List.getElem?_cons_zero, Option.some.injEq] at h1
      subst h1
      rw [← List.head?_eq_getElem?, ← List.head?_eq_getElem?] at hp
      simp only [Eval.filter, Eval.find, Eval.map, ha.1, hp]
      exact ⟨trivial, trivial, trivial⟩

theorem same_reduce {r : Option Registry} {env : Env} {as as' : List Arg} (h : List.Forall₂ (SameArg r env) as as') (h1 : as[1]? = as'[1]?) :
    Eval.reduce r env as = Eval.reduce r env as' := by
  cases h with
  | nil => rfl
  | @cons a a' l l' ha hl =>
    cases hl with
    | nil => rfl
    | @cons b b' l l' hb hl =>
      cases hl with
      | nil => rfl
      | @cons c c' l l' hc hl =>
        have hp := same_param hl c!"x" 0
        have hq := same_param hl c!"acc" 1
        simp only [List.getElem?_cons_succ, List.getElem?_cons_zero, Option.some.injEq] at h1
        subst h1
        rw [← List.head?_eq_getElem?, ← List.head?_eq_getElem?] at hp
        simp only [Eval.reduce, ha.1, hc.1, hp, hq]

theorem same_if {r : Option Registry} {env : Env} {as as' : List Arg} (h : List.Forall₂ (SameArg r env) as as') (h1 : as[1]? = as'[1]?) :
    Eval.sumif r env as = Eval.sumif r env as' ∧ Eval.avgif r env as = Eval.avgif r env as' ∧ Eval.countif r env as = Eval.countif r env as' := by
  cases h with
  | nil => exact ⟨rfl, rfl, rfl⟩
  | @cons a a' l l' ha hl =>
    cases hl with
    | nil => exact ⟨rfl, rfl, rfl⟩
    | @cons b b' l l' hb hl =>
      simp only [List.getElem?_cons_succ, List.getElem?_cons_zero, Option.some.injEq] at h1
      subst h1
      cases hl with
      | nil =>
        simp only [Eval.sumif, Eval.avgif, Eval.countif, ha.1]
        exact ⟨trivial, trivial, trivial⟩
      | @cons c c' l l' hc hl =>
        cases hl with
        | nil =>
          simp only [Eval.sumif, Eval.avgif, Eval.countif, ha.1, hc.1, Option.isSome_some]
          exact ⟨trivial, trivial, trivial⟩
        | cons _ _ => exact ⟨rfl, rfl, rfl⟩

theorem same_jq (X : Ext) {r : Option Registry} {env : Env} {as as' : List Arg} (h : List.Forall₂ (SameArg r env) as as') : Eval.jq X r env as = Eval.jq X r env as' := by
  cases h with
  | nil => rfl
  | @cons a a' l l' ha hl =>
    cases hl with
    | nil => rfl
    | @cons b b' l l' hb hl =>
      cases hl with
      | nil => simp only [Eval.jq, ha.1, hb.1]
      | cons _ _ => rfl

theorem same_ternary {r : Option Registry} {env : Env} {as as' : List Arg} (h : List.Forall₂ (SameArg r env) as as') : Legacy.ternary r env as = Legacy.ternary r env as' := by
  cases h with
  | nil => rfl
  | @cons a a' l l' ha hl =>
    cases hl with
    | nil => rfl
    | @cons b b' l l' hb hl =>
      cases hl with
      | nil => rfl
      | @cons c c' l l' hc hl =>
        cases hl with
        | nil => simp only [Legacy.ternary, ha.1, hb.1, hc.1]
        | cons _ _ => rfl

theorem same_call (X : Ext) {r : Option Registry} {env : Env} {as as' : List Arg} (h : List.Forall₂ (SameArg r env) as as') (n : Str)
    (h1 : n ∈ perElement → as[1]? = as'[1]?) : Eval.call X n as r env = Eval.call X n as' r env := by
  unfold Eval.call
  rw [same_ternary h, same_evalArgs h]
  have hh : (match Eval.higherOrder X n with | some f => f r env as | none => (do execFast X n (← evalArgs r env as') : Res Value)) =
      match Eval.higherOrder X n with | some f => f r env as' | none => (do execFast X n (← evalArgs r env as') : Res Value) := by
    unfold Eval.higherOrder
    by_cases hn : n ∈ perElement
    · have hs := h1 hn
      obtain ⟨e1, e2, e3⟩ := same_filter h hs
      obtain ⟨e5, e6, e7⟩ := same_if h hs
      split_ifs
      · exact e1
      · exact e2
      · exact e3
      · exact same_reduce h hs
      · exact e5
      · exact e6
      · exact e7
      · exact same_jq X h
      · rfl
    · simp only [perElement, List.mem_cons, List.not_mem_nil, or_false, not_or] at hn
      rw [if_neg hn.1, if_neg hn.2.1, if_neg hn.2.2.1, if_neg hn.2.2.2.1, if_neg hn.2.2.2.2.1, if_neg hn.2.2.2.2.2.1, if_neg hn.2.2.2.2.2.2]
      split_ifs
      · exact same_jq X h
      · rfl
  split_ifs <;> first | rfl | (split <;> first | rfl | exact hh)

theorem same_at {r : Option Registry} {env : Env} {x y : Arg} (h : SameArg r env x y) (after : List Arg) : ∀ before : List Arg,
    List.Forall₂ (SameArg r env) (before ++ x :: after) (before ++ y :: after)
  | [] => .cons h (List.forall₂_same.2 fun a _ => SameArg.refl r env a)
  | a :: before => .cons (SameArg.refl r env a) (same_at h after before)

theorem second_at {x y : Arg} (after before : List Arg) (h : before.length ≠ 1) : (before ++ x :: after)[1]? = (before ++ y :: after)[1]? := by
  match before with
  | [] => rfl
  | [a] => exact absurd rfl h
  | a :: b :: before => rfl

theorem fill_notSpread {a b : Expr} (ha : NotSpread a) (hb : NotSpread b) (c : Ctx) : NotSpread (c.fill a) ∧ NotSpread (c.fill b) := by
  cases c <;> first | exact ⟨ha, hb⟩ | exact ⟨trivial, trivial⟩

theorem same_argOf (X : Ext) {r : Option Registry} {env : Env} {a b : Expr} (ha : NotSpread a) (hb : NotSpread b) (h : Eval.eval X a r env = Eval.eval X b r env) :
    SameArg r env (Eval.argOf X a) (Eval.argOf X b) := by
  have e1 : (Eval.argOf X a).spread = none := by cases a <;> first | exact ha.elim | rfl
  have e2 : (Eval.argOf X b).spread = none := by cases b <;> first | exact hb.elim | rfl
  refine ⟨h, ?_⟩
  rw [e1, e2]
  trivial

theorem same_spread (X : Ext) {r : Option Registry} {env : Env} {a b : Expr} (h : Eval.eval X a r env = Eval.eval X b r env) :
    SameArg r env (Eval.argOf X (.spread a)) (Eval.argOf X (.spread b)) := by
  refine ⟨by simp only [Eval.argOf_run, Eval.eval], ?_⟩
  exact h

theorem same_members (X : Ext) {r : Option Registry} {env : Env} {a b : Expr} (k : Str) (h : Eval.eval X a r env = Eval.eval X b r env) (after : List (Str × Expr)) :
    ∀ (before : List (Str × Expr)) (acc : List (Str × Json)),
      objectMembers X r env acc (Eval.membersOf X (before ++ (k, a) :: after)) = objectMembers X r env acc (Eval.membersOf X (before ++ (k, b) :: after))
  | [], acc => by simp only [List.nil_append, Eval.membersOf, objectMembers, h]
  | (k', e) :: es, acc => by
    have ih := same_members X k h after es
    simp only [List.cons_append, Eval.membersOf, objectMembers, ih]

theorem replace_at (X : Ext) {a b : Expr} (ha : NotSpread a) (hb : NotSpread b) (r : Option Registry) (env : Env) (h : Eval.eval X a r env = Eval.eval X b r env) (c : Ctx)
    (hc : c.Outer) : Eval.eval X (c.fill a) r env = Eval.eval X (c.fill b) r env := by
  induction c with
  | hole => exact h
  | unary op c ih | prop c n ih | safeProp c n ih | cast c t ih | assign x c ih | methodT c n es p ih | safeCallT c n es ih =>
    simp only [Ctx.fill, Eval.eval, ih hc]
  | binaryL c op e ih | binaryR e op c ih | indexL c i ih | indexR t c ih =>
    simp only [Ctx.fill, Eval.eval, ih hc]
  | sliceT c x y ih | sliceStart t c y ih | sliceStop t x c ih =>
    simp only [Ctx.fill, Eval.eval, Eval.optOf, Legacy.optional, ih hc]
  | array l c m ih =>
    obtain ⟨oa, ob⟩ := fill_notSpread ha hb c
    simp only [Ctx.fill, Eval.eval, Eval.argsOf_eq, List.map_append, List.map_cons]
    rw [same_elements (same_at (same_argOf X oa ob (ih hc)) _ _)]
  | seq l c m ih =>
    obtain ⟨oa, ob⟩ := fill_notSpread ha hb c
    simp only [Ctx.fill, Eval.eval, Eval.argsOf_eq, List.map_append, List.map_cons]
    rw [same_lastOf (same_at (same_argOf X oa ob (ih hc)) _ _)]
  | call n l c m ih =>
    obtain ⟨oa, ob⟩ := fill_notSpread ha hb c
    simp only [Ctx.fill, Eval.eval, Eval.argsOf_eq, List.map_append, List.map_cons]
    exact same_call X (same_at (same_argOf X oa ob (ih hc.2)) _ _) n fun hn => second_at _ _ (by simpa using hc.1 hn)
  | callSpread n l c m ih =>
    simp only [Ctx.fill, Eval.eval, Eval.argsOf_eq, List.map_append, List.map_cons]
    exact same_call X (same_at (same_spread X (ih hc.2)) _ _) n fun hn => second_at _ _ (by simpa using hc.1 hn)
  | object l k c m ih => simp only [Ctx.fill, Eval.eval, same_members X k (ih hc)]
  | methodA t n l c m p ih => exact hc.elim
  | safeCallA t n l c m ih => exact hc.elim

/-- **C102.** At given variables, two parts with the same value (or the same error) may replace each other wherever the part is evaluated at these variables: not
in the arguments of methods and not in expressions that are evaluated for every element. -/
theorem C102_replace_here (X : Ext) (a b : Expr) (ha : NotSpread a) (hb : NotSpread b) (c : Ctx) (hc : c.Outer) (reg : Registry) (env : Env) :
    (evalVars X a env = evalVars X b env → evalVars X (c.fill a) env = evalVars X (c.fill b) env) ∧
    (evalCustom X reg a env = evalCustom X reg b env → evalCustom X reg (c.fill a) env = evalCustom X reg (c.fill b) env) :=
  ⟨fun h => replace_at X ha hb none env h c hc, fun h => replace_at X ha hb (some reg) env h c hc⟩

/-! ### Naming a part -/

/-- **C102.** A part of an expression can be given a name: if `e` has a value, `:x := e; C[:x]` gives what `C[e]` gives, value or error. -/
theorem C102_naming (X : Ext) (x : Str) (e : Expr) (he : NotSpread e) (c : Ctx) (hc : c.Outer) (env : Env) (v : Value) (hv : evalVars X e env = .ok v)
    (hx : x ∉ vars (c.fill e)) (hxe : x ∉ vars e) (h1 : ∀ y d, c.fill (.var x) ≠ .assign y d) (h2 : ∀ es, c.fill (.var x) ≠ .seq es) :
    evalAssign X (.seq [.assign x e, c.fill (.var x)]) env = evalVars X (c.fill e) env := by
  have hv' : Eval.eval X e none env = .ok v := hv
  have hkeep : ∀ n, n ≠ x → (env.insert x v) n = env n := fun n hn => by simp [Env.insert, hn]
  have e1 : Eval.eval X (.var x) none (env.insert x v) = Eval.eval X e none (env.insert x v) := by
    rw [C09_coincidence X e none (env.insert x v) env fun n hn => hkeep n fun h => hxe (h ▸ hn), hv']
    simp [Eval.eval, Env.insert]
  have e2 : Eval.eval X (c.fill e) none (env.insert x v) = Eval.eval X (c.fill e) none env :=
    C09_coincidence X _ none _ _ fun n hn => hkeep n fun h => hx (h ▸ hn)
  have e3 := replace_at X (a := .var x) trivial he none (env.insert x v) e1 c hc
  unfold evalAssign evalVars
  rw [← e2, ← e3]
  simp only [Eval.assignments, Eval.assignmentsSeq, hv', bind, Except.bind, assignments_value X h1 h2, pure, Except.pure]
  cases Eval.eval X (c.fill (.var x)) none (env.insert x v) <;> rfl

/-- **C102.** If `e` fails, so does every program that begins by naming it. -/
theorem C102_naming_fails (X : Ext) (x : Str) (e : Expr) (rest : List Expr) (env : Env) (f : Fail) (hf : evalVars X e env = .error f) :
    evalAssign X (.seq (.assign x e :: rest)) env = .error f := by
  have hf' : Eval.eval X e none env = .error f := hf
  unfold evalAssign
  simp only [Eval.assignments, Eval.assignmentsSeq, hf', bind, Except.bind]

/-- A case: `2 + 3` and `5` do the same everywhere, for instance in the argument of a method. -/
example (X : Ext) : SameEverywhere X (.binary (.number (.fin 2)) .add (.number (.fin 3))) (.number (.fin 5)) := by
  have h : Ops.binary X .add (.num (.fin 2)) (.num (.fin 3)) = .ok (.num (.fin 5)) := by kernel_rfl
  refine ⟨?_, ?_, ?_⟩
  · intro r env
    simp only [Eval.eval, bind, Except.bind, h]
  · intro r env
    simp only [Legacy.eval, bind, Except.bind, h]
  · intro env
    rw [assignments_value X (by simp) (by simp), assignments_value X (by simp) (by simp)]
    simp only [Eval.eval, bind, Except.bind, h]

/-- A case: `:t := :a * :b; SUM(:t, 1)` and `SUM(:a * :b, 1)`. -/
example : (Ctx.call c!"SUM" [] .hole [.number (.fin 1)]).Outer ∧
    (Ctx.call c!"SUM" [] .hole [.number (.fin 1)]).fill (.var c!"t") = .call c!"SUM" [.var c!"t", .number (.fin 1)] ∧
    c!"t" ∉ vars ((Ctx.call c!"SUM" [] .hole [.number (.fin 1)]).fill (.binary (.var c!"a") .mul (.var c!"b"))) := by
  refine ⟨⟨by decide, trivial⟩, rfl, by decide⟩

/-- **C102: where a part must not be named.** With `x` being 5, `:k := :x; MAP([1, 2], :k)` is `[5, 5]`, but `MAP([1, 2], :x)` is `[1, 2]`. -/
theorem C102_not_inside (X : Ext) :
    evalAssign X (.seq [.assign c!"k" (.var c!"x"), .call c!"MAP" [.array [.number (.fin 1), .number (.fin 2)], .var c!"k"]]) (Env.empty.insert c!"x" (.num (.fin 5))) = .ok (.arr [.num (.fin 5), .num (.fin 5)]) ∧
    evalVars X (.call c!"MAP" [.array [.number (.fin 1), .number (.fin 2)], .var c!"x"]) (Env.empty.insert c!"x" (.num (.fin 5))) = .ok (.arr [.num (.fin 1), .num (.fin 2)]) := by
  constructor <;> kernel_rfl
