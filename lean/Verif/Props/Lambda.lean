import Verif.Lemmas.Loops
import Verif.Props.Control
/-! C17, C18, C21, C22: higher-order functions, custom functions, criteria. -/

open Lib

namespace Spec

/-- No custom function named `name` is in reach. -/
def NotCustom (X : Ext) (r : Option Registry) (name : Str) : Prop := ∀ reg, r = some reg → reg.has X name = false

/-- The lambda `lam` on a value: the outer variables with only the parameter rebound. -/
def onElement (X : Ext) (lam : Expr) (env : Env) (p : Str) (v : Value) : Res Value := evalVars X lam (env.insert p v)

/-- The parameter name given by an optional argument: the default when absent, else the text it evaluates to. -/
def ParamIs (X : Ext) (r : Option Registry) (env : Env) (dflt : Str) : List Expr → Str → Prop
  | [], p => p = dflt
  | e :: _, p => Eval.eval X e r env = .ok (.str p)

end Spec

open Spec

theorem call_higherOrder (X : Ext) (name : Str) (args : List Expr) (r : Option Registry) (env : Env)
    (f : Option Registry → Env → List Arg → Res Value) (hn : name ∉ [c!"__TERNARY__", c!"__CONST_TRUE__", c!"__CONST_FALSE__"])
    (hf : Eval.higherOrder X name = some f) (hr : NotCustom X r name) :
    Eval.eval X (.call name args) r env = f r env (args.map (Eval.argOf X)) := by
  simp only [List.mem_cons, List.not_mem_nil, or_false, not_or] at hn
  rw [Eval.eval, Eval.argsOf_eq]
  simp only [Eval.call, if_neg hn.1, if_neg hn.2.1, if_neg hn.2.2]
  cases r with
  | none => simp only [hf]
  | some reg => simp [hr reg rfl, hf]

theorem paramName_of (X : Ext) (r : Option Registry) (env : Env) (d p : Str) (ps : List Expr) (h : ParamIs X r env d ps p) :
    Eval.paramName r env d (ps.map (Eval.argOf X)).head? = .ok p := by
  cases ps with
  | nil => simp only [ParamIs] at h; subst h; rfl
  | cons e es => simp only [ParamIs] at h; simp [Eval.paramName, h, bind, Except.bind, pure, Except.pure]

/-! ### C17 -/

/-- C17, FILTER: the elements, in order, whose lambda is `true`; the first failing lambda aborts. -/
theorem C17_filter (X : Ext) (a lam : Expr) (ps : List Expr) (p : Str) (r : Option Registry) (env : Env) (items : List Value)
    (hr : NotCustom X r c!"FILTER") (ha : Eval.eval X a r env = .ok (.arr items)) (hp : ParamIs X r env c!"x" ps p) :
    Eval.eval X (.call c!"FILTER" (a :: lam :: ps)) r env =
      (items.mapM (onElement X lam env p)).map fun answers => .arr (select items answers) := by
  rw [call_higherOrder X _ _ r env Eval.filter (by decide) (by rfl) hr]
  simp only [List.map_cons, Eval.filter, Eval.argOf_run, ha, paramName_of X r env _ p ps hp, bind, Except.bind, Loop.filter_eq]
  change _ = Except.map _ (items.mapM fun v => evalVars X lam (env.insert p v))
  simp only [evalVars]
  cases items.mapM fun v => Eval.eval X lam none (env.insert p v) <;> rfl

/-- The hypotheses of `C17_filter`: `FILTER([1, 5], :y > :k, "y")` where `k` is a variable. -/
example (X : Ext) :=
  C17_filter X (.array [.number (F64.ofNat 1), .number (F64.ofNat 5)]) (.binary (.var c!"y") .gt (.var c!"k")) [.strLit c!"y"]
    c!"y" none (Env.empty.insert c!"k" (.num (F64.ofNat 2))) [.num (F64.ofNat 1), .num (F64.ofNat 5)]
    (by intro reg h; cases h) rfl rfl

/-- C17, MAP: the list of lambda results. -/
theorem C17_map (X : Ext) (a lam : Expr) (ps : List Expr) (p : Str) (r : Option Registry) (env : Env) (items : List Value)
    (hr : NotCustom X r c!"MAP") (ha : Eval.eval X a r env = .ok (.arr items)) (hp : ParamIs X r env c!"x" ps p) :
    Eval.eval X (.call c!"MAP" (a :: lam :: ps)) r env = (items.mapM (onElement X lam env p)).map .arr := by
  rw [call_higherOrder X _ _ r env Eval.map (by decide) (by rfl) hr]
  simp only [List.map_cons, Eval.map, Eval.argOf_run, ha, paramName_of X r env _ p ps hp, bind, Except.bind, Loop.map_eq]
  change _ = Except.map _ (items.mapM fun v => evalVars X lam (env.insert p v))
  simp only [evalVars]
  cases items.mapM fun v => Eval.eval X lam none (env.insert p v) <;> rfl

/-- The hypotheses of `C17_map`: a default parameter, and a registry that has other functions. -/
example (X : Ext) :=
  C17_map X (.array [.number (F64.ofNat 1), .strLit c!"a"]) (.var c!"x") [] c!"x" (some Registry.empty) Env.empty
    [.num (F64.ofNat 1), .str c!"a"] (by intro reg h; cases h; rfl) rfl rfl

/-- C17, FIND: the first element whose lambda is `true`, all before it having answered otherwise; null when
all answered otherwise. -/
theorem C17_find (X : Ext) (a lam : Expr) (ps : List Expr) (p : Str) (r : Option Registry) (env : Env) (items : List Value)
    (hr : NotCustom X r c!"FIND") (ha : Eval.eval X a r env = .ok (.arr items)) (hp : ParamIs X r env c!"x" ps p) (w : Value) :
    Eval.eval X (.call c!"FIND" (a :: lam :: ps)) r env = .ok w ↔
      (∃ pre post, items = pre ++ w :: post ∧ (∀ u ∈ pre, ∃ b, onElement X lam env p u = .ok b ∧ b ≠ .bool true) ∧
        onElement X lam env p w = .ok (.bool true)) ∨
      (w = .null ∧ ∀ u ∈ items, ∃ b, onElement X lam env p u = .ok b ∧ b ≠ .bool true) := by
  rw [call_higherOrder X _ _ r env Eval.find (by decide) (by rfl) hr]
  simp only [List.map_cons, Eval.find, Eval.argOf_run, ha, paramName_of X r env _ p ps hp, bind, Except.bind]
  exact Loop.find_ok _ p env items w

/-- The hypotheses of `C17_find`. -/
example (X : Ext) :=
  C17_find X (.array [.number (F64.ofNat 1), .number (F64.ofNat 5)]) (.binary (.var c!"x") .gt (.number (F64.ofNat 2))) []
    c!"x" none Env.empty [.num (F64.ofNat 1), .num (F64.ofNat 5)] (by intro reg h; cases h) rfl rfl (.num (F64.ofNat 5))

/-- C17, FIND: it fails with the error of the first element whose lambda fails, if none before is a match. -/
theorem C17_find_error (X : Ext) (a lam : Expr) (ps : List Expr) (p : Str) (r : Option Registry) (env : Env) (items : List Value)
    (hr : NotCustom X r c!"FIND") (ha : Eval.eval X a r env = .ok (.arr items)) (hp : ParamIs X r env c!"x" ps p) (f : Fail) :
    Eval.eval X (.call c!"FIND" (a :: lam :: ps)) r env = .error f ↔
      ∃ pre v post, items = pre ++ v :: post ∧ (∀ u ∈ pre, ∃ b, onElement X lam env p u = .ok b ∧ b ≠ .bool true) ∧
        onElement X lam env p v = .error f := by
  rw [call_higherOrder X _ _ r env Eval.find (by decide) (by rfl) hr]
  simp only [List.map_cons, Eval.find, Eval.argOf_run, ha, paramName_of X r env _ p ps hp, bind, Except.bind]
  exact Loop.find_error _ p env items f

/-- The hypotheses of `C17_find_error`, with a lambda that fails on the second element. -/
example (X : Ext) :=
  C17_find_error X (.array [.number (F64.ofNat 1), .strLit c!"a"]) (.binary (.var c!"x") .gt (.number (F64.ofNat 2))) []
    c!"x" none Env.empty [.num (F64.ofNat 1), .str c!"a"] (by intro reg h; cases h) rfl rfl

/-- C17, REDUCE: the left fold; the lambda sees the element and the accumulator. -/
theorem C17_reduce (X : Ext) (a lam init : Expr) (ps : List Expr) (p q : Str) (r : Option Registry) (env : Env)
    (items : List Value) (acc : Value) (hr : NotCustom X r c!"REDUCE") (ha : Eval.eval X a r env = .ok (.arr items))
    (hi : Eval.eval X init r env = .ok acc) (hp : ParamIs X r env c!"x" ps p) (hq : ParamIs X r env c!"acc" (ps.drop 1) q) :
    Eval.eval X (.call c!"REDUCE" (a :: lam :: init :: ps)) r env =
      items.foldlM (fun acc v => evalVars X lam ((env.insert p v).insert q acc)) acc := by
  rw [call_higherOrder X _ _ r env Eval.reduce (by decide) (by rfl) hr]
  have hq' : Eval.paramName r env c!"acc" (ps.map (Eval.argOf X))[1]? = .ok q := by
    rw [← paramName_of X r env _ q _ hq]
    congr 1
    cases ps with
    | nil => rfl
    | cons e es => cases es <;> rfl
  simp only [List.map_cons, Eval.reduce, Eval.argOf_run, ha, hi, paramName_of X r env _ p ps hp, hq', bind, Except.bind, Loop.reduce_eq]
  rfl

/-- The hypotheses of `C17_reduce`: `REDUCE([1, 5], :s + :x, 10, "x", "s")`. -/
example (X : Ext) :=
  C17_reduce X (.array [.number (F64.ofNat 1), .number (F64.ofNat 5)]) (.binary (.var c!"s") .add (.var c!"x"))
    (.number (F64.ofNat 10)) [.strLit c!"x", .strLit c!"s"] c!"x" c!"s" none Env.empty
    [.num (F64.ofNat 1), .num (F64.ofNat 5)] (.num (F64.ofNat 10)) (by intro reg h; cases h) rfl rfl rfl rfl

/-- C17, COUNTIF: the number of elements whose lambda is `true`. -/
theorem C17_countif (X : Ext) (a lam : Expr) (r : Option Registry) (env : Env) (items : List Value)
    (hr : NotCustom X r c!"COUNTIF") (ha : Eval.eval X a r env = .ok (.arr items)) :
    Eval.eval X (.call c!"COUNTIF" [a, lam]) r env =
      (items.mapM (onElement X lam env c!"x")).map fun answers => .num (F64.ofNat (select items answers).length) := by
  rw [call_higherOrder X _ _ r env Eval.countif (by decide) (by rfl) hr]
  simp only [List.map_cons, List.map_nil, Eval.countif, Eval.argOf_run, ha, bind, Except.bind, Loop.countif_eq, Nat.zero_add]
  change _ = Except.map _ (items.mapM fun v => evalVars X lam (env.insert c!"x" v))
  simp only [evalVars]
  cases items.mapM fun v => Eval.eval X lam none (env.insert c!"x" v) <;> rfl

/-- The hypotheses of `C17_countif`. -/
example (X : Ext) :=
  C17_countif X (.array [.number (F64.ofNat 1), .number (F64.ofNat 5)]) (.binary (.var c!"x") .gt (.number (F64.ofNat 2)))
    none Env.empty [.num (F64.ofNat 1), .num (F64.ofNat 5)] (by intro reg h; cases h) rfl

/-- C17: when every lambda succeeds, FILTER is list filtering (the usual reading). -/
theorem C17_filter_total (X : Ext) (a lam : Expr) (ps : List Expr) (p : Str) (r : Option Registry) (env : Env)
    (items : List Value) (ans : Value → Bool)
    (hr : NotCustom X r c!"FILTER") (ha : Eval.eval X a r env = .ok (.arr items)) (hp : ParamIs X r env c!"x" ps p)
    (hl : ∀ v ∈ items, onElement X lam env p v = .ok (.bool (ans v))) :
    Eval.eval X (.call c!"FILTER" (a :: lam :: ps)) r env = .ok (.arr (items.filter ans)) := by
  rw [C17_filter X a lam ps p r env items hr ha hp]
  have : ∀ (items : List Value), (∀ v ∈ items, onElement X lam env p v = .ok (.bool (ans v))) →
      items.mapM (onElement X lam env p) = .ok (items.map fun v => .bool (ans v)) := by
    intro items
    induction items with
    | nil => intro _; rfl
    | cons v vs ih => intro h; rw [List.mapM_cons, h v (by simp), ih (fun u hu => h u (by simp [hu]))]; rfl
  rw [this items hl]
  have : ∀ items : List Value, select items (items.map fun v => .bool (ans v)) = items.filter ans := by
    intro items
    induction items with
    | nil => rfl
    | cons v vs ih =>
      simp only [select] at ih
      have e : ∀ b, _root_.isTrue (.bool b) = b := fun _ => rfl
      simp only [select, List.map_cons, List.zip_cons_cons, List.filter_cons, e]
      cases ans v <;> simp [ih]
  simp [Except.map, this]

/-- The hypotheses of `C17_filter_total`: a lambda that says true of the first element and false of the second. -/
example (X : Ext) :=
  C17_filter_total X (.array [.number (F64.ofNat 5), .number (F64.ofNat 1)]) (.binary (.var c!"x") .gt (.number (F64.ofNat 2)))
    [] c!"x" none Env.empty [.num (F64.ofNat 5), .num (F64.ofNat 1)]
    (fun v => match v with | .num n => F64.fgt n (F64.ofNat 2) | _ => false) (by intro reg h; cases h) rfl rfl
    (by intro v hv; simp at hv; rcases hv with rfl | rfl <;> rfl)

/-- Cases of C17: an outer variable, a renamed parameter, nesting. -/
example (X : Ext) :
    evaluateWith X c!"FILTER([1, 5, 3], :y > :k, \"y\")" (Env.empty.insert c!"k" (.num (F64.ofNat 2))) =
      .ok (.arr [.num (F64.ofNat 5), .num (F64.ofNat 3)]) ∧
    evaluate X c!"FIND([1, 5, 3], :x > 2)" = .ok (.num (F64.ofNat 5)) ∧
    evaluate X c!"MAP([1, 2], REDUCE([10, :x], :acc + :x, 0))" = .ok (.arr [.num (F64.ofNat 11), .num (F64.ofNat 12)]) ∧
    evaluate X c!"COUNTIF([1, 5, 3], :x > 2)" = .ok (.num (F64.ofNat 2)) :=
  ⟨by kernel_rfl, by kernel_rfl, by kernel_rfl, by kernel_rfl⟩

/-! ### C18 -/

/-- C18: a statement that is a function call (in particular a higher-order one) leaves the caller's variables
exactly as they were. -/
theorem C18_variables_unchanged (X : Ext) (name : Str) (args : List Expr) (env env' : Env) (v : Value)
    (h : evalAssignCtx X (.call name args) env = .ok (v, env')) : env' = env :=
  C12_expression_statements_bind_nothing X (.call name args) trivial env env' v h

/-- C18: the lambda of an element sees nothing of the other elements: over a concatenation MAP is the
concatenation of the two MAPs, whatever the lambda. -/
theorem C18_map_append (X : Ext) (lam : Expr) (r : Option Registry) (env : Env) (a b c : Expr) (xs ys us vs : List Value)
    (hr : NotCustom X r c!"MAP") (ha : Eval.eval X a r env = .ok (.arr xs)) (hb : Eval.eval X b r env = .ok (.arr ys))
    (hc : Eval.eval X c r env = .ok (.arr (xs ++ ys)))
    (h1 : Eval.eval X (.call c!"MAP" [a, lam]) r env = .ok (.arr us))
    (h2 : Eval.eval X (.call c!"MAP" [b, lam]) r env = .ok (.arr vs)) :
    Eval.eval X (.call c!"MAP" [c, lam]) r env = .ok (.arr (us ++ vs)) := by
  rw [C17_map X _ lam [] c!"x" r env _ hr ha rfl] at h1
  rw [C17_map X _ lam [] c!"x" r env _ hr hb rfl] at h2
  rw [C17_map X _ lam [] c!"x" r env _ hr hc rfl]
  cases e1 : xs.mapM (onElement X lam env c!"x") with
  | error f => rw [e1] at h1; simp [Except.map] at h1
  | ok us' =>
    cases e2 : ys.mapM (onElement X lam env c!"x") with
    | error f => rw [e2] at h2; simp [Except.map] at h2
    | ok vs' =>
      rw [e1] at h1; rw [e2] at h2
      simp [Except.map] at h1 h2; subst h1; subst h2
      rw [List.mapM_append, e1, e2]; rfl

/-- The hypotheses of `C18_map_append`: two halves of an array. -/
example (X : Ext) :=
  C18_map_append X (.unary .minus (.var c!"x")) none Env.empty (.array [.number (F64.ofNat 1)]) (.array [.number (F64.ofNat 2)])
    (.array [.number (F64.ofNat 1), .number (F64.ofNat 2)]) [.num (F64.ofNat 1)] [.num (F64.ofNat 2)]
    [.num (F64.ofNat 1).neg] [.num (F64.ofNat 2).neg] (by intro reg h; cases h) rfl rfl rfl rfl rfl

/-- C18: the outcome for the element at position `i` is that of the lambda alone on that element, whatever
precedes it. -/
theorem C18_map_pointwise (X : Ext) (a lam : Expr) (ps : List Expr) (p : Str) (r : Option Registry) (env : Env)
    (items out : List Value) (hr : NotCustom X r c!"MAP") (ha : Eval.eval X a r env = .ok (.arr items))
    (hp : ParamIs X r env c!"x" ps p) (h : Eval.eval X (.call c!"MAP" (a :: lam :: ps)) r env = .ok (.arr out)) :
    List.Forall₂ (fun v w => evalVars X lam (env.insert p v) = .ok w) items out := by
  rw [C17_map X a lam ps p r env items hr ha hp] at h
  cases e : items.mapM (onElement X lam env p) with
  | error f => rw [e] at h; simp [Except.map] at h
  | ok out' =>
    rw [e] at h
    simp [Except.map] at h; subst h
    clear ha
    induction items generalizing out' with
    | nil => simp [pure, Except.pure] at e; subst e; exact .nil
    | cons v vs ih =>
      rw [List.mapM_cons] at e
      cases h1 : onElement X lam env p v with
      | error f => rw [h1] at e; simp [bind, Except.bind] at e
      | ok w =>
        rw [h1] at e
        cases h2 : vs.mapM (onElement X lam env p) with
        | error f => rw [h2] at e; simp [bind, Except.bind] at e
        | ok ws =>
          rw [h2] at e
          simp [bind, Except.bind, pure, Except.pure] at e; subst e
          exact .cons h1 (ih ws h2)

/-- The hypotheses of `C18_map_pointwise`. -/
example (X : Ext) :=
  C18_map_pointwise X (.array [.number (F64.ofNat 1), .number (F64.ofNat 2)]) (.unary .minus (.var c!"x")) [] c!"x" none
    Env.empty [.num (F64.ofNat 1), .num (F64.ofNat 2)] [.num (F64.ofNat 1).neg, .num (F64.ofNat 2).neg]
    (by intro reg h; cases h) rfl rfl rfl

/-- A case of C18: an outer `x` survives a lambda over `x`. -/
example (X : Ext) : evaluateWithAssignments X c!":x := 7; MAP([1, 2], :x + 1); :x" Env.empty = .ok (.num (F64.ofNat 7)) := by
  kernel_rfl

/-! ### C21 -/

namespace Spec

/-- The values of an argument list, left to right, spreads spliced. -/
inductive Args (X : Ext) (r : Option Registry) (env : Env) : List Expr → List Value → Prop
  | nil : Args X r env [] []
  | plain {e : Expr} {es : List Expr} {v : Value} {vs : List Value} :
      (∀ e', e ≠ .spread e') → Eval.eval X e r env = .ok v → Args X r env es vs → Args X r env (e :: es) (v :: vs)
  | spread {e : Expr} {es : List Expr} {items vs : List Value} :
      Eval.eval X e r env = .ok (.arr items) → Args X r env es vs → Args X r env (.spread e :: es) (items ++ vs)

/-- Is `n` within the arity of `f`? -/
def InArity (f : CustomFn) (n : Nat) : Prop := f.minArgs ≤ n ∧ ∀ m, f.maxArgs = some m → n ≤ m

end Spec

theorem argOf_spread_none (X : Ext) (e : Expr) (h : ∀ e', e ≠ .spread e') : (Eval.argOf X e).spread = none := by
  cases e <;> first | rfl | exact absurd rfl (h _)

theorem evalArgs_of (X : Ext) (r : Option Registry) (env : Env) (es : List Expr) (vs : List Value) (h : Args X r env es vs) :
    evalArgs r env (Eval.argsOf X es) = .ok vs := by
  induction h with
  | nil => rfl
  | plain hs hv _ ih => rw [Eval.argsOf_cons]; simp [evalArgs, argOf_spread_none X _ hs, hv, ih, bind, Except.bind, pure, Except.pure]
  | spread hv _ ih => rw [Eval.argsOf_cons]; simp [evalArgs, Eval.argOf, hv, ih, bind, Except.bind, pure, Except.pure]

theorem evalArgs_ok (X : Ext) (r : Option Registry) (env : Env) (es : List Expr) (vs : List Value)
    (h : evalArgs r env (Eval.argsOf X es) = .ok vs) : Args X r env es vs := by
  induction es generalizing vs with
  | nil => rw [Eval.argsOf, evalArgs] at h; simp at h; subst h; exact .nil
  | cons e es ih =>
    rw [Eval.argsOf_cons] at h
    by_cases hs : ∃ e', e = .spread e'
    · obtain ⟨e', rfl⟩ := hs
      simp only [evalArgs, Eval.argOf] at h
      cases hv : Eval.eval X e' r env with
      | error f => rw [hv] at h; simp [bind, Except.bind] at h
      | ok v =>
        rw [hv] at h
        cases v with
        | arr items =>
          simp only [bind, Except.bind] at h
          cases hr : evalArgs r env (Eval.argsOf X es) with
          | error f => rw [hr] at h; simp at h
          | ok ws =>
            rw [hr] at h
            simp [pure, Except.pure] at h; subst h
            exact .spread hv (ih ws hr)
        | _ => simp [bind, Except.bind, fail] at h
    · have hs : ∀ e', e ≠ .spread e' := fun e' he => hs ⟨e', he⟩
      simp only [evalArgs, argOf_spread_none X e hs, Eval.argOf_run] at h
      cases hv : Eval.eval X e r env with
      | error f => rw [hv] at h; simp [bind, Except.bind] at h
      | ok v =>
        rw [hv] at h
        simp only [bind, Except.bind] at h
        cases hr : evalArgs r env (Eval.argsOf X es) with
        | error f => rw [hr] at h; simp at h
        | ok ws =>
          rw [hr] at h
          simp [pure, Except.pure] at h; subst h
          exact .plain hs hv (ih ws hr)

theorem call_custom (X : Ext) (reg : Registry) (f : CustomFn) (name : Str) (es : List Expr) (env : Env)
    (hn : name ∉ [c!"__TERNARY__", c!"__CONST_TRUE__", c!"__CONST_FALSE__"]) (hf : reg.get X name = some f) :
    Eval.eval X (.call name es) (some reg) env =
      (do reg.execute X name (← evalArgs (some reg) env (Eval.argsOf X es))) := by
  simp only [List.mem_cons, List.not_mem_nil, or_false, not_or] at hn
  have hh : reg.has X name = true := by unfold Registry.has; unfold Registry.get at hf; rw [hf]; rfl
  rw [Eval.eval]
  simp only [Eval.call, if_neg hn.1, if_neg hn.2.1, if_neg hn.2.2, if_pos hh]

/-- C21: with `f` registered under a name equal to `name` up to upper-casing, `name(args)` runs `f` on the values of
the arguments when their number is within its arity. No hypothesis excludes built-in names. -/
theorem C21_custom_shadows (X : Ext) (reg0 reg : Registry) (f : CustomFn) (name : Str) (es : List Expr) (vs : List Value) (env : Env)
    (hreg : reg0.register X f = .ok reg) (hname : X.upper name = X.upper f.name)
    (hn : name ∉ [c!"__TERNARY__", c!"__CONST_TRUE__", c!"__CONST_FALSE__"])
    (hargs : Args X (some reg) env es vs) (hin : InArity f vs.length) :
    evalCustom X reg (.call name es) env = f.run vs := by
  have hf : reg.get X name = some f := by
    simp only [Registry.register] at hreg
    split at hreg
    · simp [fail] at hreg
    split at hreg
    · simp [fail] at hreg
    · simp at hreg; subst hreg; simp [Registry.get, hname]
  unfold evalCustom
  rw [call_custom X reg f name es env hn hf, evalArgs_of X _ env es vs hargs]
  simp only [bind, Except.bind, Registry.execute, hf]
  rw [if_neg (by have := hin.1; omega)]
  cases hm : f.maxArgs with
  | none => rfl
  | some m => simp only; rw [if_neg (by have := hin.2 m hm; omega)]

/-- C21: outside the arity the call is an error and `f` is not run; the message names the bound missed. -/
theorem C21_arity_error (X : Ext) (reg0 reg : Registry) (f : CustomFn) (name : Str) (es : List Expr) (vs : List Value) (env : Env)
    (hreg : reg0.register X f = .ok reg) (hname : X.upper name = X.upper f.name)
    (hn : name ∉ [c!"__TERNARY__", c!"__CONST_TRUE__", c!"__CONST_FALSE__"])
    (hargs : Args X (some reg) env es vs) (hin : ¬ InArity f vs.length) :
    (vs.length < f.minArgs ∧ evalCustom X reg (.call name es) env =
      fail "{} expects at least {} arguments, got {}" [name, Str.showInt f.minArgs, Str.showInt vs.length]) ∨
    (∃ m, f.maxArgs = some m ∧ m < vs.length ∧ evalCustom X reg (.call name es) env =
      fail "{} expects at most {} arguments, got {}" [name, Str.showInt m, Str.showInt vs.length]) := by
  have hf : reg.get X name = some f := by
    simp only [Registry.register] at hreg
    split at hreg
    · simp [fail] at hreg
    split at hreg
    · simp [fail] at hreg
    · simp at hreg; subst hreg; simp [Registry.get, hname]
  unfold evalCustom
  rw [call_custom X reg f name es env hn hf, evalArgs_of X _ env es vs hargs]
  simp only [bind, Except.bind, Registry.execute, hf]
  by_cases h1 : vs.length < f.minArgs
  · exact .inl ⟨h1, by rw [if_pos h1]⟩
  · rw [if_neg h1]
    cases hm : f.maxArgs with
    | none => exact absurd ⟨by omega, by simp [hm]⟩ hin
    | some m =>
      have : m < vs.length := by
        by_contra hc
        exact hin ⟨by omega, by intro m' hm'; rw [hm] at hm'; simp at hm'; omega⟩
      exact .inr ⟨m, rfl, this, by simp only; rw [if_pos this]⟩

/-- C21: whenever the call succeeds, the arguments had values, their number was within the arity, and the result is
what `f` returned on them. -/
theorem C21_success_means_called (X : Ext) (reg : Registry) (f : CustomFn) (name : Str) (es : List Expr) (env : Env) (v : Value)
    (hf : reg.get X name = some f) (hn : name ∉ [c!"__TERNARY__", c!"__CONST_TRUE__", c!"__CONST_FALSE__"])
    (h : evalCustom X reg (.call name es) env = .ok v) :
    ∃ vs, Args X (some reg) env es vs ∧ InArity f vs.length ∧ f.run vs = .ok v := by
  unfold evalCustom at h
  rw [call_custom X reg f name es env hn hf] at h
  cases ha : evalArgs (some reg) env (Eval.argsOf X es) with
  | error g => rw [ha] at h; simp [bind, Except.bind] at h
  | ok vs =>
    rw [ha] at h
    simp only [bind, Except.bind, Registry.execute, hf] at h
    refine ⟨vs, evalArgs_ok X _ env es vs ha, ?_⟩
    split at h
    · simp [fail] at h
    · cases hm : f.maxArgs with
      | none => rw [hm] at h; exact ⟨⟨by omega, by simp [hm]⟩, h⟩
      | some m =>
        rw [hm] at h; simp only at h
        split at h
        · simp [fail] at h
        · exact ⟨⟨by omega, by intro m' hm'; rw [hm] at hm'; simp at hm'; omega⟩, h⟩

/-- A case of C21: a custom `Sum` counting its arguments shadows `SUM`. -/
example (X : Ext) : ∃ reg, Registry.empty.register X ⟨c!"Sum", 1, some 5, fun vs => .ok (.num (F64.ofNat vs.length))⟩ = .ok reg ∧
    evaluateWithCustom X reg c!"sum(10, ...[20, 30])" Env.empty = .ok (.num (F64.ofNat 3)) ∧
    evaluateWithCustom X reg c!"sum()" Env.empty =
      fail "{} expects at least {} arguments, got {}" [c!"SUM", c!"1", c!"0"] :=
  ⟨_, rfl, by kernel_rfl, by kernel_rfl⟩

/-! ### C22 -/

namespace Spec

/-- The comparisons of a text criterion; `bare` is a criterion without operator. -/
inductive CritOp where
  | ge | le | ne | gt | lt | eq | bare
deriving DecidableEq

/-- How each is written. -/
def CritOp.text : CritOp → Str
  | .ge => c!">="
  | .le => c!"<="
  | .ne => c!"<>"
  | .gt => c!">"
  | .lt => c!"<"
  | .eq => c!"="
  | .bare => []

/-- The comparison of two numbers. -/
def CritOp.onNumbers : CritOp → F64 → F64 → Bool
  | .ge, x, y => F64.fle y x
  | .le, x, y => F64.fle x y
  | .ne, x, y => !F64.feq x y
  | .gt, x, y => F64.flt y x
  | .lt, x, y => F64.flt x y
  | .eq, x, y => F64.feq x y
  | .bare, x, y => F64.feq x y

/-- The operand `t` of a criterion does not read as part of the operator: after `<` no `=` or `>`, after `>` no
`=`, and a bare criterion starts with none of `<`, `>`, `=`. -/
def CritOp.Separate : CritOp → Str → Prop
  | .gt, t => t.head? ≠ some '='
  | .lt, t => t.head? ≠ some '=' ∧ t.head? ≠ some '>'
  | .bare, t => t.head? ≠ some '=' ∧ t.head? ≠ some '>' ∧ t.head? ≠ some '<'
  | _, _ => True

/-- When a value satisfies `op t`. If `t` is a number: numbers and currencies compare as numbers, and anything else
only satisfies `<>`. If `t` is no number: only equality with a text, or `<>`, can hold. -/
def CritOp.Satisfies (op : CritOp) (t : Str) (v : Value) : Prop :=
  match F64.parse t with
  | some y => (∃ x, (v = .num x ∨ v = .cur x) ∧ op.onNumbers x y = true) ∨
      (op = .ne ∧ ∀ x, v ≠ .num x ∧ v ≠ .cur x)
  | none => ((op = .eq ∨ op = .bare) ∧ v = .str t) ∨ (op = .ne ∧ v ≠ .str t)

end Spec

theorem Str.stripPrefix_append (p t : Str) : Str.stripPrefix (p ++ t) p = some t := by
  induction p with
  | nil => cases t <;> simp [Str.stripPrefix]
  | cons c p ih => simp [Str.stripPrefix, ih]

theorem threshold_iff (f : F64 → F64 → Bool) (t : Str) (v : Value) :
    Eval.threshold f t v = true ↔ ∃ y, F64.parse t = some y ∧ ∃ x, (v = .num x ∨ v = .cur x) ∧ f x y = true := by
  unfold Eval.threshold
  cases F64.parse t with
  | none => simp
  | some y => cases v <;> simp [Eval.onAmount]

theorem equals_iff (t : Str) (v : Value) :
    Eval.equals t v = true ↔ (∃ y, F64.parse t = some y ∧ ∃ x, (v = .num x ∨ v = .cur x) ∧ F64.feq x y = true) ∨
      (F64.parse t = none ∧ v = .str t) := by
  unfold Eval.equals
  cases F64.parse t with
  | none => cases v <;> simp
  | some y => cases v <;> simp [Eval.onAmount]

theorem differs_iff (t : Str) (v : Value) :
    Eval.differs t v = true ↔ (∃ y, F64.parse t = some y ∧ ((∃ x, (v = .num x ∨ v = .cur x) ∧ F64.feq x y = false) ∨
      ∀ x, v ≠ .num x ∧ v ≠ .cur x)) ∨ (F64.parse t = none ∧ v ≠ .str t) := by
  unfold Eval.differs
  cases F64.parse t with
  | none => cases v <;> simp
  | some y => cases v <;> simp [Eval.onAmount, F64.fne]

theorem meetsText_iff (op : CritOp) (t : Str) (v : Value) (hs : op.Separate t) :
    Eval.meetsText (op.text ++ t) v = true ↔ op.Satisfies t v := by
  have nost : ∀ (p : Char) (q : Str) (u : Str), u.head? ≠ some p → Str.stripPrefix u (p :: q) = none := by
    intro p q u hu
    cases u with
    | nil => rfl
    | cons c u => simp at hu; simp [Str.stripPrefix, hu]
  unfold CritOp.Satisfies
  cases op with
  | ge =>
    simp only [Eval.meetsText, CritOp.text, Str.stripPrefix_append, threshold_iff]
    cases F64.parse t <;> simp [CritOp.onNumbers, F64.fge]
  | le =>
    simp only [Eval.meetsText, CritOp.text, Str.stripPrefix_append]
    rw [nost '>' _ _ (by simp)]
    simp only [threshold_iff]
    cases F64.parse t <;> simp [CritOp.onNumbers]
  | ne =>
    simp only [Eval.meetsText, CritOp.text, Str.stripPrefix_append]
    rw [nost '>' _ _ (by simp)]
    rw [show Str.stripPrefix (c!"<>" ++ t) c!"<=" = none by simp [Str.stripPrefix]]
    simp only [differs_iff]
    cases F64.parse t <;> simp [CritOp.onNumbers]
  | gt =>
    simp only [Eval.meetsText, CritOp.text, Str.stripPrefix_append]
    rw [show Str.stripPrefix (c!">" ++ t) c!">=" = none by simp [Str.stripPrefix]; exact nost _ _ _ hs]
    rw [nost '<' _ _ (by simp), nost '<' _ _ (by simp)]
    simp only [threshold_iff]
    cases F64.parse t <;> simp [CritOp.onNumbers, F64.fgt]
  | lt =>
    simp only [Eval.meetsText, CritOp.text, Str.stripPrefix_append]
    rw [nost '>' _ _ (by simp), nost '>' _ _ (by simp)]
    rw [show Str.stripPrefix (c!"<" ++ t) c!"<=" = none by simp [Str.stripPrefix]; exact nost _ _ _ hs.1]
    rw [show Str.stripPrefix (c!"<" ++ t) c!"<>" = none by simp [Str.stripPrefix]; exact nost _ _ _ hs.2]
    simp only [threshold_iff]
    cases F64.parse t <;> simp [CritOp.onNumbers]
  | eq =>
    simp only [Eval.meetsText, CritOp.text, Str.stripPrefix_append]
    rw [nost '>' _ _ (by simp), nost '>' _ _ (by simp), nost '<' _ _ (by simp), nost '<' _ _ (by simp), nost '<' _ _ (by simp)]
    simp only [equals_iff]
    cases F64.parse t <;> simp [CritOp.onNumbers]
  | bare =>
    simp only [Eval.meetsText, CritOp.text, List.nil_append]
    rw [nost '>' _ _ hs.2.1, nost '>' _ _ hs.2.1, nost '<' _ _ hs.2.2, nost '<' _ _ hs.2.2, nost '<' _ _ hs.2.2, nost '=' _ _ hs.1]
    simp only [equals_iff]
    cases F64.parse t <;> simp [CritOp.onNumbers]

theorem sumPairs_eq (crit : Value) (acc : F64) (as bs : List Value) :
    Eval.sumPairs crit acc as bs =
      (amounts (((as.zip bs).filter fun p => Eval.meets crit p.1).map Prod.snd)).foldl F64.add acc := by
  induction as generalizing acc bs with
  | nil => simp [Eval.sumPairs, amounts]
  | cons a as ih =>
    cases bs with
    | nil => simp [Eval.sumPairs, amounts]
    | cons b bs =>
      rw [Eval.sumPairs, ih]
      simp only [List.zip_cons_cons, List.filter_cons]
      split
      · rw [List.map_cons, Loop.amounts_cons]
      · rfl

theorem sumif_static (X : Ext) (a c : Expr) (s : Option Expr) (r : Option Registry) (env : Env) (crit v : Value)
    (sv : Option Value) (hr : NotCustom X r c!"SUMIF") (ha : Eval.eval X a r env = .ok v)
    (hc : Eval.eval X c r env = .ok crit) (hcrit : (∃ t, crit = .str t) ∨ (∃ n, crit = .num n))
    (hs : match s, sv with | none, none => True | some e, some w => Eval.eval X e r env = .ok w | _, _ => False) :
    Eval.eval X (.call c!"SUMIF" (a :: c :: s.toList)) r env = .ok (.num (Eval.sumifExcel v crit (sv.getD v))) := by
  rw [call_higherOrder X _ _ r env Eval.sumif (by decide) (by rfl) hr]
  have hst : Eval.staticCriterion r env (Eval.argOf X c) = .ok (some crit) := by
    unfold Eval.staticCriterion
    rw [Eval.argOf_run, hc]
    rcases hcrit with ⟨t, rfl⟩ | ⟨n, rfl⟩ <;> rfl
  cases s with
  | none =>
    cases sv with
    | some _ => exact hs.elim
    | none => simp [Eval.sumif, ha, hst, bind, Except.bind, pure, Except.pure]
  | some e =>
    cases sv with
    | none => exact hs.elim
    | some w => simp [Eval.sumif, ha, hst, bind, Except.bind, pure, Except.pure, show Eval.eval X e r env = .ok w from hs]

/-- C22: `SUMIF(range, crit, sum_range)` with a text criterion `op t` is the left-to-right sum of the numbers (and
currencies) of `sum_range` whose partner in `range` satisfies the criterion; a pair needs both elements, so the
longer range is cut. -/
theorem C22_sumif_text (X : Ext) (a c s : Expr) (r : Option Registry) (env : Env) (op : CritOp) (t : Str)
    (xs ys : List Value) (hop : op.Separate t) (hr : NotCustom X r c!"SUMIF") (ha : Eval.eval X a r env = .ok (.arr xs))
    (hc : Eval.eval X c r env = .ok (.str (op.text ++ t))) (hs : Eval.eval X s r env = .ok (.arr ys)) :
    ∃ meets : Value → Bool, (∀ v, meets v = true ↔ op.Satisfies t v) ∧
      Eval.eval X (.call c!"SUMIF" [a, c, s]) r env =
        .ok (.num (sum (amounts (((xs.zip ys).filter fun p => meets p.1).map Prod.snd)))) := by
  refine ⟨fun v => Eval.meetsText (op.text ++ t) v, fun v => meetsText_iff op t v hop, ?_⟩
  have := sumif_static X a c (some s) r env _ _ (some (.arr ys)) hr ha hc (.inl ⟨_, rfl⟩) hs
  simp only [Option.toList, Option.getD, Eval.sumifExcel, sumPairs_eq] at this
  exact this

/-- The hypotheses of `C22_sumif_text`: `SUMIF(["a", "b"], "<>a", [10, 20])`. -/
example (X : Ext) :=
  C22_sumif_text X (.array [.strLit c!"a", .strLit c!"b"]) (.strLit c!"<>a")
    (.array [.number (F64.ofNat 10), .number (F64.ofNat 20)]) none Env.empty .ne c!"a" [.str c!"a", .str c!"b"]
    [.num (F64.ofNat 10), .num (F64.ofNat 20)] (by simp [CritOp.Separate]) (by intro reg h; cases h) rfl rfl rfl

/-- C22: without a sum range the range itself is summed. -/
theorem C22_sumif_text_same_range (X : Ext) (a c : Expr) (r : Option Registry) (env : Env) (op : CritOp) (t : Str)
    (xs : List Value) (hop : op.Separate t) (hr : NotCustom X r c!"SUMIF") (ha : Eval.eval X a r env = .ok (.arr xs))
    (hc : Eval.eval X c r env = .ok (.str (op.text ++ t))) :
    ∃ meets : Value → Bool, (∀ v, meets v = true ↔ op.Satisfies t v) ∧
      Eval.eval X (.call c!"SUMIF" [a, c]) r env = .ok (.num (sum (amounts (xs.filter meets)))) := by
  refine ⟨fun v => Eval.meetsText (op.text ++ t) v, fun v => meetsText_iff op t v hop, ?_⟩
  have := sumif_static X a c none r env _ _ none hr ha hc (.inl ⟨_, rfl⟩) trivial
  simp only [Option.toList, Option.getD, Eval.sumifExcel, sumPairs_eq] at this
  rw [this]
  have : ∀ xs : List Value, ((xs.zip xs).filter fun p => Eval.meetsText (op.text ++ t) p.1).map Prod.snd =
      xs.filter fun v => Eval.meetsText (op.text ++ t) v := by
    intro xs
    induction xs with
    | nil => rfl
    | cons x xs ih => simp only [List.zip_cons_cons, List.filter_cons]; split <;> simp [ih]
  simp only [Eval.meets, this]; rfl

/-- C22: a number as criterion selects the equal numbers. -/
theorem C22_sumif_number (X : Ext) (a c s : Expr) (r : Option Registry) (env : Env) (n : F64) (xs ys : List Value)
    (hr : NotCustom X r c!"SUMIF") (ha : Eval.eval X a r env = .ok (.arr xs))
    (hc : Eval.eval X c r env = .ok (.num n)) (hs : Eval.eval X s r env = .ok (.arr ys)) :
    ∃ meets : Value → Bool, (∀ v, meets v = true ↔ ∃ x, (v = .num x ∨ v = .cur x) ∧ F64.feq x n = true) ∧
      Eval.eval X (.call c!"SUMIF" [a, c, s]) r env =
        .ok (.num (sum (amounts (((xs.zip ys).filter fun p => meets p.1).map Prod.snd)))) := by
  refine ⟨fun v => Eval.meets (.num n) v, fun v => by cases v <;> simp [Eval.meets, Eval.onAmount], ?_⟩
  have := sumif_static X a c (some s) r env _ _ (some (.arr ys)) hr ha hc (.inr ⟨_, rfl⟩) hs
  simp only [Option.toList, Option.getD, Eval.sumifExcel, sumPairs_eq] at this
  exact this

/-- The hypotheses of `C22_sumif_number`: `SUMIF([1, 2], 2, [10, 20])`. -/
example (X : Ext) :=
  C22_sumif_number X (.array [.number (F64.ofNat 1), .number (F64.ofNat 2)]) (.number (F64.ofNat 2))
    (.array [.number (F64.ofNat 10), .number (F64.ofNat 20)]) none Env.empty (F64.ofNat 2)
    [.num (F64.ofNat 1), .num (F64.ofNat 2)] [.num (F64.ofNat 10), .num (F64.ofNat 20)] (by intro reg h; cases h) rfl rfl rfl

/-- C22: with a lambda (a criterion that does not itself evaluate to a text or a number), SUMIF adds the numbers for
which it is `true`. -/
theorem C22_sumif_lambda (X : Ext) (a lam : Expr) (r : Option Registry) (env : Env) (items : List Value)
    (hr : NotCustom X r c!"SUMIF") (ha : Eval.eval X a r env = .ok (.arr items))
    (hl : (∃ b, Eval.eval X lam r env = .ok (.bool b)) ∨ ∃ m as p, Eval.eval X lam r env = .error (.err m as p)) :
    Eval.eval X (.call c!"SUMIF" [a, lam]) r env =
      (items.mapM (onElement X lam env c!"x")).map fun answers => .num (sum (amounts (select items answers))) := by
  rw [call_higherOrder X _ _ r env Eval.sumif (by decide) (by rfl) hr]
  have hst : Eval.staticCriterion r env (Eval.argOf X lam) = .ok none := by
    unfold Eval.staticCriterion
    rw [Eval.argOf_run]
    rcases hl with ⟨b, h⟩ | ⟨m, as, p, h⟩ <;> rw [h]
  simp only [List.map_cons, List.map_nil, Eval.sumif, Eval.argOf_run, ha, hst, bind, Except.bind, pure, Except.pure, Option.isSome,
    Loop.sumif_eq]
  change _ = Except.map _ (items.mapM fun v => evalVars X lam (env.insert c!"x" v))
  simp only [evalVars]
  cases items.mapM fun v => Eval.eval X lam none (env.insert c!"x" v) <;> rfl

/-- The hypotheses of `C22_sumif_lambda`: the condition fails outside of the array, since there is no `x`. -/
example (X : Ext) :=
  C22_sumif_lambda X (.array [.number (F64.ofNat 1), .number (F64.ofNat 2)]) (.binary (.var c!"x") .lt (.number (F64.ofNat 2)))
    none Env.empty [.num (F64.ofNat 1), .num (F64.ofNat 2)] (by intro reg h; cases h) rfl (.inr ⟨_, _, _, rfl⟩)

/-- C22: AVGIF adds the numbers for which the lambda is `true` and divides by how many there are; 0 when none. -/
theorem C22_avgif (X : Ext) (a lam : Expr) (r : Option Registry) (env : Env) (items : List Value)
    (hr : NotCustom X r c!"AVGIF") (ha : Eval.eval X a r env = .ok (.arr items)) :
    Eval.eval X (.call c!"AVGIF" [a, lam]) r env =
      (items.mapM (onElement X lam env c!"x")).map fun answers =>
        let xs := amounts (select items answers)
        .num (if xs = [] then .zero false else F64.div (sum xs) (F64.ofNat xs.length)) := by
  rw [call_higherOrder X _ _ r env Eval.avgif (by decide) (by rfl) hr]
  simp only [List.map_cons, List.map_nil, Eval.avgif, Eval.argOf_run, ha, bind, Except.bind, Loop.avgif_eq, Nat.zero_add]
  change _ = Except.map _ (items.mapM fun v => evalVars X lam (env.insert c!"x" v))
  simp only [evalVars]
  cases items.mapM fun v => Eval.eval X lam none (env.insert c!"x" v) with
  | error f => rfl
  | ok bs =>
    simp only [Except.map, pure, Except.pure, meanOf, List.length_eq_zero_iff]
    rfl

/-- The hypotheses of `C22_avgif`. -/
example (X : Ext) :=
  C22_avgif X (.array [.number (F64.ofNat 1), .number (F64.ofNat 2)]) (.binary (.var c!"x") .lt (.number (F64.ofNat 2)))
    none Env.empty [.num (F64.ofNat 1), .num (F64.ofNat 2)] (by intro reg h; cases h) rfl

/-- Cases of C22. -/
example (X : Ext) :
    evaluate X c!"SUMIF([1, 5, 3], \">=3\")" = .ok (.num (F64.ofNat 8)) ∧
    evaluate X c!"SUMIF([\"a\", \"b\", \"a\"], \"a\", [10, 20, 30, 40])" = .ok (.num (F64.ofNat 40)) ∧
    evaluate X c!"SUMIF([1, 5, 3], :x < 4)" = .ok (.num (F64.ofNat 4)) ∧
    evaluate X c!"AVGIF([1, 5, 3], :x > 2)" = .ok (.num (F64.ofNat 4)) :=
  ⟨by kernel_rfl, by kernel_rfl, by kernel_rfl, by kernel_rfl⟩
