import Verif.Props.Independence
import Verif.Props.Lambda
/-! C19: the function and method forms of the higher-order functions. -/

open Lib Spec

/-- What a result is apart from the wording of errors. -/
def Spec.outcome {α : Type} : Res α → Except (Option String) α
  | .ok v => .ok v
  | .error (.err ..) => .error none
  | .error (.panic w) => .error (some w)

/-- The same value, or both an error (of whatever text), or the same panic. -/
def Spec.Agree {α : Type} (a b : Res α) : Prop := outcome a = outcome b

/-- Agreement as a congruence. -/
def Cong.agree : Cong where
  rel := Agree
  refl := fun _ => rfl
  bind := by
    intro α β a b f g hab hfg
    unfold Agree at *
    cases a with
    | ok v =>
      cases b with
      | ok w => simp only [outcome, Except.ok.injEq] at hab; subst hab; exact hfg v
      | error w => cases w <;> simp [outcome] at hab
    | error v =>
      cases b with
      | ok w => cases v <;> simp [outcome] at hab
      | error w =>
        cases v <;> cases w <;> simp [outcome] at hab
        · rfl
        · subst hab; rfl

theorem agree_fail {α : Type} (m m' : String) (as as' : List Str) : Agree (fail (α := α) m as) (fail m' as') := rfl

theorem agree_self_orElse {a : Res Value} {m : String} {as : List Str} : Agree a (orElse a (fail m as)) := by
  cases a with
  | ok v => rfl
  | error f => cases f <;> rfl

/-! ### The two builtin dispatchers -/

/-- Functions the two dispatchers treat differently, or that are not plain builtins. -/
def Spec.differing : List Str :=
  [c!"DIG", c!"JQ", c!"BETWEEN", c!"REVERSE", c!"SUMIF", c!"REDUCE", c!"__TERNARY__", c!"__CONST_TRUE__", c!"__CONST_FALSE__"]

/-- All functions of the table used by the unified evaluator. -/
def Spec.builtinNames : List Str :=
  Dispatch.arrayNames ++ Dispatch.arithmeticNames ++ Dispatch.logicalNames ++ Dispatch.stringNames ++ Dispatch.datetimeNames ++
  Dispatch.financialNames ++ Dispatch.statisticalNames ++ Dispatch.jsonNames

theorem lookupFn_none (name : Str) (t : List (Str × Builtin)) (h : ∀ p ∈ t, name ≠ p.1) : lookupFn name t = none := by
  induction t with
  | nil => rfl
  | cons p t ih =>
    obtain ⟨k, f⟩ := p
    rw [lookupFn, if_neg (h (k, f) (by simp)), ih (fun q hq => h q (by simp [hq]))]

theorem not_in_tables (name : Str) (ns : List Str) (hn : name ∉ ns) (t : List (Str × Builtin))
    (ht : (t.all fun p => decide (p.1 ∈ ns)) = true) : lookupFn name t = none := by
  apply lookupFn_none
  rintro p hp rfl
  exact hn (of_decide_eq_true (List.all_eq_true.1 ht p hp))

theorem dispatch_unknown (X : Ext) (name : Str) (args : List Value) (h : name ∉ builtinNames ++ differing) :
    Agree (execFast X name args) (execBuiltin X name args) := by
  have sub : ∀ {l : List Str}, (∀ n ∈ l, n ∈ builtinNames ++ differing) → name ∉ l := fun hl hn => h (hl _ hn)
  have e1 : execFast X name args = fail "Unknown function: {}" [name] := by
    unfold execFast
    rw [if_neg (sub (by decide +kernel)), if_neg (sub (by decide +kernel)), if_neg (sub (by decide +kernel)),
      if_neg (sub (by decide +kernel)), if_neg (sub (by decide +kernel)), if_neg (sub (by decide +kernel)),
      if_neg (sub (by decide +kernel)), if_neg (sub (by decide +kernel))]
  have t : ∀ (tb : List (Str × Builtin)), (tb.all fun p => decide (p.1 ∈ builtinNames ++ differing)) = true →
      lookupFn name tb = none := fun tb ht => not_in_tables name _ h tb ht
  have e2 : execBuiltin X name args = fail "Unknown function: {}" [name] := by
    unfold execBuiltin execArithmetic execLogical execString execArray execFinancial execStatistical
    rw [t (Arith.table X) (by kernel_rfl), t Logic.table (by kernel_rfl), t (StrFn.table X) (by kernel_rfl),
      t (Arr.table X) (by kernel_rfl), t (Fin'.table X) (by kernel_rfl), t (Stat.table X) (by kernel_rfl)]
    have : isDatetimeFunction name = false := by
      unfold isDatetimeFunction
      exact decide_eq_false (sub (by decide +kernel))
    rw [this]
    rfl
  rw [e1, e2]; rfl

theorem dispatch_agree (X : Ext) (name : Str) (args : List Value) (h : name ∉ differing) :
    Agree (execFast X name args) (execBuiltin X name args) := by
  by_cases hb : name ∈ builtinNames
  · have key : ∀ n ∈ builtinNames, n ∉ differing → ∃ a, execFast X n args = a ∧
        (execBuiltin X n args = a ∨ ∃ m as, execBuiltin X n args = orElse a (fail m as)) := by
      unfold builtinNames Dispatch.arrayNames Dispatch.arithmeticNames Dispatch.logicalNames Dispatch.stringNames Dispatch.datetimeNames
        Dispatch.financialNames Dispatch.statisticalNames Dispatch.jsonNames
      simp only [List.cons_append, List.nil_append, List.mem_cons, List.not_mem_nil, or_false, forall_eq_or_imp, forall_eq]
      repeat' apply And.intro
      all_goals first
        | (intro _; exact ⟨_, rfl, .inr ⟨_, _, rfl⟩⟩)
        | (intro _; exact ⟨_, rfl, .inl rfl⟩)
        | (intro h; exact absurd (by decide +kernel) h)
    obtain ⟨a, h1, h2⟩ := key name hb h
    rw [h1]
    rcases h2 with h2 | ⟨m, as, h2⟩ <;> rw [h2]
    · rfl
    · exact agree_self_orElse
  · exact dispatch_unknown X name args (by simp [hb, h])

/-! ### The two evaluators -/

/-- The arguments of a call of REDUCE name both parameters. -/
def Spec.NamedReduce : List Expr → Prop
  | [_, _, _, .strLit _, .strLit _] => True
  | _ => False

mutual
/-- Expressions both evaluators read alike: no call of DIG, JQ, BETWEEN, REVERSE or SUMIF, calls of REDUCE name both
parameters, TRUE and FALSE take no arguments. The arguments of methods are unrestricted: they are always
evaluated by the older evaluator. -/
def Spec.Shared : Expr → Prop
  | .number _ | .strLit _ | .null | .var _ => True
  | .unary _ e | .prop e _ | .safeProp e _ | .spread e | .cast e _ | .assign _ e => Spec.Shared e
  | .binary a _ b | .index a b => Spec.Shared a ∧ Spec.Shared b
  | .call n es =>
    (n ∈ [c!"DIG", c!"JQ", c!"BETWEEN", c!"REVERSE", c!"SUMIF"] → False) ∧ (n = c!"REDUCE" → Spec.NamedReduce es) ∧
    (n ∈ [c!"__CONST_TRUE__", c!"__CONST_FALSE__"] → es = []) ∧ Spec.SharedList es
  | .array es | .seq es => Spec.SharedList es
  | .object ms => Spec.SharedMembers ms
  | .safeCall t _ _ | .method t _ _ _ => Spec.Shared t
  | .slice t a b => Spec.Shared t ∧ Spec.SharedOpt a ∧ Spec.SharedOpt b
/-- Of a list. -/
def Spec.SharedList : List Expr → Prop
  | [] => True
  | e :: es => Spec.Shared e ∧ Spec.SharedList es
/-- Of object members. -/
def Spec.SharedMembers : List (Str × Expr) → Prop
  | [] => True
  | (_, e) :: ms => Spec.Shared e ∧ Spec.SharedMembers ms
/-- Of an optional operand. -/
def Spec.SharedOpt : Option Expr → Prop
  | none => True
  | some e => Spec.Shared e
end

/-- The lambda of a function form, run by the older evaluator. -/
theorem lambda_agree (X : Ext) (e : Expr) (h : ∀ env, Agree (Eval.eval X e none env) (Legacy.eval X e none env)) (env : Env) :
    Agree (Eval.eval X e none env) (Legacy.lambda (Legacy.argOf X e) env) := by
  unfold Legacy.lambda
  split
  · cases e <;> first
      | (rename_i hs; simp [Legacy.argOf] at hs; done)
      | (simp only [Eval.eval]; rfl)
  · exact h env

abbrev AgreeArgs (X : Ext) (es : List Expr) : Prop := ArgsRel Cong.agree sameEnv none none (Eval.argsOf X es) (Legacy.argsOf X es)

theorem sameEnv_rel (env : Env) : sameEnv.rel env env := rfl

theorem call_agree (X : Ext) (n : Str) (es : List Expr) (env : Env)
    (h1 : n ∈ [c!"DIG", c!"JQ", c!"BETWEEN", c!"REVERSE", c!"SUMIF"] → False) (h2 : n = c!"REDUCE" → NamedReduce es)
    (h3 : n ∈ [c!"__CONST_TRUE__", c!"__CONST_FALSE__"] → es = []) (hargs : AgreeArgs X es)
    (hrun : ∀ e ∈ es, ∀ env, Agree (Eval.eval X e none env) (Legacy.eval X e none env)) :
    Agree (Eval.call X n (Eval.argsOf X es) none env) (Legacy.call X n (Legacy.argsOf X es) none env) := by
  have B := @Cong.bind Cong.agree
  have lam : ∀ e ∈ es, ∀ e1 e2, sameEnv.rel e1 e2 → Cong.agree.rel (Eval.eval X e none e1) (Legacy.lambda (Legacy.argOf X e) e2) := by
    rintro e he e1 e2 rfl; exact lambda_agree X e (hrun e he) e1
  have param : ∀ (o : Option Expr), (∀ e ∈ o, e ∈ es) → Cong.agree.rel (Eval.paramName none env c!"x" (o.map (Eval.argOf X)))
      (Legacy.paramName env (o.map (Legacy.argOf X))) := by
    intro o ho
    cases o with
    | none => rfl
    | some e => exact B (hrun e (ho e rfl) env) fun v => Cong.agree.refl _
  by_cases ht : n = c!"__TERNARY__"
  · simp only [Eval.call, Legacy.call, ht, if_true]
    exact Sim.ternary hargs (sameEnv_rel env)
  by_cases hc1 : n = c!"__CONST_TRUE__"
  · obtain rfl := h3 (by simp [hc1])
    subst hc1
    simp only [Eval.argsOf, Legacy.argsOf]
    exact (by kernel_rfl : outcome _ = outcome _)
  by_cases hc2 : n = c!"__CONST_FALSE__"
  · obtain rfl := h3 (by simp [hc2])
    subst hc2
    simp only [Eval.argsOf, Legacy.argsOf]
    exact (by kernel_rfl : outcome _ = outcome _)
  simp only [Eval.call, Legacy.call, if_neg ht, if_neg hc1, if_neg hc2]
  simp only [List.mem_cons, List.not_mem_nil, or_false, not_or, imp_false] at h1
  have arr : ∀ {f g : List Value → Res Value} (v : Value) (m : String), (∀ items, Agree (f items) (g items)) →
      Agree (match v with | .arr items => f items | _ => fail m) (match v with | .arr items => g items | _ => fail m) := by
    intro f g v m h
    cases v <;> first | rfl | exact h _
  have hst : ∀ {es : List Expr}, (∀ e ∈ es.head?, e ∈ es) := fun {es} e he => List.mem_of_mem_head? he
  have hh : ∀ l : List Expr, (l.map (Eval.argOf X)).head? = l.head?.map (Eval.argOf X) := fun l => List.head?_map
  have hh' : ∀ l : List Expr, (l.map (Legacy.argOf X)).head? = l.head?.map (Legacy.argOf X) := fun l => List.head?_map
  by_cases hf : n = c!"FILTER"
  · subst hf
    change Agree (Eval.filter none env _) (Legacy.filter none env _)
    rw [Eval.argsOf_eq, Legacy.argsOf_eq]
    match es, hrun, lam, param with
    | [], _, _, _ => rfl
    | [a], _, _, _ => rfl
    | a :: l :: rest, hrun, lam, param =>
      refine B (hrun a (by simp) env) fun v => B ?_ fun p => arr v _ fun items => ?_
      · rw [hh, hh']; exact param _ (fun e he => by have := hst e he; simp [this])
      · exact B (Sim.filter (lam l (by simp)) p (sameEnv_rel env) items) fun _ => Cong.agree.refl _
  by_cases hf : n = c!"FIND"
  · subst hf
    change Agree (Eval.find none env _) (Legacy.find none env _)
    rw [Eval.argsOf_eq, Legacy.argsOf_eq]
    match es, hrun, lam, param with
    | [], _, _, _ => rfl
    | [a], _, _, _ => rfl
    | a :: l :: rest, hrun, lam, param =>
      refine B (hrun a (by simp) env) fun v => B ?_ fun p => arr v _ fun items => ?_
      · rw [hh, hh']; exact param _ (fun e he => by have := hst e he; simp [this])
      · exact Sim.find (lam l (by simp)) p (sameEnv_rel env) items
  by_cases hf : n = c!"MAP"
  · subst hf
    change Agree (Eval.map none env _) (Legacy.map none env _)
    rw [Eval.argsOf_eq, Legacy.argsOf_eq]
    match es, hrun, lam, param with
    | [], _, _, _ => rfl
    | [a], _, _, _ => rfl
    | a :: l :: rest, hrun, lam, param =>
      refine B (hrun a (by simp) env) fun v => B ?_ fun p => arr v _ fun items => ?_
      · rw [hh, hh']; exact param _ (fun e he => by have := hst e he; simp [this])
      · exact B (Sim.map (lam l (by simp)) p (sameEnv_rel env) items) fun _ => Cong.agree.refl _
  by_cases hf : n = c!"REDUCE"
  · have hnr := h2 hf
    subst hf
    change Agree (Eval.reduce none env _) (Legacy.reduce none env _)
    rw [Eval.argsOf_eq, Legacy.argsOf_eq]
    match es, hnr, hrun, lam with
    | [a, l, i, .strLit p, .strLit q], _, hrun, lam =>
      refine B (hrun a (by simp) env) fun v => B (hrun i (by simp) env) fun acc => ?_
      have e1 : Eval.paramName none env c!"x" (List.map (Eval.argOf X) [.strLit p, .strLit q]).head? = .ok p := by
        simp [Eval.paramName, Eval.eval, bind, Except.bind, pure, Except.pure]
      have e2 : Eval.paramName none env c!"acc" (List.map (Eval.argOf X) [.strLit p, .strLit q])[1]? = .ok q := by
        simp [Eval.paramName, Eval.eval, bind, Except.bind, pure, Except.pure]
      have e3 : Legacy.paramNameOr env c!"x" (List.map (Legacy.argOf X) [.strLit p, .strLit q]).head? = .ok p := by
        simp [Legacy.paramNameOr, Legacy.paramName, Legacy.eval, bind, Except.bind, pure, Except.pure]
      have e4 : Legacy.paramNameOr env c!"acc" (List.map (Legacy.argOf X) [.strLit p, .strLit q])[1]? = .ok q := by
        simp [Legacy.paramNameOr, Legacy.paramName, Legacy.eval, bind, Except.bind, pure, Except.pure]
      rw [e1, e2, e3, e4]
      refine B (Cong.agree.refl _) fun p => B (Cong.agree.refl _) fun q => arr v _ fun items => ?_
      exact Sim.reduce (lam l (by simp)) p q (sameEnv_rel env) acc items
  by_cases hf : n = c!"AVGIF"
  · subst hf
    change Agree (Eval.avgif none env _) (Legacy.avgif none env _)
    rw [Eval.argsOf_eq, Legacy.argsOf_eq]
    match es, hrun with
    | [], _ => rfl
    | [a], _ => rfl
    | _ :: _ :: _ :: _, _ => rfl
    | [a, l], hrun =>
      refine B (hrun a (by simp) env) fun v => arr v _ fun items => ?_
      exact B (Sim.avgif (E := sameEnv) (by rintro e1 e2 rfl; exact hrun l (by simp) e1) (sameEnv_rel env) _ _ items) fun _ => Cong.agree.refl _
  by_cases hf : n = c!"COUNTIF"
  · subst hf
    change Agree (Eval.countif none env _) (Legacy.countif none env _)
    rw [Eval.argsOf_eq, Legacy.argsOf_eq]
    match es, hrun with
    | [], _ => rfl
    | [a], _ => rfl
    | _ :: _ :: _ :: _, _ => rfl
    | [a, l], hrun =>
      refine B (hrun a (by simp) env) fun v => arr v _ fun items => ?_
      exact B (Sim.countif (E := sameEnv) (by rintro e1 e2 rfl; exact hrun l (by simp) e1) (sameEnv_rel env) _ items) fun _ => Cong.agree.refl _
  have e1 : Eval.higherOrder X n = none := by simp [Eval.higherOrder, *]
  have e2 : Legacy.higherOrder n = none := by simp [Legacy.higherOrder, *]
  rw [e1, e2]
  refine B (Sim.evalArgs hargs (sameEnv_rel env)) fun vs => dispatch_agree X n vs ?_
  simp [differing, *]

mutual
theorem eval_agree (X : Ext) (e : Expr) (h : Shared e) (env : Env) : Agree (Eval.eval X e none env) (Legacy.eval X e none env) := by
  have B := @Cong.bind Cong.agree
  cases e with
  | number _ => simp only [Eval.eval, Legacy.eval]; rfl
  | strLit _ => simp only [Eval.eval, Legacy.eval]; rfl
  | null => simp only [Eval.eval, Legacy.eval]; rfl
  | spread _ => simp only [Eval.eval, Legacy.eval]; rfl
  | var n => simp only [Eval.eval, Legacy.eval]; cases env n <;> rfl
  | unary op e => simp only [Eval.eval, Legacy.eval]; exact B (eval_agree X e h env) fun v => Cong.agree.refl _
  | prop e n => simp only [Eval.eval, Legacy.eval]; exact B (eval_agree X e h env) fun v => Cong.agree.refl _
  | safeProp e n => simp only [Eval.eval, Legacy.eval]; exact B (eval_agree X e h env) fun v => Cong.agree.refl _
  | cast e t => simp only [Eval.eval, Legacy.eval]; exact B (eval_agree X e h env) fun v => Cong.agree.refl _
  | assign x e => simp only [Eval.eval, Legacy.eval]; exact eval_agree X e h env
  | binary a op b =>
    simp only [Shared] at h
    simp only [Eval.eval, Legacy.eval]
    exact B (eval_agree X a h.1 env) fun v => B (eval_agree X b h.2 env) fun w => Cong.agree.refl _
  | index a b =>
    simp only [Shared] at h
    simp only [Eval.eval, Legacy.eval]
    exact B (eval_agree X a h.1 env) fun v => B (eval_agree X b h.2 env) fun w => Cong.agree.refl _
  | call n es =>
    simp only [Shared] at h
    simp only [Eval.eval, Legacy.eval]
    obtain ⟨h1, h2, h3, h4⟩ := h
    exact call_agree X n es env h1 h2 h3 (args_agree X es h4) (list_agree X es h4)
  | array es =>
    simp only [Eval.eval, Legacy.eval]
    exact B (Sim.elements (args_agree X es h) (sameEnv_rel env)) fun v => Cong.agree.refl _
  | seq es =>
    simp only [Eval.eval, Legacy.eval]
    exact Sim.lastOf (args_agree X es h) (sameEnv_rel env) .null
  | object ms =>
    simp only [Eval.eval, Legacy.eval]
    exact B (Sim.objectMembers X (members_agree X ms h) (sameEnv_rel env) []) fun v => Cong.agree.refl _
  | safeCall t n es => simp only [Eval.eval, Legacy.eval]; exact B (eval_agree X t h env) fun v => Cong.agree.refl _
  | method t n es p => simp only [Eval.eval, Legacy.eval]; exact B (eval_agree X t h env) fun v => Cong.agree.refl _
  | slice t a b =>
    simp only [Shared] at h
    simp only [Eval.eval, Legacy.eval]
    refine B (eval_agree X t h.1 env) fun v => ?_
    cases v <;> first
      | rfl
      | exact B (Sim.optional (opt_agree X a h.2.1) (sameEnv_rel env)) fun s =>
          B (Sim.optional (opt_agree X b h.2.2) (sameEnv_rel env)) fun e => Cong.agree.refl _
theorem list_agree (X : Ext) (es : List Expr) (h : SharedList es) :
    ∀ e ∈ es, ∀ env, Agree (Eval.eval X e none env) (Legacy.eval X e none env) := by
  cases es with
  | nil => simp
  | cons e es =>
    simp only [SharedList] at h
    intro e' he' env
    rcases List.mem_cons.1 he' with h' | he'
    · have := eval_agree X e h.1 env
      rw [h']; exact this
    · exact list_agree X es h.2 e' he' env
theorem args_agree (X : Ext) (es : List Expr) (h : SharedList es) : AgreeArgs X es := by
  cases es with
  | nil => unfold AgreeArgs; simp only [Eval.argsOf, Legacy.argsOf]; exact .nil
  | cons e es =>
    simp only [SharedList] at h
    unfold AgreeArgs
    rw [Eval.argsOf_cons, Legacy.argsOf_cons]
    refine .cons ?_ (args_agree X es h.2)
    have hrun : DenRel Cong.agree sameEnv none none (Eval.eval X e) (Legacy.eval X e) := by
      rintro e1 e2 rfl; exact eval_agree X e h.1 e1
    cases e with
    | spread e =>
      refine ⟨hrun, rfl, ?_⟩
      rintro e1 e2 rfl; exact eval_agree X e h.1 e1
    | _ => exact ⟨hrun, rfl, trivial⟩
theorem members_agree (X : Ext) (ms : List (Str × Expr)) (h : SharedMembers ms) :
    List.Forall₂ (fun m m' => m.1 = m'.1 ∧ DenRel Cong.agree sameEnv none none m.2 m'.2) (Eval.membersOf X ms) (Legacy.membersOf X ms) := by
  cases ms with
  | nil => simp only [Eval.membersOf, Legacy.membersOf]; exact .nil
  | cons m ms =>
    obtain ⟨k, e⟩ := m
    simp only [SharedMembers] at h
    simp only [Eval.membersOf, Legacy.membersOf]
    refine .cons ⟨rfl, ?_⟩ (members_agree X ms h.2)
    rintro e1 e2 rfl; exact eval_agree X e h.1 e1
theorem opt_agree (X : Ext) (o : Option Expr) (h : SharedOpt o) :
    (match Eval.optOf X o, Legacy.optOf X o with
      | none, none => True
      | some d, some d' => DenRel Cong.agree sameEnv none none d d'
      | _, _ => False) := by
  cases o with
  | none => simp only [Eval.optOf, Legacy.optOf]
  | some e =>
    simp only [Eval.optOf, Legacy.optOf]
    rintro e1 e2 rfl; exact eval_agree X e h e1
end

/-! ### C19 -/

/-- C19 fails: the two forms run in different evaluators with different tables of functions. -/
theorem C19_forms_differ (X : Ext) :
    evaluate X c!"MAP([2], BETWEEN(1, 3, :x))" = fail "Unknown function: {}" [c!"BETWEEN"] ∧
    evaluate X c!"[2].map(BETWEEN(1, 3, :x))" = .ok (.arr [.bool true]) ∧
    evaluate X c!"MAP([[1, 2]], REDUCE(:x, :acc + :x, 0))" = .ok (.arr [.num (F64.ofNat 3)]) ∧
    evaluate X c!"[[1, 2]].map(REDUCE(:x, :acc + :x, 0))" = fail "Missing variable: :{}" [c!"acc"] ∧
    evaluate X c!"MAP([\"ab\"], REVERSE(:x))" = fail "REVERSE expects array" ∧
    evaluate X c!"[\"ab\"].map(REVERSE(:x))" = .ok (.arr [.str c!"ba"]) :=
  ⟨by kernel_rfl, by kernel_rfl, by kernel_rfl, by kernel_rfl, by kernel_rfl, by kernel_rfl⟩

/-- The optional parameter name of a lambda. -/
def Spec.nameArg : Option Str → List Expr
  | none => []
  | some p => [.strLit p]

theorem nameArg_param (X : Ext) (env : Env) (p : Option Str) : ParamIs X none env c!"x" (nameArg p) (p.getD c!"x") := by
  cases p with
  | none => rfl
  | some p => simp only [nameArg, ParamIs, Eval.eval]; rfl

theorem method_param (X : Ext) (d : Str) (p : Option Str) : Method.paramName d ((nameArg p).map (Legacy.argOf X)).head? = p.getD d := by
  cases p <;> rfl

/-- C19, partial: on an array, for lambdas that both evaluators read alike (`Shared`), FILTER, MAP and FIND and the
methods `filter`, `map` and `find` give the same value, fail together (texts of errors may differ) or panic
together. Missing: the functions listed in `Shared`, for which it is false, and the texts of errors. -/
theorem C19_filter_map_find_partial (X : Ext) (a lam : Expr) (p : Option Str) (env : Env) (items : List Value) (hl : Shared lam)
    (ha : evalVars X a env = .ok (.arr items)) :
    Agree (evalVars X (.call c!"FILTER" (a :: lam :: nameArg p)) env) (evalVars X (.method a c!"filter" (lam :: nameArg p) false) env) ∧
    Agree (evalVars X (.call c!"MAP" (a :: lam :: nameArg p)) env) (evalVars X (.method a c!"map" (lam :: nameArg p) false) env) ∧
    Agree (evalVars X (.call c!"FIND" (a :: lam :: nameArg p)) env) (evalVars X (.method a c!"find" (lam :: nameArg p) false) env) := by
  have B := @Cong.bind Cong.agree
  have nc : ∀ n, NotCustom X none n := by intro n reg h; simp at h
  have hrun : ∀ e1 e2 : Env, sameEnv.rel e1 e2 → Cong.agree.rel (Eval.eval X lam none e1) (Legacy.eval X lam none e2) := by
    rintro e1 e2 rfl; exact eval_agree X lam hl e1
  unfold evalVars at *
  have hp := paramName_of X none env _ _ _ (nameArg_param X env p)
  have meth : ∀ n, Eval.eval X (.method a n (lam :: nameArg p) false) none env =
      Method.exec X none env n false (.arr items) (Legacy.argOf X lam :: (nameArg p).map (Legacy.argOf X)) := by
    intro n; simp only [Eval.eval, ha, bind, Except.bind, Legacy.argsOf_eq, List.map_cons]
  refine ⟨?_, ?_, ?_⟩
  · rw [call_higherOrder X _ _ none env Eval.filter (by decide) (by rfl) (nc _), meth]
    change Agree (Eval.filter none env (Eval.argOf X a :: Eval.argOf X lam :: (nameArg p).map (Eval.argOf X)))
      (Method.filter none env items (Legacy.argOf X lam :: (nameArg p).map (Legacy.argOf X)))
    simp only [Eval.filter, Method.filter, Eval.argOf_run, Legacy.argOf_run, ha, hp, method_param]
    exact B (Sim.filter hrun _ (sameEnv_rel env) items) fun _ => Cong.agree.refl _
  · rw [call_higherOrder X _ _ none env Eval.map (by decide) (by rfl) (nc _), meth]
    change Agree (Eval.map none env (Eval.argOf X a :: Eval.argOf X lam :: (nameArg p).map (Eval.argOf X)))
      (Method.map none env items (Legacy.argOf X lam :: (nameArg p).map (Legacy.argOf X)))
    simp only [Eval.map, Method.map, Eval.argOf_run, Legacy.argOf_run, ha, hp, method_param]
    exact B (Sim.map hrun _ (sameEnv_rel env) items) fun _ => Cong.agree.refl _
  · rw [call_higherOrder X _ _ none env Eval.find (by decide) (by rfl) (nc _), meth]
    change Agree (Eval.find none env (Eval.argOf X a :: Eval.argOf X lam :: (nameArg p).map (Eval.argOf X)))
      (Method.find none env items (Legacy.argOf X lam :: (nameArg p).map (Legacy.argOf X)))
    simp only [Eval.find, Method.find, Eval.argOf_run, Legacy.argOf_run, ha, hp, method_param]
    exact Sim.find hrun _ (sameEnv_rel env) items

/-- C19, partial: the same for REDUCE and `reduce`, with the default parameter names or both given. -/
theorem C19_reduce_partial (X : Ext) (a lam init : Expr) (names : Option (Str × Str)) (env : Env) (items : List Value) (hl : Shared lam)
    (hi : Shared init) (ha : evalVars X a env = .ok (.arr items)) :
    let ps := match names with | none => [] | some (p, q) => [Expr.strLit p, .strLit q]
    Agree (evalVars X (.call c!"REDUCE" (a :: lam :: init :: ps)) env) (evalVars X (.method a c!"reduce" (lam :: init :: ps) false) env) := by
  intro ps
  have B := @Cong.bind Cong.agree
  have nc : ∀ n, NotCustom X none n := by intro n reg h; simp at h
  have hrun : ∀ e1 e2 : Env, sameEnv.rel e1 e2 → Cong.agree.rel (Eval.eval X lam none e1) (Legacy.eval X lam none e2) := by
    rintro e1 e2 rfl; exact eval_agree X lam hl e1
  unfold evalVars at *
  have meth : Eval.eval X (.method a c!"reduce" (lam :: init :: ps) false) none env =
      Method.reduce none env items (Legacy.argOf X lam :: Legacy.argOf X init :: ps.map (Legacy.argOf X)) := by
    simp only [Eval.eval, ha, bind, Except.bind, Legacy.argsOf_eq, List.map_cons]; rfl
  rw [call_higherOrder X _ _ none env Eval.reduce (by decide) (by rfl) (nc _), meth]
  simp only [List.map_cons, Eval.reduce, Method.reduce, Eval.argOf_run, Legacy.argOf_run, ha]
  change Agree (Eval.eval X init none env >>= fun acc => _) (Legacy.eval X init none env >>= fun acc => _)
  refine B (eval_agree X init hi env) fun acc => ?_
  cases names with
  | none => exact Sim.reduce hrun _ _ (sameEnv_rel env) acc items
  | some pq =>
    obtain ⟨p, q⟩ := pq
    simp only [ps, List.map_cons, List.map_nil, Eval.paramName, List.head?_cons, Eval.argOf_run, Eval.eval, List.getElem?_cons_succ,
      List.getElem?_cons_zero, Method.paramName, Legacy.argOf, Option.getD_some]
    exact Sim.reduce hrun _ _ (sameEnv_rel env) acc items

/-- A lambda the partial theorems cover. -/
example : Shared (.binary (.call c!"SUM" [.var c!"x", .call c!"REDUCE" [.var c!"ys", .var c!"a", .number (.fin 1), .strLit c!"a", .strLit c!"b"]])
    .gt (.method (.var c!"y") c!"length" [] false)) := by
  simp [Shared, SharedList, NamedReduce]
