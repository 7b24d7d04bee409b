import Verif.Lemmas.TypesEval
/-! Typed expressions evaluate to values of their types, in both evaluators (C111). -/

namespace Types

/-- Either evaluator: the older one runs the arguments of methods. -/
def run (X : Ext) : Bool → Expr → Env → Res Value
  | true, e, env => Legacy.eval X e none env
  | false, e, env => Eval.eval X e none env

/-- The arguments for it. -/
def args (X : Ext) : Bool → List Expr → List Arg
  | true, es => Legacy.argsOf X es
  | false, es => Eval.argsOf X es

/-- One argument. -/
def arg (X : Ext) : Bool → Expr → Arg
  | true, e => Legacy.argOf X e
  | false, e => Eval.argOf X e

theorem args_eq (X : Ext) (m : Bool) (es : List Expr) : args X m es = es.map (arg X m) := by
  cases m
  · exact Eval.argsOf_eq X es
  · exact Legacy.argsOf_eq X es

theorem arg_run (X : Ext) (m : Bool) (e : Expr) (env : Env) : (arg X m e).run none env = run X m e env := by cases m <;> rfl

theorem arg_spread {X : Ext} {t m : Bool} {Γ : Cx} {e : Expr} {τ : Ty} (h : HasType t m Γ e τ) (k : Bool) : (arg X k e).spread = none := by
  cases k <;> cases h <;> rfl

variable {X : Ext} {m : Bool} {env : Env}

theorem run_unary {op : UnaryOp} {e : Expr} : run X m (.unary op e) env = (do Ops.unary op (← run X m e env)) := by cases m <;> simp only [run, Eval.eval, Legacy.eval]
theorem run_binary {op : BinaryOp} {a b : Expr} : run X m (.binary a op b) env = (do let x ← run X m a env; let y ← run X m b env; Ops.binary X op x y) := by
  cases m <;> simp only [run, Eval.eval, Legacy.eval]
theorem run_var {x : Str} {v : Value} (h : env x = some v) : run X m (.var x) env = .ok v := by cases m <;> simp only [run, Eval.eval, Legacy.eval, h]
theorem run_number {n : F64} : run X m (.number n) env = .ok (.num n) := by cases m <;> simp only [run, Eval.eval, Legacy.eval]
theorem run_text {s : Str} : run X m (.strLit s) env = .ok (.str s) := by cases m <;> simp only [run, Eval.eval, Legacy.eval]
theorem run_cast {e : Expr} {ty : CastTy} : run X m (.cast e ty) env = (do castValue X (← run X m e env) ty) := by cases m <;> simp only [run, Eval.eval, Legacy.eval]
theorem run_index {a i : Expr} : run X m (.index a i) env = (do let x ← run X m a env; let y ← run X m i env; Legacy.index x y) := by
  cases m <;> simp only [run, Eval.eval, Legacy.eval]
theorem run_array {es : List Expr} : run X m (.array es) env = (do return .arr (← elements none env (args X m es))) := by cases m <;> simp only [run, args, Eval.eval, Legacy.eval]
theorem run_method {e : Expr} {n : Str} {es : List Expr} {p : Bool} : run X m (.method e n es p) env = (do Method.exec X none env n p (← run X m e env) (args X true es)) := by
  cases m <;> simp only [run, args, Eval.eval, Legacy.eval]

/-- An optional operand. -/
def runOpt (X : Ext) (m : Bool) (env : Env) : Option Expr → Res (Option Value)
  | none => .ok none
  | some e => do return some (← run X m e env)

theorem run_slice {e : Expr} {a b : Option Expr} : run X m (.slice e a b) env = (do
    match ← run X m e env with
    | .arr items => do
      let s ← runOpt X m env a
      let e ← runOpt X m env b
      sliceArray items s e
    | _ => fail "Slice on non-array") := by
  cases m <;> cases a <;> cases b <;> (simp only [run, runOpt, Eval.eval, Legacy.eval, Legacy.optional, Eval.optOf, Legacy.optOf]; rfl)

theorem run_ternary {c a b : Expr} : run X m (.call c!"__TERNARY__" [c, a, b]) env = (do
    match (← run X m c env).asBool with
    | some cond => if cond then run X m a env else run X m b env
    | none => fail "Ternary condition must be boolean") := by
  cases m
  · simp only [run, Eval.eval, Eval.call, if_true, Eval.argsOf_eq]; rfl
  · simp only [run, Legacy.eval, Legacy.call, if_true, Legacy.argsOf_eq]; rfl

theorem run_true : run X m (.call c!"__CONST_TRUE__" []) env = .ok (.bool true) := by cases m <;> kernel_rfl
theorem run_false : run X m (.call c!"__CONST_FALSE__" []) env = .ok (.bool false) := by cases m <;> kernel_rfl

/-- The names that are not looked up among the built-in functions. -/
def special : List Str :=
  [c!"__TERNARY__", c!"__CONST_TRUE__", c!"__CONST_FALSE__", c!"FILTER", c!"FIND", c!"MAP", c!"REDUCE", c!"SUMIF", c!"AVGIF", c!"COUNTIF", c!"JQ"]

/-- The built-in functions. -/
def exec (X : Ext) : Bool → Str → List Value → Res Value
  | true => execBuiltin X
  | false => execFast X

theorem run_call {n : Str} {es : List Expr} (h : n ∉ special) : run X m (.call n es) env = (do exec X m n (← evalArgs none env (args X m es))) := by
  simp only [special, List.mem_cons, List.not_mem_nil, or_false, not_or] at h
  obtain ⟨h1, h2, h3, h4, h5, h6, h7, h8, h9, h10, h11⟩ := h
  cases m
  · simp only [run, exec, args, Eval.eval, Eval.call, Eval.higherOrder, h1, h2, h3, h4, h5, h6, h7, h8, h9, h10, h11, if_false]
  · simp only [run, exec, args, Legacy.eval, Legacy.call, Legacy.higherOrder, h1, h4, h5, h6, h7, h8, h9, h10, if_false]

theorem sig_plain {n : Str} {ts : List Ty} {τ : Ty} (h : Sig n ts τ) : n ∉ special := by
  cases h <;> try decide
  all_goals
    rename_i hn
    simp only [List.mem_cons, List.not_mem_nil, or_false] at hn
    rcases hn with rfl | rfl | rfl | rfl | rfl | rfl | rfl <;> decide

theorem ranged_plain {n : Str} {ts : List Ty} {τ : Ty} (h : RangedSig n ts τ) : n ∉ special := by
  cases h <;> try decide
  all_goals
    rename_i hn
    simp only [List.mem_cons, List.not_mem_nil, or_false] at hn
    rcases hn with rfl | rfl | rfl | rfl <;> decide

theorem many_plain {n : Str} {τ : Ty} (h : (n, τ) ∈ many) : n ∉ special := by
  simp only [many, List.mem_cons, List.not_mem_nil, or_false, Prod.mk.injEq] at h
  rcases h with h | h | h | h | h | h | h | h | h | h | h | h | h | h | h | h <;> obtain ⟨rfl, rfl⟩ := h <;> decide

theorem exec_runs {n : Str} {vs : List Value} {w : Value} (h : Runs X n vs w) : exec X m n vs = .ok w := by
  cases m
  · exact h.1
  · exact h.2

/-- FILTER, MAP, COUNTIF and AVGIF on the array and the lambda. -/
theorem run_filter {a f : Expr} {p : List Expr} {q : Str} (hs : ∀ k, (arg X k f).spread = none) (hp : p = [] ∧ q = c!"x" ∨ p = [.strLit q]) :
    run X m (.call c!"FILTER" (a :: f :: p)) env = (do
      match ← run X m a env with
      | .arr items => return .arr (← Loop.filter (run X m f) q env items)
      | _ => fail "FILTER first arg must be array") := by
  cases m
  · rcases hp with ⟨rfl, rfl⟩ | rfl <;> (simp only [run, Eval.eval, Eval.argsOf_eq]; rfl)
  · have hl : Legacy.lambda (Legacy.argOf X f) = run X true f := by
      funext env
      have h : (Legacy.argOf X f).spread = none := hs true
      simp only [Legacy.lambda, h]; rfl
    rcases hp with ⟨rfl, rfl⟩ | rfl <;> (rw [← hl]; simp only [run, Legacy.eval, Legacy.argsOf_eq]; rfl)

theorem run_map {a f : Expr} {p : List Expr} {q : Str} (hs : ∀ k, (arg X k f).spread = none) (hp : p = [] ∧ q = c!"x" ∨ p = [.strLit q]) :
    run X m (.call c!"MAP" (a :: f :: p)) env = (do
      match ← run X m a env with
      | .arr items => return .arr (← Loop.map (run X m f) q env items)
      | _ => fail "MAP first arg must be array") := by
  cases m
  · rcases hp with ⟨rfl, rfl⟩ | rfl <;> (simp only [run, Eval.eval, Eval.argsOf_eq]; rfl)
  · have hl : Legacy.lambda (Legacy.argOf X f) = run X true f := by
      funext env
      have h : (Legacy.argOf X f).spread = none := hs true
      simp only [Legacy.lambda, h]; rfl
    rcases hp with ⟨rfl, rfl⟩ | rfl <;> (rw [← hl]; simp only [run, Legacy.eval, Legacy.argsOf_eq]; rfl)

theorem run_reduce {a f i : Expr} {p : List Expr} {q r : Str} (hs : ∀ k, (arg X k f).spread = none) (hp : m = false ∧ p = [] ∧ q = c!"x" ∧ r = c!"acc" ∨ p = [.strLit q, .strLit r]) :
    run X m (.call c!"REDUCE" (a :: f :: i :: p)) env = (do
      let v ← run X m a env
      let acc ← run X m i env
      match v with
      | .arr items => Loop.reduce (run X m f) q r env acc items
      | _ => fail "REDUCE first arg must be array") := by
  cases m
  · rcases hp with ⟨_, rfl, rfl, rfl⟩ | rfl <;> (simp only [run, Eval.eval, Eval.argsOf_eq]; rfl)
  · have hl : Legacy.lambda (Legacy.argOf X f) = run X true f := by
      funext env
      have h : (Legacy.argOf X f).spread = none := hs true
      simp only [Legacy.lambda, h]; rfl
    rcases hp with ⟨h, _⟩ | rfl
    · cases h
    · rw [← hl]; simp only [run, Legacy.eval, Legacy.argsOf_eq]; rfl

theorem run_countif {a f : Expr} : run X m (.call c!"COUNTIF" [a, f]) env = (do
    match ← run X m a env with
    | .arr items => return .num (F64.ofNat (← Loop.countif (run X m f) env 0 items))
    | _ => fail "COUNTIF first arg must be array") := by
  cases m
  · simp only [run, Eval.eval, Eval.argsOf_eq]; rfl
  · simp only [run, Legacy.eval, Legacy.argsOf_eq]; rfl

theorem run_avgif {a f : Expr} : run X m (.call c!"AVGIF" [a, f]) env = (do
    match ← run X m a env with
    | .arr items => return .num (meanOf (← Loop.avgif (run X m f) env (.zero false) 0 items))
    | _ => fail "AVGIF first arg must be array") := by
  cases m
  · simp only [run, Eval.eval, Eval.argsOf_eq]; rfl
  · simp only [run, Legacy.eval, Legacy.argsOf_eq]; rfl

theorem models_bind {Γ : Cx} {x : Str} {τ : Ty} {v : Value} (h : Models env Γ) (hv : IsOf τ v) : Models (env.insert x v) (Γ.bind x τ) := by
  intro y σ hy
  simp only [Cx.bind] at hy
  by_cases hxy : y = x
  · rw [if_pos hxy] at hy
    cases hy
    exact ⟨v, by simp [Env.insert, hxy], hv⟩
  · rw [if_neg hxy] at hy
    obtain ⟨w, hw, ht⟩ := h y σ hy
    exact ⟨w, by simp [Env.insert, hxy, hw], ht⟩

/-- The values of the arguments. -/
theorem evalArgs_fine {t : Bool} {Γ : Cx} {es : List Expr} {ts : List Ty}
    (h : List.Forall₂ (fun e τ => (∀ k, (arg X k e).spread = none) ∧ ∀ env, Models env Γ → Fine t (IsOf τ) (run X m e env)) es ts) (hm : Models env Γ) :
    Fine t (AreOf ts) (evalArgs none env (args X m es)) := by
  rw [args_eq]
  induction h with
  | nil => exact Fine.ok trivial
  | cons h _ ih =>
    simp only [List.map_cons, evalArgs, h.1 m, arg_run]
    exact (h.2 env hm).bind fun v hv => ih.bind fun vs hvs => Fine.ok ⟨hv, hvs⟩

theorem method_args {t : Bool} {Γ : Cx} {es : List Expr} {ts : List Ty}
    (h : List.Forall₂ (fun e τ => (∀ k, (arg X k e).spread = none) ∧ ∀ env, Models env Γ → Fine t (IsOf τ) (run X true e env)) es ts) (hm : Models env Γ) :
    Args t env (args X true es) ts := by
  rw [args_eq]
  induction h with
  | nil => exact .nil
  | cons h _ ih => exact .cons (by rw [arg_run]; exact h.2 env hm) ih

/-- What an expression of a type does. -/
abbrev Good (X : Ext) (t m : Bool) (Γ : Cx) (e : Expr) (τ : Ty) : Prop := ∀ env, Models env Γ → Fine t (IsOf τ) (run X m e env)

theorem filter_good {t k : Bool} {Γ : Cx} {f : Expr} {p : Str} {τ : Ty} {v : Value} (env : Env) (hm : Models env Γ) (hf : Good X t k (Γ.bind p τ) f .bool) (hv : IsOf (.arr τ) v)
    (msg : String) : Fine t (IsOf (.arr τ)) (match (generalizing := false) v with | .arr items => (do return .arr (← Loop.filter (run X k f) p env items)) | _ => fail msg) := by
  obtain ⟨vs, rfl, h⟩ := isOf_arr hv
  exact (filterLoop_fine (fun v hv => hf _ (models_bind hm hv)) h).bind fun ws hw => Fine.ok (a := Value.arr ws) hw

theorem map_good {t k : Bool} {Γ : Cx} {f : Expr} {p : Str} {σ τ : Ty} {v : Value} (env : Env) (hm : Models env Γ) (hf : Good X t k (Γ.bind p σ) f τ) (hv : IsOf (.arr σ) v)
    (msg : String) : Fine t (IsOf (.arr τ)) (match (generalizing := false) v with | .arr items => (do return .arr (← Loop.map (run X k f) p env items)) | _ => fail msg) := by
  obtain ⟨vs, rfl, h⟩ := isOf_arr hv
  exact (mapLoop_fine (fun v hv => hf _ (models_bind hm hv)) h).bind fun ws hw => Fine.ok (a := Value.arr ws) hw

theorem reduce_good {t k : Bool} {Γ : Cx} {f : Expr} {p q : Str} {σ τ : Ty} {v a : Value} (env : Env) (hm : Models env Γ) (hf : Good X t k ((Γ.bind p σ).bind q τ) f τ) (hv : IsOf (.arr σ) v)
    (ha : IsOf τ a) (msg : String) : Fine t (IsOf τ) (match (generalizing := false) v with | .arr items => Loop.reduce (run X k f) p q env a items | _ => fail msg) := by
  obtain ⟨vs, rfl, h⟩ := isOf_arr hv
  exact reduceLoop_fine (fun v a hv ha => hf _ (models_bind (models_bind hm hv) ha)) ha h

theorem slice_good {t m : Bool} {e : Expr} {a b : Option Expr} {τ : Ty} (he : Fine t (IsOf (.arr τ)) (run X m e env)) (ha : ∀ x ∈ a, Fine t (IsOf .num) (run X m x env))
    (hb : ∀ x ∈ b, Fine t (IsOf .num) (run X m x env)) : Fine t (IsOf (.arr τ)) (run X m (.slice e a b) env) := by
  have opt : ∀ o : Option Expr, (∀ x ∈ o, Fine t (IsOf .num) (run X m x env)) → Fine t (fun w => ∀ x ∈ w, IsOf .num x) (runOpt X m env o) := by
    intro o ho
    cases o with
    | none => exact Fine.ok (by simp)
    | some x => exact (ho x rfl).bind fun v hv => Fine.ok (by simpa using hv)
  rw [run_slice]
  refine he.bind fun v hv => ?_
  obtain ⟨vs, rfl, h⟩ := isOf_arr hv
  exact (opt a ha).bind fun s hs => (opt b hb).bind fun e he => slice_fine t h hs he

theorem good (X : Ext) {t m : Bool} {Γ : Cx} {e : Expr} {τ : Ty} (h : HasType t m Γ e τ) : Good X t m Γ e τ := by
  refine HasType.rec (motive_1 := fun m Γ e τ _ => Good X t m Γ e τ)
    (motive_2 := fun m Γ es ts _ => List.Forall₂ (fun e τ => (∀ k, (arg X k e).spread = none) ∧ Good X t m Γ e τ) es ts)
    (motive_3 := fun m Γ es τ _ => ∀ e ∈ es, Good X t m Γ e τ)
    (motive_4 := fun m Γ es _ => ∀ env, Models env Γ → Fine t (fun _ => True) (evalArgs none env (args X m es)))
    ?number ?text ?true_ ?false_ ?var ?sign ?not ?arith ?order ?equal ?logic ?ternary ?array ?cast ?sliceAll ?sliceFrom ?sliceTo ?slice ?call ?callMany ?filter ?filterNamed ?map ?mapNamed
    ?reduce ?reduceNamed ?countif ?avgif ?predicate ?method ?filterMethod ?filterMethodNamed ?mapMethod ?mapMethodNamed ?reduceMethod ?reduceMethodNamed ?index ?first ?last ?sqrt ?read ?readMoney ?ranged
    ?nil2 ?cons2 ?nil3 ?cons3 ?nil4 ?cons4 ?spread4 h
  case number => intro m Γ n env hm; rw [run_number]; exact Fine.ok trivial
  case text => intro m Γ n env hm; rw [run_text]; exact Fine.ok trivial
  case true_ => intro m Γ env hm; rw [run_true]; exact Fine.ok trivial
  case false_ => intro m Γ env hm; rw [run_false]; exact Fine.ok trivial
  case var =>
    intro m Γ x τ hx env hm
    obtain ⟨v, hv, ht⟩ := hm x τ hx
    rw [run_var hv]
    exact Fine.ok ht
  case sign => intro m Γ e op ho _ ih env hm; rw [run_unary]; exact (ih env hm).bind fun v hv => sign_fine t ho hv
  case not => intro m Γ e _ ih env hm; rw [run_unary]; exact (ih env hm).bind fun v hv => not_fine t hv
  case arith => intro m Γ a b op ho _ _ iha ihb env hm; rw [run_binary]; exact (iha env hm).bind fun v hv => (ihb env hm).bind fun w hw => arith_fine X t ho hv hw
  case order => intro m Γ a b op τ ho hτ _ _ iha ihb env hm; rw [run_binary]; exact (iha env hm).bind fun v hv => (ihb env hm).bind fun w hw => order_fine X t ho hτ hv hw
  case equal => intro m Γ a b op σ τ ho _ _ iha ihb env hm; rw [run_binary]; exact (iha env hm).bind fun v hv => (ihb env hm).bind fun w hw => equal_fine X t ho v w
  case logic => intro m Γ a b op ho _ _ iha ihb env hm; rw [run_binary]; exact (iha env hm).bind fun v hv => (ihb env hm).bind fun w hw => logic_fine X t ho hv hw
  case ternary =>
    intro m Γ c a b τ _ _ _ ihc iha ihb env hm
    rw [run_ternary]
    refine (ihc env hm).bind fun v hv => ?_
    obtain ⟨b, rfl⟩ := isOf_bool hv
    cases b
    · exact ihb env hm
    · exact iha env hm
  case array =>
    intro m Γ es τ _ ih env hm
    rw [run_array, args_eq]
    have : Fine t (fun vs => ∀ v ∈ vs, IsOf τ v) (elements none env (es.map (arg X m))) := by
      induction es with
      | nil => exact Fine.ok (by simp)
      | cons e es ihe =>
        rw [List.forall_mem_cons] at ih
        simp only [List.map_cons, elements, arg_run]
        rename_i hall
        cases hall with | cons _ h2 =>
        refine (ih.1 env hm).bind fun v hv => (ihe h2 ih.2).bind fun vs hvs => Fine.ok ?_
        rw [List.forall_mem_cons]
        exact ⟨hv, hvs⟩
    exact this.bind fun vs hvs => Fine.ok (a := Value.arr vs) hvs
  case cast => intro m Γ e σ ty τ hc _ ih env hm; rw [run_cast]; exact (ih env hm).bind fun v hv => cast_fine X t hc hv
  case sliceAll => intro m Γ e τ _ ih env hm; exact slice_good (ih env hm) (by simp) (by simp)
  case sliceFrom => intro m Γ e a τ _ _ ih iha env hm; exact slice_good (ih env hm) (by simpa using iha env hm) (by simp)
  case sliceTo => intro m Γ e b τ _ _ ih ihb env hm; exact slice_good (ih env hm) (by simp) (by simpa using ihb env hm)
  case slice => intro m Γ e a b τ _ _ _ ih iha ihb env hm; exact slice_good (ih env hm) (by simpa using iha env hm) (by simpa using ihb env hm)
  case call =>
    intro m Γ n es ts τ hs _ ih env hm
    rw [run_call (sig_plain hs)]
    refine (evalArgs_fine ih hm).bind fun vs hvs => ?_
    obtain ⟨w, hw, hr⟩ := sig_runs X hs hvs
    exact .inl ⟨w, exec_runs hr, hw⟩
  case callMany =>
    intro m Γ n es τ hs _ ih env hm
    rw [run_call (many_plain hs)]
    refine (ih env hm).bind fun vs hvs => ?_
    obtain ⟨w, hw, hr⟩ := many_runs X hs vs
    exact .inl ⟨w, exec_runs hr, hw⟩
  case filter =>
    intro m Γ a f τ _ hf iha ihf env hm
    rw [run_filter (arg_spread hf) (.inl ⟨rfl, rfl⟩)]
    exact (iha env hm).bind fun v hv => filter_good env hm ihf hv _
  case filterNamed =>
    intro m Γ a f p τ _ hf iha ihf env hm
    rw [run_filter (arg_spread hf) (.inr rfl)]
    exact (iha env hm).bind fun v hv => filter_good env hm ihf hv _
  case map =>
    intro m Γ a f σ τ _ hf iha ihf env hm
    rw [run_map (arg_spread hf) (.inl ⟨rfl, rfl⟩)]
    exact (iha env hm).bind fun v hv => map_good env hm ihf hv _
  case mapNamed =>
    intro m Γ a f p σ τ _ hf iha ihf env hm
    rw [run_map (arg_spread hf) (.inr rfl)]
    exact (iha env hm).bind fun v hv => map_good env hm ihf hv _
  case reduce =>
    intro Γ a f i σ τ _ hf _ iha ihf ihi env hm
    rw [run_reduce (arg_spread hf) (.inl ⟨rfl, rfl, rfl, rfl⟩)]
    exact (iha env hm).bind fun v hv => (ihi env hm).bind fun w hw => reduce_good env hm ihf hv hw _
  case reduceNamed =>
    intro m Γ a f i p q σ τ _ hf _ iha ihf ihi env hm
    rw [run_reduce (arg_spread hf) (.inr rfl)]
    exact (iha env hm).bind fun v hv => (ihi env hm).bind fun w hw => reduce_good env hm ihf hv hw _
  case countif =>
    intro m Γ a f τ _ hf iha ihf env hm
    rw [run_countif]
    refine (iha env hm).bind fun v hv => ?_
    obtain ⟨vs, rfl, h⟩ := isOf_arr hv
    exact (countifLoop_fine (fun v hv => ihf _ (models_bind hm hv)) h).bind fun n _ => Fine.ok (a := Value.num _) trivial
  case avgif =>
    intro m Γ a f τ _ hf iha ihf env hm
    rw [run_avgif]
    refine (iha env hm).bind fun v hv => ?_
    obtain ⟨vs, rfl, h⟩ := isOf_arr hv
    exact (avgifLoop_fine (fun v hv => ihf _ (models_bind hm hv)) h).bind fun n _ => Fine.ok (a := Value.num _) trivial
  case predicate => intro m Γ e n es τ hn _ ih env hm; rw [run_method]; exact (ih env hm).bind fun v _ => predicate_fine X t hn env v _
  case method => intro m Γ e n es σ ts τ hs _ _ ih ihs env hm; rw [run_method]; exact (ih env hm).bind fun v hv => method_fine X hs hv (method_args ihs hm)
  case filterMethod =>
    intro m Γ a f τ _ _ iha ihf env hm
    rw [run_method]
    refine (iha env hm).bind fun v hv => ?_
    obtain ⟨vs, rfl, _⟩ := isOf_arr hv
    rw [args_eq]
    exact filter_good (p := c!"x") (v := .arr vs) env hm ihf hv ""
  case filterMethodNamed =>
    intro m Γ a f p τ _ _ iha ihf env hm
    rw [run_method]
    refine (iha env hm).bind fun v hv => ?_
    obtain ⟨vs, rfl, _⟩ := isOf_arr hv
    rw [args_eq]
    exact filter_good (p := p) (v := .arr vs) env hm ihf hv ""
  case mapMethod =>
    intro m Γ a f σ τ _ _ iha ihf env hm
    rw [run_method]
    refine (iha env hm).bind fun v hv => ?_
    obtain ⟨vs, rfl, _⟩ := isOf_arr hv
    rw [args_eq]
    exact map_good (p := c!"x") (v := .arr vs) env hm ihf hv ""
  case mapMethodNamed =>
    intro m Γ a f p σ τ _ _ iha ihf env hm
    rw [run_method]
    refine (iha env hm).bind fun v hv => ?_
    obtain ⟨vs, rfl, _⟩ := isOf_arr hv
    rw [args_eq]
    exact map_good (p := p) (v := .arr vs) env hm ihf hv ""
  case reduceMethod =>
    intro m Γ a f i σ τ _ _ _ iha ihf ihi env hm
    rw [run_method]
    refine (iha env hm).bind fun v hv => ?_
    obtain ⟨vs, rfl, _⟩ := isOf_arr hv
    rw [args_eq]
    exact (ihi env hm).bind fun w hw => reduce_good (p := c!"x") (q := c!"acc") (v := .arr vs) env hm ihf hv hw ""
  case reduceMethodNamed =>
    intro m Γ a f i p q σ τ _ _ _ iha ihf ihi env hm
    rw [run_method]
    refine (iha env hm).bind fun v hv => ?_
    obtain ⟨vs, rfl, _⟩ := isOf_arr hv
    rw [args_eq]
    exact (ihi env hm).bind fun w hw => reduce_good (p := p) (q := q) (v := .arr vs) env hm ihf hv hw ""
  case index => intro m Γ a i τ ht _ _ iha ihi env hm; subst ht; rw [run_index]; exact (iha env hm).bind fun v hv => (ihi env hm).bind fun w hw => index_fine hv hw
  case first =>
    intro Γ a τ ht ha iha env hm
    subst ht
    rw [run_call (by decide)]
    refine (evalArgs_fine (ts := [.arr τ]) (.cons ⟨arg_spread ha, iha⟩ .nil) hm).bind fun vs hvs => ?_
    obtain ⟨x, rfl, hx⟩ := areOf_1 hvs
    obtain ⟨vs, rfl, h⟩ := isOf_arr hx
    cases vs with
    | nil => exact .inr ⟨rfl, _, rfl, .noFirst⟩
    | cons v vs => exact .inl ⟨v, rfl, h v List.mem_cons_self⟩
  case last =>
    intro Γ a τ ht ha iha env hm
    subst ht
    rw [run_call (by decide)]
    refine (evalArgs_fine (ts := [.arr τ]) (.cons ⟨arg_spread ha, iha⟩ .nil) hm).bind fun vs hvs => ?_
    obtain ⟨x, rfl, hx⟩ := areOf_1 hvs
    obtain ⟨vs, rfl, h⟩ := isOf_arr hx
    have : exec X false c!"LAST" [.arr vs] = match vs.getLast? with | some v => .ok v | none => fail "LAST on empty array" := rfl
    rw [this]
    cases hl : vs.getLast? with
    | none => exact .inr ⟨rfl, _, rfl, .noLast⟩
    | some v => exact .inl ⟨v, rfl, h v (List.mem_of_getLast? hl)⟩
  case sqrt => intro m Γ e ht _ ih env hm; subst ht; rw [run_method]; exact (ih env hm).bind fun v hv => sqrt_fine X env hv
  case read => intro m Γ e ht _ ih env hm; subst ht; rw [run_cast]; exact (ih env hm).bind fun v hv => read_fine X hv
  case readMoney => intro m Γ e ht _ ih env hm; subst ht; rw [run_cast]; exact (ih env hm).bind fun v hv => readMoney_fine X hv
  case ranged =>
    intro Γ n es ts τ ht hs _ ih env hm
    subst ht
    rw [run_call (ranged_plain hs)]
    exact (evalArgs_fine ih hm).bind fun vs hvs => ranged_fine X hs hvs
  case nil2 => intros; exact .nil
  case cons2 => intro m Γ e es τ ts he _ ih ihs; exact .cons ⟨arg_spread he, ih⟩ ihs
  case nil3 => intros; rename_i h; simp at h
  case cons3 => intro m Γ e es τ _ _ ih ihs; rw [List.forall_mem_cons]; exact ⟨ih, ihs⟩
  case nil4 => intro m Γ env hm; rw [args_eq]; exact Fine.ok trivial
  case cons4 =>
    intro m Γ e es τ he _ ih ihs env hm
    have := ihs env hm
    rw [args_eq] at this ⊢
    simp only [List.map_cons, evalArgs, arg_spread he m, arg_run]
    exact (ih env hm).bind fun v hv => this.bind fun vs hvs => Fine.ok trivial
  case spread4 =>
    intro m Γ e es τ he _ ih ihs env hm
    have := ihs env hm
    obtain ⟨d, hs, hr⟩ : ∃ d : Den, (arg X m (.spread e)).spread = some d ∧ d none env = run X m e env := by cases m <;> exact ⟨_, rfl, rfl⟩
    rw [args_eq] at this ⊢
    simp only [List.map_cons, evalArgs, hs, hr]
    refine (ih env hm).bind fun v hv => ?_
    obtain ⟨vs, rfl, _⟩ := isOf_arr hv
    exact this.bind fun vs hvs => Fine.ok trivial

end Types
