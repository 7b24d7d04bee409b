import Verif.Props.Replace
import Verif.Props.Forms
import Verif.Spec.Call
/-! C103: the names that stand for one function. -/

open Lib

/-- Pairs of names of one function. -/
def Spec.functionAliases : List (Str × Str) :=
  [(c!"AVG", c!"AVERAGE"), (c!"CEIL", c!"CEILING"), (c!"POW", c!"POWER"), (c!"PRODUCT", c!"MULTIPLY"), (c!"FLOOR", c!"INT"),
   (c!"MODE.SNGL", c!"MODESNGL"), (c!"MODE.SNGL", c!"MODE_SNGL"), (c!"STDEV.P", c!"STDEVP"), (c!"STDEV.P", c!"STDEV_P"),
   (c!"VAR.P", c!"VARP"), (c!"VAR.P", c!"VAR_P"), (c!"PERCENTILE.INC", c!"PERCENTILEINC"), (c!"PERCENTILE.INC", c!"PERCENTILE_INC"),
   (c!"QUARTILE.INC", c!"QUARTILEINC"), (c!"QUARTILE.INC", c!"QUARTILE_INC")]

/-- What a method is called on. -/
inductive Spec.Kind where
  | anything | text | list | number | document
  deriving DecidableEq

/-- The values of a kind. -/
def Spec.Kind.Has : Kind → Value → Prop
  | .anything, _ => True
  | .text, .str _ => True
  | .list, .arr _ => True
  | .number, .num _ => True
  | .document, .json _ => True
  | _, _ => False

/-- Pairs of names of one method, and what has this method. -/
def Spec.methodAliases : List (Kind × Str × Str) :=
  [(.anything, c!"to_s", c!"to_string"), (.anything, c!"to_i", c!"to_int"), (.anything, c!"to_f", c!"to_float"),
   (.anything, c!"to_a", c!"to_array"), (.anything, c!"to_bool", c!"to_boolean"),
   (.text, c!"length", c!"len"), (.text, c!"upper", c!"upcase"), (.text, c!"lower", c!"downcase"), (.text, c!"includes", c!"contains"),
   (.text, c!"startswith", c!"starts_with"), (.text, c!"endswith", c!"ends_with"), (.text, c!"substring", c!"substr"),
   (.list, c!"length", c!"len"), (.list, c!"length", c!"count"), (.list, c!"avg", c!"average"), (.list, c!"contains", c!"includes"),
   (.number, c!"ceil", c!"ceiling"), (.document, c!"has_key", c!"has")]

/-- The hole is not in the arguments of a method. -/
def Spec.Ctx.NotInMethod : Ctx → Prop
  | .hole => True
  | .unary _ c | .binaryL c _ _ | .binaryR _ _ c | .prop c _ | .safeProp c _ | .cast c _ | .assign _ c | .indexL c _ | .indexR _ c
  | .sliceT c _ _ | .sliceStart _ c _ | .sliceStop _ _ c | .array _ c _ | .seq _ c _ | .object _ _ c _
  | .methodT c _ _ _ | .safeCallT c _ _ | .call _ _ c _ | .callSpread _ _ c _ => c.NotInMethod
  | .methodA .. | .safeCallA .. => False

open Spec

theorem alias_fast (X : Ext) {n n' : Str} (h : (n, n') ∈ functionAliases) (vs : List Value) : execFast X n vs = execFast X n' vs := by
  simp only [functionAliases, List.mem_cons, Prod.mk.injEq, List.not_mem_nil, or_false] at h
  rcases h with ⟨rfl, rfl⟩ | ⟨rfl, rfl⟩ | ⟨rfl, rfl⟩ | ⟨rfl, rfl⟩ | ⟨rfl, rfl⟩ | ⟨rfl, rfl⟩ | ⟨rfl, rfl⟩ | ⟨rfl, rfl⟩ | ⟨rfl, rfl⟩ | ⟨rfl, rfl⟩ |
    ⟨rfl, rfl⟩ | ⟨rfl, rfl⟩ | ⟨rfl, rfl⟩ | ⟨rfl, rfl⟩ | ⟨rfl, rfl⟩ <;> rfl

theorem alias_names {n n' : Str} (h : (n, n') ∈ functionAliases) : n ∉ ownNames ∧ n' ∉ ownNames := by
  have : ∀ p ∈ functionAliases, p.1 ∉ ownNames ∧ p.2 ∉ ownNames := by decide
  exact this _ h

theorem call_plain (X : Ext) {n : Str} (hn : n ∉ ownNames) {r : Option Registry} (hr : NotCustom X r n) (as : List Arg) (env : Env) :
    Eval.call X n as r env = (do execFast X n (← evalArgs r env as)) := by
  simp only [ownNames, List.mem_cons, List.not_mem_nil, or_false, not_or] at hn
  have h1 : Eval.higherOrder X n = none := by simp [Eval.higherOrder, hn]
  have h2 : (match r with | some reg => if reg.has X n then some reg else none | none => none) = none := by
    cases r with
    | none => rfl
    | some reg => simp [hr reg rfl]
  simp only [Eval.call, if_neg hn.1, if_neg hn.2.1, if_neg hn.2.2.1, h1]
  split
  · rename_i h; exact absurd (h2.symm.trans h) (by simp)
  · rfl

theorem alias_eval (X : Ext) {n n' : Str} (h : (n, n') ∈ functionAliases) (es : List Expr) {r : Option Registry} (h1 : NotCustom X r n) (h2 : NotCustom X r n')
    (env : Env) : Eval.eval X (.call n es) r env = Eval.eval X (.call n' es) r env := by
  simp only [Eval.eval, call_plain X (alias_names h).1 h1, call_plain X (alias_names h).2 h2, alias_fast X h]

/-- **C103.** A call gives the same under both names of the function, whatever the arguments: the same value or the same error. -/
theorem C103_functions (X : Ext) (n n' : Str) (h : (n, n') ∈ functionAliases) (es : List Expr) (reg : Registry) (env : Env) :
    evalVars X (.call n es) env = evalVars X (.call n' es) env ∧
    (reg.has X n = false → reg.has X n' = false → evalCustom X reg (.call n es) env = evalCustom X reg (.call n' es) env) := by
  refine ⟨alias_eval X h es (by intro reg h; simp at h) (by intro reg h; simp at h) env, fun h1 h2 => ?_⟩
  exact alias_eval X h es (by intro g hg; cases hg; exact h1) (by intro g hg; cases hg; exact h2) env

/-! ### Inside other expressions -/

/-- The runs with one registry or none. -/
def oneRegistry (reg : Registry) (r r' : Option Registry) : Prop := r = r' ∧ (r = none ∨ r = some reg)

theorem oneRegistry_alike (X : Ext) (reg : Registry) : AlikeRuns X X (fun _ => True) (oneRegistry reg) where
  toSameWorld := SameWorld.refl X
  builtin := fun _ _ => ⟨fun _ => rfl, fun _ => rfl⟩
  absent := ⟨rfl, .inl rfl⟩
  isSome := fun _ _ h => by rw [h.1]
  lookup := fun g g' n h _ => by have := h.1; cases this; rfl

theorem argRel_refl (r : Option Registry) (a : Arg) : ArgRel Cong.eq sameEnv r r a a := by
  refine ⟨fun e e' h => by cases h; rfl, rfl, ?_⟩
  cases a.spread with
  | none => trivial
  | some d => exact fun e e' h => by cases h; rfl

theorem argsRel_at (r : Option Registry) {x y : Arg} (h : ArgRel Cong.eq sameEnv r r x y) (after : List Arg) :
    ∀ before : List Arg, ArgsRel Cong.eq sameEnv r r (before ++ x :: after) (before ++ y :: after)
  | [] => .cons h (List.forall₂_same.2 fun a _ => argRel_refl r a)
  | a :: before => .cons (argRel_refl r a) (argsRel_at r h after before)

theorem lambdaRel_at {x y : Arg} (h : ArgRel Cong.eq sameEnv none none x y) (before after : List Arg) :
    Sim.LambdaRel sameEnv (before ++ x :: after) (before ++ y :: after) := by
  intro a a' ha ha' e e' he
  have := Sim.at_index (argsRel_at none h after before) 1
  rw [ha, ha'] at this
  cases this with
  | some h => exact h.run e e' he

/-- Two parts that do the same with the registry and without may replace each other outside the arguments of methods. -/
theorem replace_den_at (X : Ext) (reg : Registry) {a b : Expr} (ha : Ordinary a) (hb : Ordinary b)
    (h : ∀ r env, (r = none ∨ r = some reg) → Eval.eval X a r env = Eval.eval X b r env) (c : Ctx) (hc : c.NotInMethod) :
    ∀ r env, (r = none ∨ r = some reg) → Eval.eval X (c.fill a) r env = Eval.eval X (c.fill b) r env := by
  have here : ∀ (c : Ctx), (∀ r env, (r = none ∨ r = some reg) → Eval.eval X (c.fill a) r env = Eval.eval X (c.fill b) r env) → ∀ r, (r = none ∨ r = some reg) →
      ArgRel Cong.eq sameEnv r r (Eval.argOf X (c.fill a)) (Eval.argOf X (c.fill b)) := by
    intro c ih r hr
    obtain ⟨oa, ob⟩ := fill_ordinary ha hb c
    have e1 : Eval.argOf X (c.fill a) = ⟨Eval.eval X (c.fill a), none, none⟩ := by cases hx : c.fill a <;> rw [hx] at oa <;> first | exact oa.elim | rfl
    have e2 : Eval.argOf X (c.fill b) = ⟨Eval.eval X (c.fill b), none, none⟩ := by cases hx : c.fill b <;> rw [hx] at ob <;> first | exact ob.elim | rfl
    rw [e1, e2]
    exact ⟨fun e e' he => by cases he; exact ih r _ hr, rfl, trivial⟩
  have hereS : ∀ (c : Ctx), (∀ r env, (r = none ∨ r = some reg) → Eval.eval X (c.fill a) r env = Eval.eval X (c.fill b) r env) → ∀ r, (r = none ∨ r = some reg) →
      ArgRel Cong.eq sameEnv r r (Eval.argOf X (.spread (c.fill a))) (Eval.argOf X (.spread (c.fill b))) := by
    intro c ih r hr
    refine ⟨fun e e' he => by simp only [Eval.argOf_run, Eval.eval]; rfl, rfl, ?_⟩
    exact fun e e' he => by cases he; exact ih r _ hr
  induction c with
  | hole => exact h
  | unary op c ih | prop c n ih | safeProp c n ih | cast c t ih | assign x c ih | methodT c n es p ih | safeCallT c n es ih =>
    intro r env hr; simp only [Ctx.fill, Eval.eval, ih hc r env hr]
  | binaryL c op e ih | binaryR e op c ih | indexL c i ih | indexR t c ih =>
    intro r env hr; simp only [Ctx.fill, Eval.eval, ih hc r env hr]
  | sliceT c x y ih | sliceStart t c y ih | sliceStop t x c ih =>
    intro r env hr; simp only [Ctx.fill, Eval.eval, Eval.optOf, Legacy.optional, ih hc r env hr]
  | array l c m ih =>
    intro r env hr
    obtain ⟨oa, ob⟩ := fill_notSpread (a := a) (b := b) (by cases a <;> first | exact ha.elim | trivial) (by cases b <;> first | exact hb.elim | trivial) c
    simp only [Ctx.fill, Eval.eval, Eval.argsOf_eq, List.map_append, List.map_cons]
    rw [same_elements (same_at (same_argOf X oa ob (ih hc r env hr)) _ _)]
  | seq l c m ih =>
    intro r env hr
    obtain ⟨oa, ob⟩ := fill_notSpread (a := a) (b := b) (by cases a <;> first | exact ha.elim | trivial) (by cases b <;> first | exact hb.elim | trivial) c
    simp only [Ctx.fill, Eval.eval, Eval.argsOf_eq, List.map_append, List.map_cons]
    rw [same_lastOf (same_at (same_argOf X oa ob (ih hc r env hr)) _ _)]
  | call n l c m ih =>
    intro r env hr
    simp only [Ctx.fill, Eval.eval, Eval.argsOf_eq, List.map_append, List.map_cons]
    exact eval_call_sim (oneRegistry_alike X reg) trivial (E := sameEnv) ⟨rfl, hr⟩ (argsRel_at r (here c (ih hc) r hr) _ _) (lambdaRel_at (here c (ih hc) none (.inl rfl)) _ _) rfl
  | callSpread n l c m ih =>
    intro r env hr
    simp only [Ctx.fill, Eval.eval, Eval.argsOf_eq, List.map_append, List.map_cons]
    exact eval_call_sim (oneRegistry_alike X reg) trivial (E := sameEnv) ⟨rfl, hr⟩ (argsRel_at r (hereS c (ih hc) r hr) _ _) (lambdaRel_at (hereS c (ih hc) none (.inl rfl)) _ _) rfl
  | object l k c m ih => intro r env hr; simp only [Ctx.fill, Eval.eval, same_members X k (ih hc r env hr)]
  | methodA t n l c m p ih => exact hc.elim
  | safeCallA t n l c m ih => exact hc.elim

/-- **C103.** So in any larger expression, also in what `MAP` and its like evaluate for every element; the arguments of methods come below. -/
theorem C103_anywhere (X : Ext) (n n' : Str) (h : (n, n') ∈ functionAliases) (es : List Expr) (c : Ctx) (hc : c.NotInMethod) (reg : Registry) (env : Env) :
    evalVars X (c.fill (.call n es)) env = evalVars X (c.fill (.call n' es)) env ∧
    (reg.has X n = false → reg.has X n' = false → evalCustom X reg (c.fill (.call n es)) env = evalCustom X reg (c.fill (.call n' es)) env) := by
  constructor
  · refine replace_den_at X (fun _ => none) (a := .call n es) (b := .call n' es) trivial trivial ?_ c hc none env (.inl rfl)
    intro r env hr
    refine alias_eval X h es ?_ ?_ env
    all_goals
      intro g hg
      rcases hr with rfl | rfl
      · simp at hg
      · cases hg; rfl
  · intro h1 h2
    refine replace_den_at X reg (a := .call n es) (b := .call n' es) trivial trivial ?_ c hc (some reg) env (.inr rfl)
    intro r env hr
    refine alias_eval X h es ?_ ?_ env
    all_goals
      intro g hg
      rcases hr with rfl | rfl
      · simp at hg
      · cases hg; assumption

/-! ### In the arguments of methods -/

theorem agree_fall {a : Res Value} {m m' : String} {as as' : List Str} : Agree (orElse a (fail m as)) (orElse a (fail m' as')) := by
  cases a with
  | ok v => rfl
  | error f => cases f <;> rfl

theorem alias_builtin (X : Ext) {n n' : Str} (h : (n, n') ∈ functionAliases) (vs : List Value) : Agree (execBuiltin X n vs) (execBuiltin X n' vs) := by
  have hd : ∀ p ∈ functionAliases, p.1 ∉ differing ∧ p.2 ∉ differing := by decide
  have h1 := dispatch_agree X n vs (hd _ h).1
  have h2 := dispatch_agree X n' vs (hd _ h).2
  rw [alias_fast X h] at h1
  exact h1.symm.trans h2

theorem legacy_call_plain (X : Ext) {n : Str} (hn : n ∉ ownNames) {r : Option Registry} (hr : NotCustom X r n) (as : List Arg) (env : Env) :
    Legacy.call X n as r env = (do execBuiltin X n (← evalArgs r env as)) := by
  simp only [ownNames, List.mem_cons, List.not_mem_nil, or_false, not_or] at hn
  have h1 : Legacy.higherOrder n = none := by simp [Legacy.higherOrder, hn]
  have h2 : (match r with | some reg => if reg.has X n then some reg else none | none => none) = none := by
    cases r with
    | none => rfl
    | some reg => simp [hr reg rfl]
  simp only [Legacy.call, if_neg hn.1, h1]
  split
  · rename_i h; exact absurd (h2.symm.trans h) (by simp)
  · rfl

theorem alias_legacy (X : Ext) {n n' : Str} (h : (n, n') ∈ functionAliases) (es : List Expr) {r : Option Registry} (h1 : NotCustom X r n) (h2 : NotCustom X r n')
    (env : Env) : Agree (Legacy.eval X (.call n es) r env) (Legacy.eval X (.call n' es) r env) := by
  simp only [Legacy.eval, legacy_call_plain X (alias_names h).1 h1, legacy_call_plain X (alias_names h).2 h2]
  exact Cong.agree.bind (Cong.agree.refl _) fun vs => alias_builtin X h vs

theorem agreeArg_refl (r : Option Registry) (a : Arg) : ArgRel Cong.agree sameEnv r r a a := by
  refine ⟨fun e e' h => by cases h; exact Cong.agree.refl _, rfl, ?_⟩
  cases a.spread with
  | none => trivial
  | some d => exact fun e e' h => by cases h; exact Cong.agree.refl _

theorem agreeArgs_at (r : Option Registry) {x y : Arg} (h : ArgRel Cong.agree sameEnv r r x y) (after : List Arg) :
    ∀ before : List Arg, ArgsRel Cong.agree sameEnv r r (before ++ x :: after) (before ++ y :: after)
  | [] => .cons h (List.forall₂_same.2 fun a _ => agreeArg_refl r a)
  | a :: before => .cons (agreeArg_refl r a) (agreeArgs_at r h after before)

/-- **C103.** As an argument of a method (or as what the method does with every element) a call gives the same value under both names, or an error under both. -/
theorem C103_method_arguments (X : Ext) (n n' : Str) (h : (n, n') ∈ functionAliases) (es : List Expr) (t : Expr) (m : Str) (before after : List Expr) (p : Bool)
    (reg : Registry) (env : Env) :
    Agree (evalVars X (.method t m (before ++ .call n es :: after) p) env) (evalVars X (.method t m (before ++ .call n' es :: after) p) env) ∧
    (reg.has X n = false → reg.has X n' = false →
      Agree (evalCustom X reg (.method t m (before ++ .call n es :: after) p) env) (evalCustom X reg (.method t m (before ++ .call n' es :: after) p) env)) := by
  have key : ∀ r, NotCustom X r n → NotCustom X r n' →
      Agree (Eval.eval X (.method t m (before ++ .call n es :: after) p) r env) (Eval.eval X (.method t m (before ++ .call n' es :: after) p) r env) := by
    intro r h1 h2
    have arg : ∀ r, NotCustom X r n → NotCustom X r n' → ArgsRel Cong.agree sameEnv r r (Legacy.argsOf X (before ++ .call n es :: after)) (Legacy.argsOf X (before ++ .call n' es :: after)) := by
      intro r h1 h2
      simp only [Legacy.argsOf_eq, List.map_append, List.map_cons]
      refine agreeArgs_at r (x := ⟨Legacy.eval X (.call n es), none, none⟩) (y := ⟨Legacy.eval X (.call n' es), none, none⟩) ⟨fun e e' he => ?_, rfl, trivial⟩ _ _
      cases he; exact alias_legacy X h es h1 h2 _
    simp only [Eval.eval]
    refine Cong.agree.bind (Cong.agree.refl _) fun v => ?_
    by_cases hm : X.lower m ∈ Sim.lambdaNames
    · exact Sim.exec_lambda (Q := Cong.agree) (E := sameEnv) (arg r h1 h2) rfl X m p v hm
    · exact Sim.exec_plain (Q := Cong.agree) (E := sameEnv) (arg none (by intro g hg; simp at hg) (by intro g hg; simp at hg)) rfl X m p v hm
  exact ⟨key none (by intro g hg; simp at hg) (by intro g hg; simp at hg),
    fun h1 h2 => key (some reg) (by intro g hg; cases hg; exact h1) (by intro g hg; cases hg; exact h2)⟩

/-- **C103: the error is worded differently.** As an argument of a method both spellings of `QUARTILE.INC` fail without arguments, but each is said to be unknown
under its own name. -/
theorem C103_wording (X : Ext) (hX : X.lower c!"contains" = c!"contains") :
    evalVars X (.method (.array []) c!"contains" [.call c!"QUARTILEINC" []] false) Env.empty = fail "Unknown function: {}" [c!"QUARTILEINC"] ∧
    evalVars X (.method (.array []) c!"contains" [.call c!"QUARTILE_INC" []] false) Env.empty = fail "Unknown function: {}" [c!"QUARTILE_INC"] := by
  constructor <;>
  · simp only [evalVars, Eval.eval, Method.exec, Method.onArray, hX]
    kernel_rfl

/-! ### Methods -/

theorem alias_method (X : Ext) {k : Kind} {m m' : Str} (h : (k, m, m') ∈ methodAliases) {a b : Str} (ha : X.lower a = m) (hb : X.lower b = m') (v : Value) (hv : k.Has v)
    (r : Option Registry) (env : Env) (as : List Arg) : Method.exec X r env a false v as = Method.exec X r env b false v as := by
  simp only [methodAliases, List.mem_cons, Prod.mk.injEq, List.not_mem_nil, or_false] at h
  rcases h with ⟨rfl, rfl, rfl⟩ | ⟨rfl, rfl, rfl⟩ | ⟨rfl, rfl, rfl⟩ | ⟨rfl, rfl, rfl⟩ | ⟨rfl, rfl, rfl⟩ | ⟨rfl, rfl, rfl⟩ | ⟨rfl, rfl, rfl⟩ | ⟨rfl, rfl, rfl⟩ |
    ⟨rfl, rfl, rfl⟩ | ⟨rfl, rfl, rfl⟩ | ⟨rfl, rfl, rfl⟩ | ⟨rfl, rfl, rfl⟩ | ⟨rfl, rfl, rfl⟩ | ⟨rfl, rfl, rfl⟩ | ⟨rfl, rfl, rfl⟩ | ⟨rfl, rfl, rfl⟩ | ⟨rfl, rfl, rfl⟩ | ⟨rfl, rfl, rfl⟩
  all_goals cases v
  all_goals try exact hv.elim
  all_goals
    simp only [Method.exec, Method.conversion, Method.onString, Method.onArray, Method.onNumber, Method.onJson, ha, hb]
    rfl

/-- **C103.** A method gives the same under both its names, in any mixture of cases, on every value that has it and with any arguments. -/
theorem C103_methods (X : Ext) (k : Kind) (m m' : Str) (h : (k, m, m') ∈ methodAliases) (a b : Str) (ha : X.lower a = m) (hb : X.lower b = m') (t : Expr) (es : List Expr)
    (reg : Registry) (env : Env) (v : Value) (hv : k.Has v) :
    (evalVars X t env = .ok v → evalVars X (.method t a es false) env = evalVars X (.method t b es false) env ∧
      evalVars X (.safeCall t a es) env = evalVars X (.safeCall t b es) env) ∧
    (evalCustom X reg t env = .ok v → evalCustom X reg (.method t a es false) env = evalCustom X reg (.method t b es false) env ∧
      evalCustom X reg (.safeCall t a es) env = evalCustom X reg (.safeCall t b es) env) := by
  have key : ∀ r, Eval.eval X t r env = .ok v → Eval.eval X (.method t a es false) r env = Eval.eval X (.method t b es false) r env ∧
      Eval.eval X (.safeCall t a es) r env = Eval.eval X (.safeCall t b es) r env := by
    intro r ht
    simp only [Eval.eval, ht, bind, Except.bind]
    refine ⟨alias_method X h ha hb v hv _ _ _, ?_⟩
    cases v <;> first | rfl | exact alias_method X h ha hb _ hv _ _ _
  exact ⟨key none, key (some reg)⟩

/-- **C103.** `SUBSTITUTE` and `SUBSTITUTEM` give the same text, or both fail. -/
theorem C103_substitute (X : Ext) (vs : List Value) : Agree (fn X c!"SUBSTITUTE" vs) (fn X c!"SUBSTITUTEM" vs) := by
  rw [fn_eq X _ vs (by decide), fn_eq X _ vs (by decide)]
  show Agree (StrFn.substitute _ vs) (StrFn.substitute _ vs)
  unfold StrFn.substitute
  split
  · rfl
  · rfl

/-- A case: `MAP(:prices, AVG(:x, 1) + 2)` and the same with `AVERAGE`. -/
example (X : Ext) (env : Env) :
    evalVars X (.call c!"MAP" [.var c!"prices", .binary (.call c!"AVG" [.var c!"x", .number (.fin 1)]) .add (.number (.fin 2))]) env =
    evalVars X (.call c!"MAP" [.var c!"prices", .binary (.call c!"AVERAGE" [.var c!"x", .number (.fin 1)]) .add (.number (.fin 2))]) env :=
  (C103_anywhere X c!"AVG" c!"AVERAGE" (by decide) [.var c!"x", .number (.fin 1)] (.call c!"MAP" [.var c!"prices"] (.binaryL .hole .add (.number (.fin 2))) []) trivial
    (fun _ => none) env).1

/-- A case: `"Ab".UpCase()` and `"Ab".upper()`. -/
example (X : Ext) (h1 : X.lower c!"UpCase" = c!"upcase") (h2 : X.lower c!"upper" = c!"upper") :
    evalVars X (.method (.strLit c!"Ab") c!"upper" [] false) Env.empty = evalVars X (.method (.strLit c!"Ab") c!"UpCase" [] false) Env.empty :=
  ((C103_methods X .text c!"upper" c!"upcase" (by decide) _ _ h2 h1 (.strLit c!"Ab") [] (fun _ => none) Env.empty (.str c!"Ab") trivial).1 rfl).1
