import Verif.Lemmas.SimCall
import Verif.Lemmas.DebugText
import Verif.Base.KernelRfl
import Verif.Spec.Names
/-! C09, C66: what a result depends on. -/

/-- The same outside world at another instant: `now`, today's date and the time of day are replaced. -/
def Ext.atInstant (X : Ext) (now today : Int) (secs : Nat) : Ext := { X with now := now, today := today, secsOfDay := secs }

namespace Spec

/-- A builtin function does the same in both worlds. -/
def SameBuiltin (X Y : Ext) (n : Str) : Prop :=
  (∀ args, execFast X n args = execFast Y n args) ∧ ∀ args, execBuiltin X n args = execBuiltin Y n args

/-- `E` makes the two variable maps agree on the names. -/
def AgreeOn (E : EnvRel) (ns : List Str) : Prop := ∀ n ∈ ns, ∀ env env', E.rel env env' → env n = env' n

/-- Agreement on a list of names. -/
def onNames (ns : List Str) : EnvRel where
  rel := fun env env' => ∀ n ∈ ns, env n = env' n
  insert := by
    intro e e' k v h n hn
    simp only [Env.insert]
    rw [h n hn]

/-- Equal variable maps. -/
def sameEnv : EnvRel where
  rel := fun env env' => env = env'
  insert := by rintro e e' k v rfl; rfl

end Spec

open Spec

theorem Spec.AgreeOn.left {E : EnvRel} {a b : List Str} (h : AgreeOn E (a ++ b)) : AgreeOn E a := fun n hn => h n (by simp [hn])
theorem Spec.AgreeOn.right {E : EnvRel} {a b : List Str} (h : AgreeOn E (a ++ b)) : AgreeOn E b := fun n hn => h n (by simp [hn])

/-- The two worlds do the same on everything but the builtins named. -/
structure SameWorld (X Y : Ext) : Prop where
  upper : X.upper = Y.upper
  exec : Method.exec X = Method.exec Y
  binary : Ops.binary X = Ops.binary Y
  property : Ops.property X = Ops.property Y
  members : objectMembers X = objectMembers Y
  print : X.jsonPrint = Y.jsonPrint
  cast : castValue X = castValue Y
  jq : Eval.jq X = Eval.jq Y
  dbg : X.dbg = Y.dbg

/-- The two worlds and the registries do the same on the functions in `P`. -/
structure AlikeRuns (X Y : Ext) (P : Str → Prop) (R : Option Registry → Option Registry → Prop) : Prop extends SameWorld X Y where
  builtin : ∀ n, P n → SameBuiltin X Y n
  absent : R none none
  isSome : ∀ r r', R r r' → r.isSome = r'.isSome
  lookup : ∀ g g' n, R (some g) (some g') → P n → g (X.upper n) = g' (X.upper n)

variable {E : EnvRel} {X Y : Ext} {P : Str → Prop} {R : Option Registry → Option Registry → Prop} {r r' : Option Registry} {env env' : Env}

theorem AlikeRuns.has (W : AlikeRuns X Y P R) {n : Str} (hn : P n) {g g' : Registry} (h : R (some g) (some g')) : g.has X n = g'.has Y n := by
  unfold Registry.has; rw [W.lookup g g' n h hn, W.upper]

theorem AlikeRuns.execute (W : AlikeRuns X Y P R) {n : Str} (hn : P n) {g g' : Registry} (h : R (some g) (some g')) (args : List Value) :
    g.execute X n args = g'.execute Y n args := by
  unfold Registry.execute Registry.get; rw [W.lookup g g' n h hn, W.upper]

/-- The custom function, if any, that a call of `n` runs. -/
theorem AlikeRuns.custom (W : AlikeRuns X Y P R) {n : Str} (hn : P n) (h : R r r') {as as' : Res (List Value)} (ha : as = as') {d d' : Res Value} (hd : d = d') :
    (match (match r with | some reg => if reg.has X n then some reg else none | none => none) with
      | some reg => (do reg.execute X n (← as) : Res Value)
      | none => d) =
    (match (match r' with | some reg => if reg.has Y n then some reg else none | none => none) with
      | some reg => (do reg.execute Y n (← as') : Res Value)
      | none => d') := by
  subst ha hd
  have hs := W.isSome _ _ h
  cases r with
  | none =>
    cases r' with
    | none => rfl
    | some g' => simp at hs
  | some g =>
    cases r' with
    | none => simp at hs
    | some g' =>
      have hx := W.execute hn h
      simp only [W.has hn h]
      cases g'.has Y n with
      | false => rfl
      | true => simp only [if_true, hx]

theorem legacy_call_sim (W : AlikeRuns X Y P R) {n : Str} (hn : P n) (hr : R r r') {as as' : List Arg}
    (h : ArgsRel Cong.eq E r r' as as') (he : E.rel env env') :
    Legacy.call X n as r env = Legacy.call Y n as' r' env' := by
  unfold Legacy.call
  have h1 : Legacy.ternary r env as = Legacy.ternary r' env' as' := Sim.ternary h he
  have h2 : evalArgs r env as = evalArgs r' env' as' := Sim.evalArgs h he
  rw [h1]
  split
  · rfl
  refine W.custom hn hr h2 ?_
  rw [h2]
  simp only [(W.builtin n hn).2]
  split
  · rename_i f hf; exact Sim.legacy_higherOrder h he (W.isSome _ _ hr) n f hf
  · rfl

theorem eval_call_sim (W : AlikeRuns X Y P R) {n : Str} (hn : P n) (hr : R r r') {as as' : List Arg}
    (h : ArgsRel Cong.eq E r r' as as') (hl : Sim.LambdaRel E as as') (he : E.rel env env') :
    Eval.call X n as r env = Eval.call Y n as' r' env' := by
  unfold Eval.call
  have h1 : Legacy.ternary r env as = Legacy.ternary r' env' as' := Sim.ternary h he
  have h2 : evalArgs r env as = evalArgs r' env' as' := Sim.evalArgs h he
  have h5 : Eval.higherOrder X n = Eval.higherOrder Y n := by unfold Eval.higherOrder; rw [W.jq]
  rw [h1]
  split
  · rfl
  split
  · rfl
  split
  · rfl
  refine W.custom hn hr h2 ?_
  rw [h2, h5]
  simp only [(W.builtin n hn).1]
  split
  · rename_i f hf; exact Sim.eval_higherOrder h hl he Y n f hf
  · rfl

theorem exec_sim (W : AlikeRuns X Y P R) (hr : R r r') {as as' : List Arg} (h : ∀ r r', R r r' → ArgsRel Cong.eq E r r' as as')
    (he : E.rel env env') (n : Str) (p : Bool) (v : Value) : Method.exec Y r env n p v as = Method.exec Y r' env' n p v as' := by
  by_cases hn : Y.lower n ∈ Sim.lambdaNames
  · exact Sim.exec_lambda (h r r' hr) he Y n p v hn
  · exact Sim.exec_plain (h none none W.absent) he Y n p v hn

mutual
theorem legacy_sim (W : AlikeRuns X Y P R) (e : Expr) (hv : AgreeOn E (vars e))
    (hc : ∀ n ∈ calls e, P n) {r r' : Option Registry} (hr : R r r') : DenRel Cong.eq E r r' (Legacy.eval X e) (Legacy.eval Y e) := by
  intro env env' he
  change Legacy.eval X e r env = Legacy.eval Y e r' env'
  have hs := W.isSome _ _ hr
  cases e with
  | number _ => simp only [Legacy.eval]
  | strLit _ => simp only [Legacy.eval]
  | null => simp only [Legacy.eval]
  | spread _ => simp only [Legacy.eval]
  | var n =>
    simp only [Legacy.eval, hv n (by simp [vars]) env env' he]
    cases r <;> cases r' <;> first | rfl | (simp at hs; done)
  | unary op e => simp only [Legacy.eval]; rw [legacy_sim W e hv hc hr env env' he]
  | prop e n =>
    simp only [Legacy.eval]; rw [legacy_sim W e hv hc hr env env' he, W.property]
    unfold Legacy.noProps; rw [W.dbg]
    cases r <;> cases r' <;> first | rfl | (simp at hs; done)
  | safeProp e n =>
    simp only [Legacy.eval]; rw [legacy_sim W e hv hc hr env env' he, W.property]
    unfold Legacy.noProps; rw [W.dbg]
    cases r <;> cases r' <;> first | rfl | (simp at hs; done)
  | cast e t => simp only [Legacy.eval]; rw [legacy_sim W e hv hc hr env env' he, W.cast]
  | assign x e => simp only [Legacy.eval]; rw [legacy_sim W e hv hc hr env env' he]
  | binary a op b =>
    simp only [vars] at hv; simp only [calls, List.mem_append] at hc
    simp only [Legacy.eval]
    rw [legacy_sim W a hv.left (fun n hn => hc n (.inl hn)) hr env env' he,
      legacy_sim W b hv.right (fun n hn => hc n (.inr hn)) hr env env' he, W.binary]
  | index a b =>
    simp only [vars] at hv; simp only [calls, List.mem_append] at hc
    simp only [Legacy.eval]
    rw [legacy_sim W a hv.left (fun n hn => hc n (.inl hn)) hr env env' he,
      legacy_sim W b hv.right (fun n hn => hc n (.inr hn)) hr env env' he]
    cases r <;> cases r' <;> first | rfl | (simp at hs; done)
  | call n es =>
    simp only [Legacy.eval]
    simp only [calls, List.mem_cons] at hc
    exact legacy_call_sim W (hc n (.inl rfl)) hr (legacy_args_sim W es hv (fun n hn => hc n (.inr hn)) hr) he
  | array es =>
    simp only [Legacy.eval]
    rw [show _ = _ from Sim.elements (legacy_args_sim W es hv hc hr) he]
  | seq es =>
    simp only [Legacy.eval]
    exact Sim.lastOf (legacy_args_sim W es hv hc hr) he .null
  | object ms =>
    simp only [Legacy.eval]
    rw [W.members, W.print, show _ = _ from Sim.objectMembers Y (legacy_members_sim W ms hv hc hr) he []]
  | safeCall t n es =>
    simp only [vars] at hv; simp only [calls, List.mem_append] at hc
    simp only [Legacy.eval]
    rw [legacy_sim W t hv.left (fun n hn => hc n (.inl hn)) hr env env' he, W.exec]
    congr 1; funext v
    have := fun v => exec_sim W hr (fun r r' hr => legacy_args_sim W es hv.right (fun n hn => hc n (.inr hn)) hr) he n false v
    simp only [this]
  | method t n es p =>
    simp only [vars] at hv; simp only [calls, List.mem_append] at hc
    simp only [Legacy.eval]
    rw [legacy_sim W t hv.left (fun n hn => hc n (.inl hn)) hr env env' he, W.exec]
    congr 1; funext v
    exact exec_sim W hr (fun r r' hr => legacy_args_sim W es hv.right (fun n hn => hc n (.inr hn)) hr) he n p v
  | slice t a b =>
    simp only [vars] at hv; simp only [calls, List.mem_append] at hc
    have ha := legacy_opt_sim W a hv.left.right (fun n hn => hc n (.inl (.inr hn))) hr
    have hb := legacy_opt_sim W b hv.right (fun n hn => hc n (.inr hn)) hr
    simp only [Legacy.eval]
    rw [legacy_sim W t hv.left.left (fun n hn => hc n (.inl (.inl hn))) hr env env' he,
      show _ = _ from Sim.optional ha he, show _ = _ from Sim.optional hb he]
    have hbound : ∀ {d d' : Option Den} (len dflt : Int) (err : String), (match d, d' with
        | none, none => True
        | some d, some d' => DenRel Cong.eq E r r' d d'
        | _, _ => False) → Legacy.boundCustom r env len dflt err d = Legacy.boundCustom r' env' len dflt err d' := by
      intro d d' len dflt err h
      cases d <;> cases d' <;> first
        | exact h.elim
        | rfl
        | (simp only [Legacy.boundCustom]; rw [show _ = _ from h env env' he])
    unfold Legacy.sliceCustom
    simp only [hbound _ _ _ ha, hbound _ _ _ hb]
    cases r <;> cases r' <;> first | rfl | (simp at hs; done)
theorem legacy_args_sim (W : AlikeRuns X Y P R) (es : List Expr) (hv : AgreeOn E (varsList es))
    (hc : ∀ n ∈ callsList es, P n) {r r' : Option Registry} (hr : R r r') : ArgsRel Cong.eq E r r' (Legacy.argsOf X es) (Legacy.argsOf Y es) := by
  cases es with
  | nil => simp only [Legacy.argsOf]; exact .nil
  | cons e es =>
    simp only [varsList] at hv; simp only [callsList, List.mem_append] at hc
    rw [Legacy.argsOf_cons, Legacy.argsOf_cons]
    refine .cons ?_ (legacy_args_sim W es hv.right (fun n hn => hc n (.inr hn)) hr)
    have hrun := legacy_sim W e hv.left (fun n hn => hc n (.inl hn)) hr
    cases e with
    | spread e =>
      refine ⟨hrun, rfl, ?_⟩
      exact legacy_sim W e hv.left (fun n hn => hc n (.inl hn)) hr
    | _ => exact ⟨hrun, rfl, trivial⟩
theorem legacy_members_sim (W : AlikeRuns X Y P R) (ms : List (Str × Expr)) (hv : AgreeOn E (varsMembers ms))
    (hc : ∀ n ∈ callsMembers ms, P n) {r r' : Option Registry} (hr : R r r') :
    List.Forall₂ (fun m m' => m.1 = m'.1 ∧ DenRel Cong.eq E r r' m.2 m'.2) (Legacy.membersOf X ms) (Legacy.membersOf Y ms) := by
  cases ms with
  | nil => simp only [Legacy.membersOf]; exact .nil
  | cons m ms =>
    obtain ⟨k, e⟩ := m
    simp only [varsMembers] at hv; simp only [callsMembers, List.mem_append] at hc
    simp only [Legacy.membersOf]
    exact .cons ⟨rfl, legacy_sim W e hv.left (fun n hn => hc n (.inl hn)) hr⟩ (legacy_members_sim W ms hv.right (fun n hn => hc n (.inr hn)) hr)
theorem legacy_opt_sim (W : AlikeRuns X Y P R) (o : Option Expr) (hv : AgreeOn E (varsOpt o))
    (hc : ∀ n ∈ callsOpt o, P n) {r r' : Option Registry} (hr : R r r') :
    (match Legacy.optOf X o, Legacy.optOf Y o with
      | none, none => True
      | some d, some d' => DenRel Cong.eq E r r' d d'
      | _, _ => False) := by
  cases o with
  | none => simp only [Legacy.optOf]
  | some e => simp only [Legacy.optOf]; exact legacy_sim W e hv hc hr
end

mutual
theorem eval_sim (W : AlikeRuns X Y P R) (e : Expr) (hv : AgreeOn E (vars e))
    (hc : ∀ n ∈ calls e, P n) {r r' : Option Registry} (hr : R r r') : DenRel Cong.eq E r r' (Eval.eval X e) (Eval.eval Y e) := by
  intro env env' he
  change Eval.eval X e r env = Eval.eval Y e r' env'
  cases e with
  | number _ => simp only [Eval.eval]
  | strLit _ => simp only [Eval.eval]
  | null => simp only [Eval.eval]
  | spread _ => simp only [Eval.eval]
  | var n => simp only [Eval.eval, hv n (by simp [vars]) env env' he]
  | unary op e => simp only [Eval.eval]; rw [eval_sim W e hv hc hr env env' he]
  | prop e n => simp only [Eval.eval]; rw [eval_sim W e hv hc hr env env' he, W.property]
  | safeProp e n => simp only [Eval.eval]; rw [eval_sim W e hv hc hr env env' he, W.property]
  | cast e t => simp only [Eval.eval]; rw [eval_sim W e hv hc hr env env' he, W.cast]
  | assign x e => simp only [Eval.eval]; rw [eval_sim W e hv hc hr env env' he]
  | binary a op b =>
    simp only [vars] at hv; simp only [calls, List.mem_append] at hc
    simp only [Eval.eval]
    rw [eval_sim W a hv.left (fun n hn => hc n (.inl hn)) hr env env' he,
      eval_sim W b hv.right (fun n hn => hc n (.inr hn)) hr env env' he, W.binary]
  | index a b =>
    simp only [vars] at hv; simp only [calls, List.mem_append] at hc
    simp only [Eval.eval]
    rw [eval_sim W a hv.left (fun n hn => hc n (.inl hn)) hr env env' he,
      eval_sim W b hv.right (fun n hn => hc n (.inr hn)) hr env env' he]
  | call n es =>
    simp only [Eval.eval]
    simp only [calls, List.mem_cons] at hc
    refine eval_call_sim W (hc n (.inl rfl)) hr (args_sim W es hv (fun n hn => hc n (.inr hn)) hr) ?_ he
    intro a a' h1 h2
    have := Sim.at_index (args_sim W es hv (fun n hn => hc n (.inr hn)) W.absent) 1
    rw [h1, h2] at this
    cases this with
    | some h => exact h.run
  | array es =>
    simp only [Eval.eval]
    rw [show _ = _ from Sim.elements (args_sim W es hv hc hr) he]
  | seq es =>
    simp only [Eval.eval]
    exact Sim.lastOf (args_sim W es hv hc hr) he .null
  | object ms =>
    simp only [Eval.eval]
    rw [W.members, W.print, show _ = _ from Sim.objectMembers Y (members_sim W ms hv hc hr) he []]
  | safeCall t n es =>
    simp only [vars] at hv; simp only [calls, List.mem_append] at hc
    simp only [Eval.eval]
    rw [eval_sim W t hv.left (fun n hn => hc n (.inl hn)) hr env env' he, W.exec]
    congr 1; funext v
    have := fun v => exec_sim W hr (fun r r' hr => legacy_args_sim W es hv.right (fun n hn => hc n (.inr hn)) hr) he n false v
    simp only [this]
  | method t n es p =>
    simp only [vars] at hv; simp only [calls, List.mem_append] at hc
    simp only [Eval.eval]
    rw [eval_sim W t hv.left (fun n hn => hc n (.inl hn)) hr env env' he, W.exec]
    congr 1; funext v
    exact exec_sim W hr (fun r r' hr => legacy_args_sim W es hv.right (fun n hn => hc n (.inr hn)) hr) he n p v
  | slice t a b =>
    simp only [vars] at hv; simp only [calls, List.mem_append] at hc
    have ha := opt_sim W a hv.left.right (fun n hn => hc n (.inl (.inr hn))) hr
    have hb := opt_sim W b hv.right (fun n hn => hc n (.inr hn)) hr
    simp only [Eval.eval]
    rw [eval_sim W t hv.left.left (fun n hn => hc n (.inl (.inl hn))) hr env env' he,
      show _ = _ from Sim.optional ha he, show _ = _ from Sim.optional hb he]
theorem args_sim (W : AlikeRuns X Y P R) (es : List Expr) (hv : AgreeOn E (varsList es))
    (hc : ∀ n ∈ callsList es, P n) {r r' : Option Registry} (hr : R r r') : ArgsRel Cong.eq E r r' (Eval.argsOf X es) (Eval.argsOf Y es) := by
  cases es with
  | nil => simp only [Eval.argsOf]; exact .nil
  | cons e es =>
    simp only [varsList] at hv; simp only [callsList, List.mem_append] at hc
    rw [Eval.argsOf_cons, Eval.argsOf_cons]
    refine .cons ?_ (args_sim W es hv.right (fun n hn => hc n (.inr hn)) hr)
    have hrun := eval_sim W e hv.left (fun n hn => hc n (.inl hn)) hr
    cases e with
    | spread e =>
      refine ⟨hrun, rfl, ?_⟩
      exact eval_sim W e hv.left (fun n hn => hc n (.inl hn)) hr
    | _ => exact ⟨hrun, rfl, trivial⟩
theorem members_sim (W : AlikeRuns X Y P R) (ms : List (Str × Expr)) (hv : AgreeOn E (varsMembers ms))
    (hc : ∀ n ∈ callsMembers ms, P n) {r r' : Option Registry} (hr : R r r') :
    List.Forall₂ (fun m m' => m.1 = m'.1 ∧ DenRel Cong.eq E r r' m.2 m'.2) (Eval.membersOf X ms) (Eval.membersOf Y ms) := by
  cases ms with
  | nil => simp only [Eval.membersOf]; exact .nil
  | cons m ms =>
    obtain ⟨k, e⟩ := m
    simp only [varsMembers] at hv; simp only [callsMembers, List.mem_append] at hc
    simp only [Eval.membersOf]
    exact .cons ⟨rfl, eval_sim W e hv.left (fun n hn => hc n (.inl hn)) hr⟩ (members_sim W ms hv.right (fun n hn => hc n (.inr hn)) hr)
theorem opt_sim (W : AlikeRuns X Y P R) (o : Option Expr) (hv : AgreeOn E (varsOpt o))
    (hc : ∀ n ∈ callsOpt o, P n) {r r' : Option Registry} (hr : R r r') :
    (match Eval.optOf X o, Eval.optOf Y o with
      | none, none => True
      | some d, some d' => DenRel Cong.eq E r r' d d'
      | _, _ => False) := by
  cases o with
  | none => simp only [Eval.optOf]
  | some e => simp only [Eval.optOf]; exact eval_sim W e hv hc hr
end

theorem SameWorld.refl (X : Ext) : SameWorld X X := ⟨rfl, rfl, rfl, rfl, rfl, rfl, rfl, rfl, rfl⟩

/-- The same registry on both sides. -/
theorem AlikeRuns.of {P : Str → Prop} (W : SameWorld X Y) (h : ∀ n, P n → SameBuiltin X Y n) : AlikeRuns X Y P (· = ·) :=
  ⟨W, h, rfl, by rintro r _ rfl; rfl, by rintro g _ n ⟨⟩ _; rfl⟩

/-! ### C09 -/

/-- C09: if two variable maps agree on every variable the expression mentions, evaluation gives the same value or
the same error, whatever the registry. -/
theorem C09_coincidence (X : Ext) (e : Expr) (r : Option Registry) (env env' : Env)
    (h : ∀ n ∈ vars e, env n = env' n) : Eval.eval X e r env = Eval.eval X e r env' :=
  eval_sim (E := onNames (vars e)) (AlikeRuns.of (SameWorld.refl X) fun _ _ => ⟨fun _ => rfl, fun _ => rfl⟩) e (fun n hn _ _ he => he n hn) (fun _ hn => hn) (rfl : r = r) env env' h

/-- C09 for the entry points. -/
theorem C09_entry_points (X : Ext) (reg : Registry) (e : Expr) (env env' : Env) (h : ∀ n ∈ vars e, env n = env' n) :
    evalVars X e env = evalVars X e env' ∧ evalCustom X reg e env = evalCustom X reg e env' :=
  ⟨C09_coincidence X e none env env' h, C09_coincidence X e (some reg) env env' h⟩

/-- The outcomes of two runs of an assignment program: equal values (or failures), and variables that agree
wherever they did before. -/
def Spec.SameOutcome (ns : List Str) : Res (Value × Env) → Res (Value × Env) → Prop
  | .ok (v, env), .ok (v', env') => v = v' ∧ (onNames ns).rel env env'
  | .error f, .error f' => f = f'
  | _, _ => False

mutual
theorem assignments_coincide (X : Ext) (ns : List Str) (e : Expr) (hs : ∀ n ∈ vars e, n ∈ ns) (env env' : Env)
    (h : (onNames ns).rel env env') : SameOutcome ns (Eval.assignments X e env) (Eval.assignments X e env') := by
  have plain : ∀ e : Expr, (∀ n ∈ vars e, n ∈ ns) → Eval.eval X e none env = Eval.eval X e none env' :=
    fun e he => C09_coincidence X e none env env' fun n hn => h n (he n hn)
  cases e with
  | assign x e =>
    simp only [Eval.assignments]
    rw [plain e hs]
    cases Eval.eval X e none env' with
    | error f => exact rfl
    | ok v => exact ⟨rfl, (onNames ns).insert x v h⟩
  | seq es =>
    simp only [Eval.assignments]
    exact assignmentsSeq_coincide X ns es hs .null env env' h
  | _ =>
    simp only [Eval.assignments]
    rw [plain _ hs]
    cases Eval.eval X _ none env' with
    | error f => exact rfl
    | ok v => exact ⟨rfl, h⟩
theorem assignmentsSeq_coincide (X : Ext) (ns : List Str) (es : List Expr) (hs : ∀ n ∈ varsList es, n ∈ ns) (last : Value)
    (env env' : Env) (h : (onNames ns).rel env env') :
    SameOutcome ns (Eval.assignmentsSeq X es last env) (Eval.assignmentsSeq X es last env') := by
  cases es with
  | nil => simp only [Eval.assignmentsSeq]; exact ⟨rfl, h⟩
  | cons e es =>
    simp only [varsList, List.mem_append] at hs
    simp only [Eval.assignmentsSeq]
    have h1 := assignments_coincide X ns e (fun n hn => hs n (.inl hn)) env env' h
    cases e1 : Eval.assignments X e env with
    | error f =>
      cases e2 : Eval.assignments X e env' with
      | error f' => rw [e1, e2] at h1; exact h1
      | ok p => rw [e1, e2] at h1; exact h1.elim
    | ok p =>
      cases e2 : Eval.assignments X e env' with
      | error f' => rw [e1, e2] at h1; exact h1.elim
      | ok p' =>
        rw [e1, e2] at h1
        obtain ⟨v, en⟩ := p
        obtain ⟨v', en'⟩ := p'
        obtain ⟨rfl, hen⟩ := h1
        exact assignmentsSeq_coincide X ns es (fun n hn => hs n (.inr hn)) v en en' hen
end

/-- C09 for assignment programs: same value or error, and afterwards the mentioned variables agree. -/
theorem C09_assignments (X : Ext) (e : Expr) (env env' : Env) (h : ∀ n ∈ vars e, env n = env' n) :
    match evalAssignCtx X e env, evalAssignCtx X e env' with
    | .ok (v, en), .ok (v', en') => v = v' ∧ ∀ n ∈ vars e, en n = en' n
    | .error f, .error f' => f = f'
    | _, _ => False := by
  have := assignments_coincide X (vars e) e (fun _ h => h) env env' h
  unfold evalAssignCtx
  revert this
  cases Eval.assignments X e env <;> cases Eval.assignments X e env' <;> exact id

/-- A case of C09: maps that differ on another variable. -/
example : vars (.binary (.var c!"a") .add (.call c!"MAP" [.array [.var c!"b"], .var c!"x"])) = [c!"a", c!"b", c!"x"] := by
  decide +kernel

/-! ### C66 -/

/-- The functions that read the clock. -/
def Spec.clockFunctions : List Str := [c!"NOW", c!"DATE", c!"TIME"]

theorem SameWorld.clock (X : Ext) (n t : Int) (s : Nat) : SameWorld (X.atInstant n t s) X :=
  ⟨rfl, by kernel_rfl, by kernel_rfl, by kernel_rfl, by kernel_rfl, rfl, by kernel_rfl, by kernel_rfl, dbg_congr rfl rfl⟩

theorem execDatetime_clock (X : Ext) (n t : Int) (s : Nat) (name : Str) (h : name ∉ clockFunctions) (args : List Value) :
    execDatetime (X.atInstant n t s) name args = execDatetime X name args := by
  simp only [clockFunctions, List.mem_cons, List.not_mem_nil, or_false, not_or] at h
  unfold execDatetime DT.table
  simp only [lookupFn, if_neg h.1, if_neg h.2.1, if_neg h.2.2]
  rfl

theorem sameBuiltin_clock (X : Ext) (n t : Int) (s : Nat) (name : Str) (h : name ∉ clockFunctions) :
    SameBuiltin (X.atInstant n t s) X name := by
  constructor
  · intro args
    unfold execFast
    rw [execDatetime_clock X n t s name h args]
    kernel_rfl
  · intro args
    unfold execBuiltin
    rw [execDatetime_clock X n t s name h args]
    kernel_rfl

/-- C66: the result of an expression that calls none of NOW, DATE and TIME does not depend on the clock: at any other
instant the same variables and registry give the same value or error. -/
theorem C66_clock_independent (X : Ext) (e : Expr) (h : ∀ f ∈ calls e, f ∉ clockFunctions) (r : Option Registry) (env : Env)
    (now today : Int) (secs : Nat) : Eval.eval (X.atInstant now today secs) e r env = Eval.eval X e r env :=
  eval_sim (E := sameEnv) (AlikeRuns.of (SameWorld.clock X now today secs) fun f hf => sameBuiltin_clock X now today secs f (h f hf)) e
    (fun _ _ _ _ he => by rw [show _ = _ from he]) (fun _ hf => hf) (rfl : r = r) env env rfl

/-- C66's exclusion is needed: NOW() is the clock. -/
theorem C66_now_reads_the_clock (X : Ext) (now today : Int) (secs : Nat) (env : Env) :
    Lib.evaluateWith (X.atInstant now today secs) c!"NOW()" env = .ok (.dt now) := by kernel_rfl

/-- A case of C66's hypothesis. -/
example : ∀ f ∈ calls (.call c!"YEAR" [.call c!"DATEADD" [.var c!"d", .number (.fin 1), .strLit c!"days"]]), f ∉ clockFunctions := by
  decide +kernel
