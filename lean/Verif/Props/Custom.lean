import Verif.Props.Forms
/-! C20: where custom functions can be called. -/

open Lib

namespace Spec

/-- The names handled by the evaluators themselves. -/
def ownNames : List Str :=
  [c!"__TERNARY__", c!"__CONST_TRUE__", c!"__CONST_FALSE__", c!"FILTER", c!"FIND", c!"MAP", c!"REDUCE", c!"SUMIF", c!"AVGIF", c!"COUNTIF", c!"JQ"]

/-- The functions whose second argument is a lambda. -/
def lambdaFns : List Str := [c!"FILTER", c!"FIND", c!"MAP", c!"REDUCE", c!"SUMIF", c!"AVGIF", c!"COUNTIF"]

/-- The first list with the second element of the second list. -/
def keepSecond : List Expr → List Expr → List Expr
  | a :: _ :: rest, _ :: l :: _ => a :: l :: rest
  | es, _ => es

mutual
/-- The expression with calls of `F` turned into calls of `G`: outside method lambdas if `u`, inside them if `m`
(`inside` says where we are). Two kinds of places are left as they are: the lambda of a function such as FILTER
(outside method lambdas), and the arguments of a method that takes no lambda. -/
def swap (X : Ext) (F G : Str) (u m inside : Bool) : Expr → Expr
  | .number n => .number n
  | .strLit s => .strLit s
  | .null => .null
  | .var n => .var n
  | .unary op e => .unary op (swap X F G u m inside e)
  | .prop e n => .prop (swap X F G u m inside e) n
  | .safeProp e n => .safeProp (swap X F G u m inside e) n
  | .spread e => .spread (swap X F G u m inside e)
  | .cast e t => .cast (swap X F G u m inside e) t
  | .assign x e => .assign x (swap X F G u m inside e)
  | .binary a op b => .binary (swap X F G u m inside a) op (swap X F G u m inside b)
  | .index a b => .index (swap X F G u m inside a) (swap X F G u m inside b)
  | .call n es =>
    .call (if n = F ∧ (if inside then m else u) = true then G else n)
      (if inside = false ∧ n ∈ lambdaFns then keepSecond (swapList X F G u m inside es) es else swapList X F G u m inside es)
  | .array es => .array (swapList X F G u m inside es)
  | .seq es => .seq (swapList X F G u m inside es)
  | .object ms => .object (swapMembers X F G u m inside ms)
  | .safeCall t n es => .safeCall (swap X F G u m inside t) n (if X.lower n ∈ Sim.lambdaNames then swapList X F G u m true es else es)
  | .method t n es p => .method (swap X F G u m inside t) n (if X.lower n ∈ Sim.lambdaNames then swapList X F G u m true es else es) p
  | .slice t a b => .slice (swap X F G u m inside t) (swapOpt X F G u m inside a) (swapOpt X F G u m inside b)
/-- Of a list. -/
def swapList (X : Ext) (F G : Str) (u m inside : Bool) : List Expr → List Expr
  | [] => []
  | e :: es => swap X F G u m inside e :: swapList X F G u m inside es
/-- Of object members. -/
def swapMembers (X : Ext) (F G : Str) (u m inside : Bool) : List (Str × Expr) → List (Str × Expr)
  | [] => []
  | (k, e) :: ms => (k, swap X F G u m inside e) :: swapMembers X F G u m inside ms
/-- Of an optional operand. -/
def swapOpt (X : Ext) (F G : Str) (u m inside : Bool) : Option Expr → Option Expr
  | none => none
  | some e => some (swap X F G u m inside e)
end

/-- `f`, any number of arguments, is registered as `F`; `G` is a builtin that is not shadowed and evaluates all its arguments. -/
structure StandsFor (X : Ext) (reg : Registry) (f : CustomFn) (F G : Str) : Prop where
  registered : reg.get X F = some f
  anyArity : f.minArgs = 0 ∧ f.maxArgs = none
  name : F ∉ [c!"__TERNARY__", c!"__CONST_TRUE__", c!"__CONST_FALSE__"]
  builtin : reg.get X G = none
  plain : G ∉ ownNames

end Spec

open Spec

theorem Spec.StandsFor.execute {X : Ext} {reg : Registry} {f : CustomFn} {F G : Str} (h : StandsFor X reg f F G) (vs : List Value) :
    reg.execute X F vs = f.run vs := by
  simp only [Registry.execute, h.registered, h.anyArity.1, h.anyArity.2]; rfl

theorem Spec.StandsFor.has {X : Ext} {reg : Registry} {f : CustomFn} {F G : Str} (h : StandsFor X reg f F G) : reg.has X F = true := by
  have := h.registered; unfold Registry.get at this; unfold Registry.has; rw [this]; rfl

theorem Spec.StandsFor.hasNot {X : Ext} {reg : Registry} {f : CustomFn} {F G : Str} (h : StandsFor X reg f F G) : reg.has X G = false := by
  have := h.builtin; unfold Registry.get at this; unfold Registry.has; rw [this]; rfl

theorem argsRel_self (r : Option Registry) (as : List Arg) : ArgsRel Cong.eq sameEnv r r as as := by
  induction as with
  | nil => exact .nil
  | cons a as ih =>
    refine .cons ⟨?_, rfl, ?_⟩ ih
    · rintro e1 e2 rfl; rfl
    · cases a.spread with
      | none => trivial
      | some d => rintro e1 e2 rfl; rfl

theorem sameWorld (X : Ext) : AlikeRuns X X (fun _ => True) (· = ·) := .of (SameWorld.refl X) fun _ _ => ⟨fun _ => rfl, fun _ => rfl⟩

theorem swap_call_legacy {X : Ext} {reg : Registry} {f : CustomFn} {F G : Str} (h : StandsFor X reg f F G) (on : Bool)
    (hm : on = true → ∀ vs, f.run vs = execBuiltin X G vs) (n : Str) (as as' : List Arg) (env : Env)
    (ha : ArgsRel Cong.eq sameEnv (some reg) (some reg) as as') :
    Legacy.call X n as (some reg) env = Legacy.call X (if n = F ∧ on = true then G else n) as' (some reg) env := by
  split
  · rename_i hn
    obtain ⟨rfl, hon⟩ := hn
    have h1 := h.name
    have h2 := h.plain
    simp only [ownNames, List.mem_cons, List.not_mem_nil, or_false, not_or] at h1 h2
    have : Legacy.higherOrder G = none := by simp [Legacy.higherOrder, h2]
    simp only [Legacy.call, if_neg h1.1, if_neg h2.1, h.has, h.hasNot, if_true, this, Bool.false_eq_true, if_false]
    rw [show _ = _ from Sim.evalArgs ha (sameEnv_rel env)]
    simp only [h.execute, hm hon]
  · exact legacy_call_sim (sameWorld X) trivial rfl ha (sameEnv_rel env)

theorem swap_call_eval {X : Ext} {reg : Registry} {f : CustomFn} {F G : Str} (h : StandsFor X reg f F G) (on : Bool)
    (hm : on = true → ∀ vs, f.run vs = execFast X G vs) (n : Str) (as as' : List Arg) (env : Env)
    (ha : ArgsRel Cong.eq sameEnv (some reg) (some reg) as as') (hl : n ∈ lambdaFns → Sim.LambdaRel sameEnv as as') :
    Eval.call X n as (some reg) env = Eval.call X (if n = F ∧ on = true then G else n) as' (some reg) env := by
  split
  · rename_i hn
    obtain ⟨rfl, hon⟩ := hn
    have h1 := h.name
    have h2 := h.plain
    simp only [ownNames, List.mem_cons, List.not_mem_nil, or_false, not_or] at h1 h2
    have : Eval.higherOrder X G = none := by simp [Eval.higherOrder, h2]
    simp only [Eval.call, if_neg h1.1, if_neg h1.2.1, if_neg h1.2.2, if_neg h2.1, if_neg h2.2.1, if_neg h2.2.2.1, h.has, h.hasNot, if_true, this,
      Bool.false_eq_true, if_false]
    rw [show _ = _ from Sim.evalArgs ha (sameEnv_rel env)]
    simp only [h.execute, hm hon]
  · by_cases hn : n ∈ lambdaFns
    · exact eval_call_sim (sameWorld X) trivial rfl ha (hl hn) (sameEnv_rel env)
    · have e1 : Legacy.ternary (some reg) env as = Legacy.ternary (some reg) env as' := Sim.ternary ha (sameEnv_rel env)
      have e2 : evalArgs (some reg) env as = evalArgs (some reg) env as' := Sim.evalArgs ha (sameEnv_rel env)
      simp only [lambdaFns, List.mem_cons, List.not_mem_nil, or_false, not_or] at hn
      simp only [Eval.call, e1, e2]
      split
      · rfl
      split
      · rfl
      split
      · rfl
      split
      · rfl
      · simp only [Eval.higherOrder, hn, if_false]
        by_cases hj : n = c!"JQ"
        · simp only [hj, if_true]
          cases ha with
          | nil => rfl
          | cons h1 ha =>
            cases ha with
            | nil => rfl
            | cons h2 ha =>
              cases ha with
              | cons _ _ => rfl
              | nil => simp only [Eval.jq]; rw [show _ = _ from h1.run env env rfl, show _ = _ from h2.run env env rfl]
        · simp only [hj, if_false]

theorem keepSecond_args (X : Ext) (F G : Str) (u m : Bool) (es : List Expr) {r : Option Registry}
    (h : ArgsRel Cong.eq sameEnv r r (Eval.argsOf X es) (Eval.argsOf X (swapList X F G u m false es))) :
    ArgsRel Cong.eq sameEnv r r (Eval.argsOf X es) (Eval.argsOf X (keepSecond (swapList X F G u m false es) es)) ∧
    Sim.LambdaRel sameEnv (Eval.argsOf X es) (Eval.argsOf X (keepSecond (swapList X F G u m false es) es)) := by
  match es, h with
  | [], h => exact ⟨h, by intro a a' h1; simp [Eval.argsOf] at h1⟩
  | [a], h => 
    refine ⟨h, ?_⟩
    intro a a' h1; rw [Eval.argsOf_cons] at h1; simp [Eval.argsOf] at h1
  | a :: l :: rest, h =>
    simp only [swapList, keepSecond, Eval.argsOf_cons] at h ⊢
    cases h with
    | cons h1 h =>
      cases h with
      | cons h2 h =>
        refine ⟨.cons h1 (.cons ?_ h), ?_⟩
        · have := argsRel_self r [Eval.argOf X l]
          cases this with
          | cons h _ => exact h
        · intro a a' e1 e2 env env' he
          simp only [List.getElem?_cons_succ, List.getElem?_cons_zero, Option.some.injEq] at e1 e2
          subst e1 e2
          cases he; rfl

theorem swap_exec {X : Ext} {reg : Registry} {as as' : List Arg} {n : Str}
    (h : ArgsRel Cong.eq sameEnv (some reg) (some reg) as as') (h' : X.lower n ∉ Sim.lambdaNames → as = as') (env : Env) (p : Bool) (v : Value) :
    Method.exec X (some reg) env n p v as = Method.exec X (some reg) env n p v as' := by
  by_cases hn : X.lower n ∈ Sim.lambdaNames
  · exact Sim.exec_lambda h (sameEnv_rel env) X n p v hn
  · rw [h' hn]

set_option linter.unusedSectionVars false

section
variable {X : Ext} {reg : Registry} {f : CustomFn} {F G : Str} (h : StandsFor X reg f F G) (u m : Bool)
  (hu : u = true → ∀ vs, f.run vs = execFast X G vs) (hm : m = true → ∀ vs, f.run vs = execBuiltin X G vs)
include h hu hm

mutual
theorem swap_legacy (e : Expr) (env : Env) :
    Legacy.eval X e (some reg) env = Legacy.eval X (swap X F G u m true e) (some reg) env := by
  cases e with
  | number _ => rfl
  | strLit _ => rfl
  | null => rfl
  | spread _ => simp only [swap, Legacy.eval]
  | var n => rfl
  | unary op e => simp only [swap, Legacy.eval]; rw [swap_legacy e env]
  | prop e n => simp only [swap, Legacy.eval]; rw [swap_legacy e env]
  | safeProp e n => simp only [swap, Legacy.eval]; rw [swap_legacy e env]
  | cast e t => simp only [swap, Legacy.eval]; rw [swap_legacy e env]
  | assign x e => simp only [swap, Legacy.eval]; rw [swap_legacy e env]
  | binary a op b => simp only [swap, Legacy.eval]; rw [swap_legacy a env, swap_legacy b env]
  | index a b => simp only [swap, Legacy.eval]; rw [swap_legacy a env, swap_legacy b env]
  | call n es =>
    simp only [swap, Legacy.eval, Bool.true_eq_false, false_and, if_false, if_true]
    exact swap_call_legacy h m hm n _ _ env (swap_legacy_args es)
  | array es => simp only [swap, Legacy.eval]; rw [show _ = _ from Sim.elements (swap_legacy_args es) (sameEnv_rel env)]
  | seq es => simp only [swap, Legacy.eval]; exact Sim.lastOf (swap_legacy_args es) (sameEnv_rel env) .null
  | object ms =>
    simp only [swap, Legacy.eval]
    rw [show _ = _ from Sim.objectMembers X (swap_legacy_members ms) (sameEnv_rel env) []]
  | safeCall t n es =>
    simp only [swap, Legacy.eval]
    rw [← swap_legacy t env]
    congr 1; funext v
    have hx := fun v => swap_exec (X := X) (n := n) (as := Legacy.argsOf X es)
      (as' := Legacy.argsOf X (if X.lower n ∈ Sim.lambdaNames then swapList X F G u m true es else es))
      (by split
          · exact swap_legacy_args es
          · exact argsRel_self _ _) (by intro hn; rw [if_neg hn]) env false v
    simp only [hx]
  | method t n es p =>
    simp only [swap, Legacy.eval]
    rw [← swap_legacy t env]
    congr 1; funext v
    exact swap_exec (X := X) (n := n) (as := Legacy.argsOf X es)
      (as' := Legacy.argsOf X (if X.lower n ∈ Sim.lambdaNames then swapList X F G u m true es else es))
      (by split
          · exact swap_legacy_args es
          · exact argsRel_self _ _) (by intro hn; rw [if_neg hn]) env p v
  | slice t a b =>
    simp only [swap, Legacy.eval]
    rw [← swap_legacy t env]
    have hbound : ∀ {d d' : Option Den} (len dflt : Int) (err : String), (match d, d' with
        | none, none => True
        | some d, some d' => DenRel Cong.eq sameEnv (some reg) (some reg) d d'
        | _, _ => False) → Legacy.boundCustom (some reg) env len dflt err d = Legacy.boundCustom (some reg) env len dflt err d' := by
      intro d d' len dflt err h
      cases d <;> cases d' <;> first
        | exact h.elim
        | rfl
        | (simp only [Legacy.boundCustom]; rw [show _ = _ from h env env rfl])
    have ha := swap_legacy_opt a
    have hb := swap_legacy_opt b
    unfold Legacy.sliceCustom
    simp only [hbound _ _ _ ha, hbound _ _ _ hb]
theorem swap_legacy_args (es : List Expr) :
    ArgsRel Cong.eq sameEnv (some reg) (some reg) (Legacy.argsOf X es) (Legacy.argsOf X (swapList X F G u m true es)) := by
  cases es with
  | nil => simp only [swapList, Legacy.argsOf]; exact .nil
  | cons e es =>
    simp only [swapList]
    rw [Legacy.argsOf_cons, Legacy.argsOf_cons]
    refine .cons ?_ (swap_legacy_args es)
    have hrun : DenRel Cong.eq sameEnv (some reg) (some reg) (Legacy.eval X e) (Legacy.eval X (swap X F G u m true e)) := by
      rintro e1 e2 rfl; exact swap_legacy e e1
    cases e with
    | spread e =>
      refine ⟨hrun, by simp only [swap]; rfl, ?_⟩
      simp only [swap]
      rintro e1 e2 rfl; exact swap_legacy e e1
    | _ => exact ⟨hrun, by simp only [swap] <;> rfl, by simp only [swap] <;> trivial⟩
theorem swap_legacy_members (ms : List (Str × Expr)) :
    List.Forall₂ (fun a b => a.1 = b.1 ∧ DenRel Cong.eq sameEnv (some reg) (some reg) a.2 b.2) (Legacy.membersOf X ms)
      (Legacy.membersOf X (swapMembers X F G u m true ms)) := by
  cases ms with
  | nil => simp only [swapMembers, Legacy.membersOf]; exact .nil
  | cons x ms =>
    obtain ⟨k, e⟩ := x
    simp only [swapMembers, Legacy.membersOf]
    exact .cons ⟨rfl, by rintro e1 e2 rfl; exact swap_legacy e e1⟩ (swap_legacy_members ms)
theorem swap_legacy_opt (o : Option Expr) :
    (match Legacy.optOf X o, Legacy.optOf X (swapOpt X F G u m true o) with
      | none, none => True
      | some d, some d' => DenRel Cong.eq sameEnv (some reg) (some reg) d d'
      | _, _ => False) := by
  cases o with
  | none => simp only [swapOpt, Legacy.optOf]
  | some e => simp only [swapOpt, Legacy.optOf]; rintro e1 e2 rfl; exact swap_legacy e e1
end

mutual
theorem swap_eval (e : Expr) (env : Env) :
    Eval.eval X e (some reg) env = Eval.eval X (swap X F G u m false e) (some reg) env := by
  cases e with
  | number _ => rfl
  | strLit _ => rfl
  | null => rfl
  | spread _ => simp only [swap, Eval.eval]
  | var n => rfl
  | unary op e => simp only [swap, Eval.eval]; rw [swap_eval e env]
  | prop e n => simp only [swap, Eval.eval]; rw [swap_eval e env]
  | safeProp e n => simp only [swap, Eval.eval]; rw [swap_eval e env]
  | cast e t => simp only [swap, Eval.eval]; rw [swap_eval e env]
  | assign x e => simp only [swap, Eval.eval]; rw [swap_eval e env]
  | binary a op b => simp only [swap, Eval.eval]; rw [swap_eval a env, swap_eval b env]
  | index a b => simp only [swap, Eval.eval]; rw [swap_eval a env, swap_eval b env]
  | call n es =>
    have ha := swap_eval_args es
    simp only [swap, Eval.eval, true_and, Bool.false_eq_true, if_false]
    refine swap_call_eval h u hu n _ _ env ?_ ?_
    · split
      · exact (keepSecond_args X F G u m es ha).1
      · exact ha
    · intro hn
      rw [if_pos hn]
      exact (keepSecond_args X F G u m es ha).2
  | array es => simp only [swap, Eval.eval]; rw [show _ = _ from Sim.elements (swap_eval_args es) (sameEnv_rel env)]
  | seq es => simp only [swap, Eval.eval]; exact Sim.lastOf (swap_eval_args es) (sameEnv_rel env) .null
  | object ms =>
    simp only [swap, Eval.eval]
    rw [show _ = _ from Sim.objectMembers X (swap_eval_members ms) (sameEnv_rel env) []]
  | safeCall t n es =>
    simp only [swap, Eval.eval]
    rw [← swap_eval t env]
    congr 1; funext v
    have hx := fun v => swap_exec (X := X) (n := n) (as := Legacy.argsOf X es)
      (as' := Legacy.argsOf X (if X.lower n ∈ Sim.lambdaNames then swapList X F G u m true es else es))
      (by split
          · exact swap_legacy_args h u m hu hm es
          · exact argsRel_self _ _) (by intro hn; rw [if_neg hn]) env false v
    simp only [hx]
  | method t n es p =>
    simp only [swap, Eval.eval]
    rw [← swap_eval t env]
    congr 1; funext v
    exact swap_exec (X := X) (n := n) (as := Legacy.argsOf X es)
      (as' := Legacy.argsOf X (if X.lower n ∈ Sim.lambdaNames then swapList X F G u m true es else es))
      (by split
          · exact swap_legacy_args h u m hu hm es
          · exact argsRel_self _ _) (by intro hn; rw [if_neg hn]) env p v
  | slice t a b =>
    simp only [swap, Eval.eval]
    rw [← swap_eval t env, show _ = _ from Sim.optional (swap_eval_opt a) (sameEnv_rel env),
      show _ = _ from Sim.optional (swap_eval_opt b) (sameEnv_rel env)]
theorem swap_eval_args (es : List Expr) :
    ArgsRel Cong.eq sameEnv (some reg) (some reg) (Eval.argsOf X es) (Eval.argsOf X (swapList X F G u m false es)) := by
  cases es with
  | nil => simp only [swapList, Eval.argsOf]; exact .nil
  | cons e es =>
    simp only [swapList]
    rw [Eval.argsOf_cons, Eval.argsOf_cons]
    refine .cons ?_ (swap_eval_args es)
    have hrun : DenRel Cong.eq sameEnv (some reg) (some reg) (Eval.eval X e) (Eval.eval X (swap X F G u m false e)) := by
      rintro e1 e2 rfl; exact swap_eval e e1
    cases e with
    | spread e =>
      refine ⟨hrun, by simp only [swap]; rfl, ?_⟩
      simp only [swap]
      rintro e1 e2 rfl; exact swap_eval e e1
    | _ => exact ⟨hrun, by simp only [swap] <;> rfl, by simp only [swap] <;> trivial⟩
theorem swap_eval_members (ms : List (Str × Expr)) :
    List.Forall₂ (fun a b => a.1 = b.1 ∧ DenRel Cong.eq sameEnv (some reg) (some reg) a.2 b.2) (Eval.membersOf X ms)
      (Eval.membersOf X (swapMembers X F G u m false ms)) := by
  cases ms with
  | nil => simp only [swapMembers, Eval.membersOf]; exact .nil
  | cons x ms =>
    obtain ⟨k, e⟩ := x
    simp only [swapMembers, Eval.membersOf]
    exact .cons ⟨rfl, by rintro e1 e2 rfl; exact swap_eval e e1⟩ (swap_eval_members ms)
theorem swap_eval_opt (o : Option Expr) :
    (match Eval.optOf X o, Eval.optOf X (swapOpt X F G u m false o) with
      | none, none => True
      | some d, some d' => DenRel Cong.eq sameEnv (some reg) (some reg) d d'
      | _, _ => False) := by
  cases o with
  | none => simp only [swapOpt, Eval.optOf]
  | some e => simp only [swapOpt, Eval.optOf]; rintro e1 e2 rfl; exact swap_eval e e1
end
end

/-! ### C20 -/

/-- A custom function of no arguments that returns 7, registered as F. -/
def Spec.sevenFn : CustomFn := ⟨c!"F", 0, none, fun _ => .ok (.num (F64.ofNat 7))⟩

/-- A registry with only that function. -/
def Spec.sevenReg : Registry := fun n => if n = c!"F" then some sevenFn else none

/-- C20 fails: a registered function is unknown inside the lambda of a function such as MAP, in the arguments of
a method that takes no lambda, and in every assignment program (the entry point used for them by the servers
takes no registry). -/
theorem C20_custom_not_everywhere (X : Ext) :
    Registry.empty.register X sevenFn = .ok sevenReg ∧
    evaluateWithCustom X sevenReg c!"F()" Env.empty = .ok (.num (F64.ofNat 7)) ∧
    evaluateWithCustom X sevenReg c!"[1].map(F())" Env.empty = .ok (.arr [.num (F64.ofNat 7)]) ∧
    evaluateWithCustom X sevenReg c!"MAP([1], F())" Env.empty = fail "Unknown function: {}" [c!"F"] ∧
    evaluateWithCustom X sevenReg c!"(8).between(F(), 9)" Env.empty = fail "Unknown function: {}" [c!"F"] ∧
    evaluateWithAssignments X c!":x := F(); :x" Env.empty = fail "Unknown function: {}" [c!"F"] :=
  ⟨by kernel_rfl, by kernel_rfl, by kernel_rfl, by kernel_rfl, by kernel_rfl, by kernel_rfl⟩

/-- C20, partial: outside method lambdas. If `f`, registered as `F`, does what the builtin `G` does on evaluated
arguments, then a program calling `F` gives what the same program calling `G` gives: `F` is available wherever
`G` is. Missing: the two places `swap` leaves alone, and assignment programs, for which it is false. -/
theorem C20_outside_lambdas_partial (X : Ext) (reg : Registry) (f : CustomFn) (F G : Str) (h : StandsFor X reg f F G)
    (hG : ∀ vs, f.run vs = execFast X G vs) (e : Expr) (env : Env) :
    evalCustom X reg e env = evalCustom X reg (swap X F G true false false e) env :=
  swap_eval h true false (fun _ => hG) (by simp) e env

/-- C20, partial: inside method lambdas, which run in the older evaluator with its own table of builtins. -/
theorem C20_method_lambdas_partial (X : Ext) (reg : Registry) (f : CustomFn) (F G : Str) (h : StandsFor X reg f F G)
    (hG : ∀ vs, f.run vs = execBuiltin X G vs) (e : Expr) (env : Env) :
    evalCustom X reg e env = evalCustom X reg (swap X F G false true false e) env :=
  swap_eval h false true (by simp) (fun _ => hG) e env

/-- The hypotheses of both are met by a custom copy of SUM, and the places renamed are the expected ones. -/
example (X : Ext) : StandsFor X (fun n => if n = c!"F" then some ⟨c!"F", 0, none, execFast X c!"SUM"⟩ else none)
    ⟨c!"F", 0, none, execFast X c!"SUM"⟩ c!"F" c!"SUM" :=
  ⟨by kernel_rfl, ⟨rfl, rfl⟩, by decide, by kernel_rfl, by decide⟩

example (X : Ext) : swap X c!"F" c!"SUM" true false false
      (.binary (.call c!"F" [.call c!"F" []]) .add (.call c!"MAP" [.array [.call c!"F" []], .call c!"F" []])) =
    .binary (.call c!"SUM" [.call c!"SUM" []]) .add (.call c!"MAP" [.array [.call c!"SUM" []], .call c!"F" []]) := by
  simp [swap, swapList, lambdaFns, keepSecond]
