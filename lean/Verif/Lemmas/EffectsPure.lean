import Verif.Spec.Effects
import Mathlib.Data.List.Forall2
/-! Custom functions without effects: the evaluators with a world do what those without do. -/

namespace Fx

variable {W : Type}

/-! ### Functions without effects -/

theorem lift_bind {α β : Type} (r : Res α) (f : α → Res β) : (lift (r >>= f) : M W β) = (lift r >>= fun v => lift (f v)) := by
  funext w
  cases r <;> rfl

theorem lift_pure {α : Type} (v : α) : (pure v : M W α) = lift (.ok v) := rfl

theorem bind_lift {α β : Type} {m : M W α} {r : Res α} {f : α → M W β} {k : α → Res β} (h : m = lift r) (hf : ∀ v, f v = lift (k v)) : (m >>= f) = lift (r >>= k) := by
  rw [lift_bind, h]
  exact congrArg _ (funext hf)

open Fx.Spec

variable {g : Reg W} {reg : Registry}

theorem has_quiet (h : Quiet g reg) (X : Ext) (n : Str) : g.has X n = reg.has X n := by
  unfold Reg.has Registry.has
  rcases h (X.upper n) with ⟨h1, h2⟩ | ⟨f, f', h1, h2, _⟩ <;> rw [h1, h2] <;> rfl

theorem execute_quiet (h : Quiet g reg) (X : Ext) (n : Str) (vs : List Value) : g.execute X n vs = lift (reg.execute X n vs) := by
  unfold Reg.execute Registry.execute Registry.get
  rcases h (X.upper n) with ⟨h1, h2⟩ | ⟨f, f', h1, h2, h3, h4, h5⟩
  · rw [h1, h2]
  · rw [h1, h2]
    have h6 : f.run vs = lift (f'.run vs) := funext (h5 vs)
    dsimp only
    rw [← h3, ← h4]
    by_cases hm : vs.length < f.minArgs
    · simp only [hm, if_true]
    · simp only [hm, if_false]
      cases f.maxArgs with
      | none => exact h6
      | some m =>
        dsimp only
        by_cases hm : vs.length > m
        · simp only [hm, if_true]
        · simp only [hm, if_false]; exact h6

/-- An operand without effects. -/
structure Same (reg : Registry) (a : Operand W) (b : Arg) : Prop where
  run : ∀ env, a.run env = lift (b.run (some reg) env)
  spread : match a.spread, b.spread with
    | none, none => True
    | some d, some d' => ∀ env, d env = lift (d' (some reg) env)
    | _, _ => False
  plain : a.plain = b

theorem evalArgs_quiet {as : List (Operand W)} {bs : List Arg} (h : List.Forall₂ (Same reg) as bs) (env : Env) : evalArgs env as = lift (_root_.evalArgs (some reg) env bs) := by
  induction h with
  | nil => rfl
  | cons h _ ih =>
    rename_i a b as bs _
    simp only [evalArgs, _root_.evalArgs]
    have hs := h.spread
    cases ha : a.spread <;> cases hb : b.spread <;> rw [ha, hb] at hs
    · refine bind_lift (h.run env) fun v => bind_lift ih fun vs => rfl
    · exact hs.elim
    · exact hs.elim
    · refine bind_lift (hs env) fun v => ?_
      cases v with
      | arr items => exact bind_lift ih fun vs => rfl
      | _ => rfl

section
variable {lam : Env → M W Value} {lam' : Env → Res Value} (h : ∀ env, lam env = lift (lam' env))
include h

theorem Loop.filter_quiet (p : Str) (env : Env) (items : List Value) : Loop.filter lam p env items = lift (_root_.Loop.filter lam' p env items) := by
  induction items generalizing env with
  | nil => rfl
  | cons v vs ih => exact bind_lift (h _) fun r => bind_lift (ih _) fun out => rfl

theorem Loop.find_quiet (p : Str) (env : Env) (items : List Value) : Loop.find lam p env items = lift (_root_.Loop.find lam' p env items) := by
  induction items generalizing env with
  | nil => rfl
  | cons v vs ih =>
    refine bind_lift (h _) fun r => ?_
    by_cases hr : isTrue r
    · simp only [hr, if_true]
    · simp only [hr, if_false]; exact ih _

theorem Loop.map_quiet (p : Str) (env : Env) (items : List Value) : Loop.map lam p env items = lift (_root_.Loop.map lam' p env items) := by
  induction items generalizing env with
  | nil => rfl
  | cons v vs ih => exact bind_lift (h _) fun r => bind_lift (ih _) fun out => rfl

theorem Loop.reduce_quiet (p q : Str) (env : Env) (acc : Value) (items : List Value) : Loop.reduce lam p q env acc items = lift (_root_.Loop.reduce lam' p q env acc items) := by
  induction items generalizing env acc with
  | nil => rfl
  | cons v vs ih => exact bind_lift (h _) fun r => ih _ _

theorem Loop.reduceAccFirst_quiet (env : Env) (acc : Value) (items : List Value) : Loop.reduceAccFirst lam env acc items = lift (_root_.Loop.reduceAccFirst lam' env acc items) := by
  induction items generalizing env acc with
  | nil => rfl
  | cons v vs ih => exact bind_lift (h _) fun r => ih _ _

theorem Loop.sumif_quiet (env : Env) (acc : F64) (items : List Value) : Loop.sumif lam env acc items = lift (_root_.Loop.sumif lam' env acc items) := by
  induction items generalizing env acc with
  | nil => rfl
  | cons v vs ih => exact bind_lift (h _) fun r => ih _ _

theorem Loop.avgif_quiet (env : Env) (acc : F64) (n : Nat) (items : List Value) : Loop.avgif lam env acc n items = lift (_root_.Loop.avgif lam' env acc n items) := by
  induction items generalizing env acc n with
  | nil => rfl
  | cons v vs ih =>
    refine bind_lift (h _) fun r => ?_
    by_cases hr : isTrue r && _root_.Loop.isAmount v
    · simp only [hr, if_true]; exact ih _ _ _
    · simp only [hr, if_false]; exact ih _ _ _

theorem Loop.countif_quiet (env : Env) (n : Nat) (items : List Value) : Loop.countif lam env n items = lift (_root_.Loop.countif lam' env n items) := by
  induction items generalizing env n with
  | nil => rfl
  | cons v vs ih => exact bind_lift (h _) fun r => ih _ _
end

/-- Members without effects. -/
def SameMember (reg : Registry) (m : Str × (Env → M W Value)) (m' : Str × Den) : Prop := m.1 = m'.1 ∧ ∀ env, m.2 env = lift (m'.2 (some reg) env)

theorem objectMembers_quiet (X : Ext) {as : List (Str × (Env → M W Value))} {bs : List (Str × Den)} (h : List.Forall₂ (SameMember reg) as bs) (env : Env) (ms : List (Str × Json)) :
    objectMembers X env ms as = lift (_root_.objectMembers X (some reg) env ms bs) := by
  induction h generalizing ms with
  | nil => rfl
  | cons h _ ih =>
    rename_i a b as bs _
    obtain ⟨k, d⟩ := a
    obtain ⟨k', d'⟩ := b
    obtain ⟨rfl, hd⟩ := h
    exact bind_lift (hd env) fun v => bind_lift rfl fun j => ih _

theorem elements_quiet {as : List (Operand W)} {bs : List Arg} (h : List.Forall₂ (Same reg) as bs) (env : Env) : elements env as = lift (_root_.elements (some reg) env bs) := by
  induction h with
  | nil => rfl
  | cons h _ ih => exact bind_lift (h.run env) fun v => bind_lift ih fun vs => rfl

theorem lastOf_quiet {as : List (Operand W)} {bs : List Arg} (h : List.Forall₂ (Same reg) as bs) (env : Env) (v : Value) : lastOf env v as = lift (_root_.lastOf (some reg) env v bs) := by
  induction h generalizing v with
  | nil => rfl
  | cons h _ ih => exact bind_lift (h.run env) fun v => ih v

theorem ternary_quiet {as : List (Operand W)} {bs : List Arg} (h : List.Forall₂ (Same reg) as bs) (env : Env) : ternary env as = lift (_root_.Legacy.ternary (some reg) env bs) := by
  match as, bs, h with
  | [], _, .nil => rfl
  | [_], _, .cons _ .nil => rfl
  | [_, _], _, .cons _ (.cons _ .nil) => rfl
  | _ :: _ :: _ :: _ :: _, _, .cons _ (.cons _ (.cons _ (.cons _ _))) => rfl
  | [_, _, _], _, .cons hc (.cons ha (.cons hb .nil)) =>
    refine bind_lift (hc.run env) fun v => ?_
    cases v.asBool with
    | none => rfl
    | some b => cases b
                · exact hb.run env
                · exact ha.run env

theorem plain_quiet {as : List (Operand W)} {bs : List Arg} (h : List.Forall₂ (Same reg) as bs) : as.map Operand.plain = bs := by
  induction h with
  | nil => rfl
  | cons h _ ih => rw [List.map_cons, ih, h.plain]

theorem plain_head {as : List (Operand W)} {bs : List Arg} (h : List.Forall₂ (Same reg) as bs) : as.head?.map Operand.plain = bs.head? := by
  rw [← List.head?_map, plain_quiet h]

theorem plain_one {as : List (Operand W)} {bs : List Arg} (h : List.Forall₂ (Same reg) as bs) : as[1]?.map Operand.plain = bs[1]? := by
  rw [← plain_quiet h, List.getElem?_map]

theorem Method.exec_quiet {as : List (Operand W)} {bs : List Arg} (h : List.Forall₂ (Same reg) as bs) (X : Ext) (env : Env) (n : Str) (p : Bool) (v : Value) :
    Method.exec X env n p v as = lift (_root_.Method.exec X (some reg) env n p v bs) := by
  unfold Method.exec _root_.Method.exec
  rw [plain_quiet h]
  cases p
  · simp only [Bool.false_eq_true, if_false]
    cases _root_.Method.conversion X (X.lower n) v with
    | some r => rfl
    | none =>
      cases v with
      | arr items =>
        dsimp only
        by_cases h1 : X.lower n = c!"filter"
        · simp only [h1, if_true]
          cases h with
          | nil => rfl
          | cons hl hr =>
            simp only [Method.filter, _root_.Method.filter]
            rw [plain_head hr]
            exact bind_lift (Loop.filter_quiet hl.run _ _ _) fun _ => rfl
        by_cases h2 : X.lower n = c!"map"
        · simp only [h1, h2, if_true, if_false]
          cases h with
          | nil => rfl
          | cons hl hr =>
            simp only [Method.map, _root_.Method.map]
            rw [plain_head hr]
            exact bind_lift (Loop.map_quiet hl.run _ _ _) fun _ => rfl
        by_cases h3 : X.lower n = c!"find"
        · simp only [h1, h2, h3, if_true, if_false]
          cases h with
          | nil => rfl
          | cons hl hr =>
            simp only [Method.find, _root_.Method.find]
            rw [plain_head hr]
            exact Loop.find_quiet hl.run _ _ _
        by_cases h4 : X.lower n = c!"reduce"
        · simp only [h1, h2, h3, h4, if_true, if_false]
          cases h with
          | nil => rfl
          | cons hl hr =>
            cases hr with
            | nil => rfl
            | cons hi hr =>
              simp only [Method.reduce, _root_.Method.reduce]
              rw [plain_head hr, plain_one hr]
              exact bind_lift (hi.run _) fun _ => Loop.reduce_quiet hl.run _ _ _ _ _
        · simp only [h1, h2, h3, h4, if_false]
      | _ => rfl
  · rfl

theorem Legacy.higherOrder_quiet {as : List (Operand W)} {bs : List Arg} (h : List.Forall₂ (Same reg) as bs) (env : Env) (n : Str) :
    (Legacy.higherOrder n : Option (Env → List (Operand W) → M W Value)).map (fun f => f env as) = (_root_.Legacy.higherOrder n).map fun f => lift (f (some reg) env bs) := by
  unfold Legacy.higherOrder _root_.Legacy.higherOrder
  split
  · refine congrArg some ?_
    cases h with
    | nil => rfl
    | cons ha h => cases h with
      | nil => rfl
      | cons hl h =>
        refine bind_lift (ha.run _) fun v => ?_
        cases v <;> first | rfl | exact bind_lift (Loop.filter_quiet hl.run _ _ _) fun _ => rfl
  split
  · refine congrArg some ?_
    cases h with
    | nil => rfl
    | cons ha h => cases h with
      | nil => rfl
      | cons hl h =>
        refine bind_lift (ha.run _) fun v => ?_
        cases v <;> first | rfl | exact Loop.find_quiet hl.run _ _ _
  split
  · refine congrArg some ?_
    cases h with
    | nil => rfl
    | cons ha h => cases h with
      | nil => rfl
      | cons hl h =>
        refine bind_lift (ha.run _) fun v => ?_
        cases v <;> first | rfl | exact bind_lift (Loop.map_quiet hl.run _ _ _) fun _ => rfl
  split
  · refine congrArg some ?_
    cases h with
    | nil => rfl
    | cons ha h => cases h with
      | nil => rfl
      | cons hl h => cases h with
        | nil => rfl
        | cons hi h =>
          refine bind_lift (ha.run _) fun v => bind_lift (hi.run _) fun acc => ?_
          cases v <;> first | rfl | exact Loop.reduceAccFirst_quiet hl.run _ _ _
  split
  · refine congrArg some ?_
    match as, bs, h with
    | [], _, .nil => rfl
    | [_], _, .cons _ .nil => rfl
    | _ :: _ :: _ :: _, _, .cons _ (.cons _ (.cons _ _)) => rfl
    | [_, _], _, .cons ha (.cons hl .nil) =>
      refine bind_lift (ha.run _) fun v => ?_
      cases v <;> first | rfl | exact bind_lift (Loop.sumif_quiet hl.run _ _ _) fun _ => rfl
  split
  · refine congrArg some ?_
    match as, bs, h with
    | [], _, .nil => rfl
    | [_], _, .cons _ .nil => rfl
    | _ :: _ :: _ :: _, _, .cons _ (.cons _ (.cons _ _)) => rfl
    | [_, _], _, .cons ha (.cons hl .nil) =>
      refine bind_lift (ha.run _) fun v => ?_
      cases v <;> first | rfl | exact bind_lift (Loop.avgif_quiet hl.run _ _ _ _) fun _ => rfl
  split
  · refine congrArg some ?_
    match as, bs, h with
    | [], _, .nil => rfl
    | [_], _, .cons _ .nil => rfl
    | _ :: _ :: _ :: _, _, .cons _ (.cons _ (.cons _ _)) => rfl
    | [_, _], _, .cons ha (.cons hl .nil) =>
      refine bind_lift (ha.run _) fun v => ?_
      cases v <;> first | rfl | exact bind_lift (Loop.countif_quiet hl.run _ _ _) fun _ => rfl
  · rfl

theorem Legacy.call_quiet (hq : Quiet g reg) {as : List (Operand W)} {bs : List Arg} (h : List.Forall₂ (Same reg) as bs) (X : Ext) (env : Env) (n : Str) :
    Legacy.call X g n as env = lift (_root_.Legacy.call X n bs (some reg) env) := by
  unfold Legacy.call _root_.Legacy.call
  by_cases h1 : n = c!"__TERNARY__"
  · simp only [h1, if_true]; exact ternary_quiet h env
  simp only [h1, if_false, has_quiet hq]
  by_cases h2 : reg.has X n
  · simp only [h2, if_true]
    exact bind_lift (evalArgs_quiet h env) fun vs => execute_quiet hq X n vs
  · simp only [h2, if_false, Bool.false_eq_true]
    have hh := Legacy.higherOrder_quiet h env n
    cases h3 : (Legacy.higherOrder n : Option (Env → List (Operand W) → M W Value)) <;> cases h4 : _root_.Legacy.higherOrder n <;> rw [h3, h4] at hh
    · exact bind_lift (evalArgs_quiet h env) fun vs => rfl
    · cases hh
    · cases hh
    · exact Option.some.inj hh

theorem Legacy.bound_quiet {o : Option (Env → M W Value)} {o' : Option Den} (h : match o, o' with | none, none => True | some d, some d' => ∀ env, d env = lift (d' (some reg) env) | _, _ => False)
    (env : Env) (len dflt : Int) (err : String) : Legacy.bound env len dflt err o = lift (_root_.Legacy.boundCustom (some reg) env len dflt err o') := by
  cases o <;> cases o' <;> simp only at h
  · rfl
  · refine bind_lift (h env) fun v => ?_
    cases v.asNumber <;> rfl

theorem optional_quiet {o : Option (Env → M W Value)} {o' : Option Den} (h : match o, o' with | none, none => True | some d, some d' => ∀ env, d env = lift (d' (some reg) env) | _, _ => False)
    (env : Env) : optional env o = lift (_root_.Legacy.optional (some reg) env o') := by
  cases o <;> cases o' <;> simp only at h
  · rfl
  · exact bind_lift (h env) fun v => rfl

mutual
theorem Legacy.eval_quiet (hq : Quiet g reg) (X : Ext) (e : Expr) (env : Env) : Legacy.eval X g e env = lift (_root_.Legacy.eval X e (some reg) env) := by
  cases e with
  | number _ => simp only [Legacy.eval, _root_.Legacy.eval]
  | strLit _ => simp only [Legacy.eval, _root_.Legacy.eval]
  | null => simp only [Legacy.eval, _root_.Legacy.eval]
  | spread _ => simp only [Legacy.eval, _root_.Legacy.eval]
  | var n => simp only [Legacy.eval, _root_.Legacy.eval]; cases env n <;> rfl
  | unary op e => simp only [Legacy.eval, _root_.Legacy.eval]; exact bind_lift (Legacy.eval_quiet hq X e env) fun _ => rfl
  | prop e n => simp only [Legacy.eval, _root_.Legacy.eval]; exact bind_lift (Legacy.eval_quiet hq X e env) fun _ => rfl
  | safeProp e n => simp only [Legacy.eval, _root_.Legacy.eval]; exact bind_lift (Legacy.eval_quiet hq X e env) fun _ => rfl
  | cast e t => simp only [Legacy.eval, _root_.Legacy.eval]; exact bind_lift (Legacy.eval_quiet hq X e env) fun _ => rfl
  | assign x e => simp only [Legacy.eval, _root_.Legacy.eval]; exact Legacy.eval_quiet hq X e env
  | binary a op b =>
    simp only [Legacy.eval, _root_.Legacy.eval]
    exact bind_lift (Legacy.eval_quiet hq X a env) fun _ => bind_lift (Legacy.eval_quiet hq X b env) fun _ => rfl
  | index a b =>
    simp only [Legacy.eval, _root_.Legacy.eval]
    exact bind_lift (Legacy.eval_quiet hq X a env) fun _ => bind_lift (Legacy.eval_quiet hq X b env) fun _ => rfl
  | call n es => simp only [Legacy.eval, _root_.Legacy.eval]; exact Legacy.call_quiet hq (Legacy.args_quiet hq X es) X env n
  | array es => simp only [Legacy.eval, _root_.Legacy.eval]; exact bind_lift (elements_quiet (Legacy.args_quiet hq X es) env) fun _ => rfl
  | seq es => simp only [Legacy.eval, _root_.Legacy.eval]; exact lastOf_quiet (Legacy.args_quiet hq X es) env .null
  | object ms => simp only [Legacy.eval, _root_.Legacy.eval]; exact bind_lift (objectMembers_quiet X (Legacy.members_quiet hq X ms) env []) fun _ => rfl
  | safeCall t n es =>
    simp only [Legacy.eval, _root_.Legacy.eval]
    refine bind_lift (Legacy.eval_quiet hq X t env) fun v => ?_
    cases v <;> first | rfl | exact Method.exec_quiet (Legacy.args_quiet hq X es) X env n false _
  | method t n es p =>
    simp only [Legacy.eval, _root_.Legacy.eval]
    exact bind_lift (Legacy.eval_quiet hq X t env) fun v => Method.exec_quiet (Legacy.args_quiet hq X es) X env n p _
  | slice t a b =>
    simp only [Legacy.eval, _root_.Legacy.eval]
    refine bind_lift (Legacy.eval_quiet hq X t env) fun v => ?_
    cases v <;> first | rfl | skip
    simp only [Legacy.slice, _root_.Legacy.sliceCustom]
    refine bind_lift (Legacy.bound_quiet (Legacy.opt_quiet hq X a) _ _ _ _) fun s => bind_lift (Legacy.bound_quiet (Legacy.opt_quiet hq X b) _ _ _ _) fun e => ?_
    by_cases hse : s ≤ e <;> simp only [hse, if_true, if_false] <;> rfl
theorem Legacy.args_quiet (hq : Quiet g reg) (X : Ext) (es : List Expr) : List.Forall₂ (Same reg) (Legacy.argsOf X g es) (_root_.Legacy.argsOf X es) := by
  cases es with
  | nil => simp only [Legacy.argsOf, _root_.Legacy.argsOf]; exact .nil
  | cons e es =>
    have hr := Legacy.eval_quiet hq X e
    have ht := Legacy.args_quiet hq X es
    cases e <;> simp only [Legacy.argsOf, _root_.Legacy.argsOf] <;> refine .cons ⟨?_, ?_, rfl⟩ ht <;> first | exact trivial | exact hr | exact fun _ => rfl | skip
    rename_i e
    exact Legacy.eval_quiet hq X e
theorem Legacy.members_quiet (hq : Quiet g reg) (X : Ext) (ms : List (Str × Expr)) : List.Forall₂ (SameMember reg) (Legacy.membersOf X g ms) (_root_.Legacy.membersOf X ms) := by
  cases ms with
  | nil => simp only [Legacy.membersOf, _root_.Legacy.membersOf]; exact .nil
  | cons m ms =>
    obtain ⟨k, e⟩ := m
    simp only [Legacy.membersOf, _root_.Legacy.membersOf]
    exact .cons ⟨rfl, Legacy.eval_quiet hq X e⟩ (Legacy.members_quiet hq X ms)
theorem Legacy.opt_quiet (hq : Quiet g reg) (X : Ext) (o : Option Expr) :
    match Legacy.optOf X g o, _root_.Legacy.optOf X o with | none, none => True | some d, some d' => ∀ env, d env = lift (d' (some reg) env) | _, _ => False := by
  cases o with
  | none => simp only [Legacy.optOf, _root_.Legacy.optOf]
  | some e => simp only [Legacy.optOf, _root_.Legacy.optOf]; exact Legacy.eval_quiet hq X e
end

theorem paramName_quiet {as : List (Operand W)} {bs : List Arg} (h : List.Forall₂ (Same reg) as bs) (env : Env) (d : Str) :
    paramName env d as.head? = lift (Eval.paramName (some reg) env d bs.head?) ∧ paramName env d as[1]? = lift (Eval.paramName (some reg) env d bs[1]?) := by
  have key : ∀ {a : Operand W} {b : Arg}, Same reg a b → paramName env d (some a) = lift (Eval.paramName (some reg) env d (some b)) := by
    intro a b h
    refine bind_lift (h.run env) fun v => ?_
    cases v <;> rfl
  match as, bs, h with
  | [], _, .nil => exact ⟨rfl, rfl⟩
  | [_], _, .cons h .nil => exact ⟨key h, rfl⟩
  | _ :: _ :: _, _, .cons h (.cons h' _) => exact ⟨key h, key h'⟩

theorem staticCriterion_quiet {a : Operand W} {b : Arg} (h : Same reg a b) (env : Env) : staticCriterion env a = lift (Eval.staticCriterion (some reg) env b) := by
  funext w
  unfold staticCriterion Eval.staticCriterion
  rw [h.run env]
  simp only [lift]
  cases b.run (some reg) env with
  | ok v => cases v <;> rfl
  | error f => cases f <;> rfl

theorem higherOrder_quiet {as : List (Operand W)} {bs : List Arg} (h : List.Forall₂ (Same reg) as bs) (X : Ext) (env : Env) (n : Str) :
    (higherOrder X n : Option (Env → List (Operand W) → M W Value)).map (fun f => f env as) = (Eval.higherOrder X n).map fun f => lift (f (some reg) env bs) := by
  unfold higherOrder Eval.higherOrder
  split
  · refine congrArg some ?_
    cases h with
    | nil => rfl
    | cons ha h => cases h with
      | nil => rfl
      | cons hl h =>
        refine bind_lift (ha.run _) fun v => bind_lift (paramName_quiet h env _).1 fun p => ?_
        rw [hl.plain]; cases v <;> rfl
  split
  · refine congrArg some ?_
    cases h with
    | nil => rfl
    | cons ha h => cases h with
      | nil => rfl
      | cons hl h =>
        refine bind_lift (ha.run _) fun v => bind_lift (paramName_quiet h env _).1 fun p => ?_
        rw [hl.plain]; cases v <;> rfl
  split
  · refine congrArg some ?_
    cases h with
    | nil => rfl
    | cons ha h => cases h with
      | nil => rfl
      | cons hl h =>
        refine bind_lift (ha.run _) fun v => bind_lift (paramName_quiet h env _).1 fun p => ?_
        rw [hl.plain]; cases v <;> rfl
  split
  · refine congrArg some ?_
    cases h with
    | nil => rfl
    | cons ha h => cases h with
      | nil => rfl
      | cons hl h => cases h with
        | nil => rfl
        | cons hi h =>
          refine bind_lift (ha.run _) fun v => bind_lift (hi.run _) fun acc => bind_lift (paramName_quiet h env _).1 fun p => bind_lift (paramName_quiet h env _).2 fun q => ?_
          rw [hl.plain]; cases v <;> rfl
  split
  · refine congrArg some ?_
    match as, bs, h with
    | [], _, .nil => rfl
    | [_], _, .cons _ .nil => rfl
    | _ :: _ :: _ :: _ :: _, _, .cons _ (.cons _ (.cons _ (.cons _ _))) => rfl
    | [_, _], _, .cons ha (.cons hl .nil) =>
      refine bind_lift (ha.run _) fun v => ?_
      simp only [pure_bind]
      refine bind_lift (staticCriterion_quiet hl env) fun c => ?_
      rw [hl.plain]
      cases c <;> cases v <;> rfl
    | [_, _, _], _, .cons ha (.cons hl (.cons hs .nil)) =>
      refine bind_lift (ha.run _) fun v => ?_
      simp only [bind_assoc, pure_bind]
      refine bind_lift (hs.run _) fun s => bind_lift (staticCriterion_quiet hl env) fun c => ?_
      cases c <;> rfl
  split
  · refine congrArg some ?_
    match as, bs, h with
    | [], _, .nil => rfl
    | [_], _, .cons _ .nil => rfl
    | _ :: _ :: _ :: _, _, .cons _ (.cons _ (.cons _ _)) => rfl
    | [_, _], _, .cons ha (.cons hl .nil) =>
      refine bind_lift (ha.run _) fun v => ?_
      rw [hl.plain]; cases v <;> rfl
  split
  · refine congrArg some ?_
    match as, bs, h with
    | [], _, .nil => rfl
    | [_], _, .cons _ .nil => rfl
    | _ :: _ :: _ :: _, _, .cons _ (.cons _ (.cons _ _)) => rfl
    | [_, _], _, .cons ha (.cons hl .nil) =>
      refine bind_lift (ha.run _) fun v => ?_
      rw [hl.plain]; cases v <;> rfl
  split
  · refine congrArg some ?_
    match as, bs, h with
    | [], _, .nil => rfl
    | [_], _, .cons _ .nil => rfl
    | _ :: _ :: _ :: _, _, .cons _ (.cons _ (.cons _ _)) => rfl
    | [_, _], _, .cons ha (.cons hl .nil) => exact bind_lift (ha.run _) fun v => bind_lift (hl.run _) fun p => rfl
  · rfl

theorem call_quiet (hq : Quiet g reg) {as : List (Operand W)} {bs : List Arg} (h : List.Forall₂ (Same reg) as bs) (X : Ext) (env : Env) (n : Str) :
    call X g n as env = lift (Eval.call X n bs (some reg) env) := by
  unfold call Eval.call
  by_cases h1 : n = c!"__TERNARY__"
  · simp only [h1, if_true]; exact ternary_quiet h env
  by_cases h5 : n = c!"__CONST_TRUE__"
  · subst h5; rfl
  by_cases h6 : n = c!"__CONST_FALSE__"
  · subst h6; rfl
  simp only [h1, h5, h6, if_false, has_quiet hq]
  by_cases h2 : reg.has X n
  · simp only [h2, if_true]
    exact bind_lift (evalArgs_quiet h env) fun vs => execute_quiet hq X n vs
  · simp only [h2, if_false, Bool.false_eq_true]
    have hh := higherOrder_quiet h X env n
    cases h3 : (higherOrder X n : Option (Env → List (Operand W) → M W Value)) <;> cases h4 : Eval.higherOrder X n <;> rw [h3, h4] at hh
    · exact bind_lift (evalArgs_quiet h env) fun vs => rfl
    · cases hh
    · cases hh
    · exact Option.some.inj hh

mutual
theorem eval_quiet (hq : Quiet g reg) (X : Ext) (e : Expr) (env : Env) : eval X g e env = lift (Eval.eval X e (some reg) env) := by
  cases e with
  | number _ => simp only [eval, Eval.eval]
  | strLit _ => simp only [eval, Eval.eval]
  | null => simp only [eval, Eval.eval]
  | spread _ => simp only [eval, Eval.eval]
  | var n => simp only [eval, Eval.eval]; cases env n <;> rfl
  | unary op e => simp only [eval, Eval.eval]; exact bind_lift (eval_quiet hq X e env) fun _ => rfl
  | prop e n => simp only [eval, Eval.eval]; exact bind_lift (eval_quiet hq X e env) fun _ => rfl
  | safeProp e n => simp only [eval, Eval.eval]; exact bind_lift (eval_quiet hq X e env) fun _ => rfl
  | cast e t => simp only [eval, Eval.eval]; exact bind_lift (eval_quiet hq X e env) fun _ => rfl
  | assign x e => simp only [eval, Eval.eval]; exact eval_quiet hq X e env
  | binary a op b =>
    simp only [eval, Eval.eval]
    exact bind_lift (eval_quiet hq X a env) fun _ => bind_lift (eval_quiet hq X b env) fun _ => rfl
  | index a b =>
    simp only [eval, Eval.eval]
    exact bind_lift (eval_quiet hq X a env) fun _ => bind_lift (eval_quiet hq X b env) fun _ => rfl
  | call n es => simp only [eval, Eval.eval]; exact call_quiet hq (args_quiet hq X es) X env n
  | array es => simp only [eval, Eval.eval]; exact bind_lift (elements_quiet (args_quiet hq X es) env) fun _ => rfl
  | seq es => simp only [eval, Eval.eval]; exact lastOf_quiet (args_quiet hq X es) env .null
  | object ms => simp only [eval, Eval.eval]; exact bind_lift (objectMembers_quiet X (members_quiet hq X ms) env []) fun _ => rfl
  | safeCall t n es =>
    simp only [eval, Eval.eval]
    refine bind_lift (eval_quiet hq X t env) fun v => ?_
    cases v <;> first | rfl | exact Method.exec_quiet (Legacy.args_quiet hq X es) X env n false _
  | method t n es p =>
    simp only [eval, Eval.eval]
    exact bind_lift (eval_quiet hq X t env) fun v => Method.exec_quiet (Legacy.args_quiet hq X es) X env n p _
  | slice t a b =>
    simp only [eval, Eval.eval]
    refine bind_lift (eval_quiet hq X t env) fun v => ?_
    cases v <;> first | rfl | exact bind_lift (optional_quiet (opt_quiet hq X a) _) fun s => bind_lift (optional_quiet (opt_quiet hq X b) _) fun e => rfl
theorem args_quiet (hq : Quiet g reg) (X : Ext) (es : List Expr) : List.Forall₂ (Same reg) (argsOf X g es) (Eval.argsOf X es) := by
  cases es with
  | nil => simp only [argsOf, Eval.argsOf]; exact .nil
  | cons e es =>
    have hr := eval_quiet hq X e
    have ht := args_quiet hq X es
    cases e <;> simp only [argsOf, Eval.argsOf] <;> refine .cons ⟨?_, ?_, rfl⟩ ht <;> first | exact trivial | exact hr | exact fun _ => rfl | skip
    rename_i e
    exact eval_quiet hq X e
theorem members_quiet (hq : Quiet g reg) (X : Ext) (ms : List (Str × Expr)) : List.Forall₂ (SameMember reg) (membersOf X g ms) (Eval.membersOf X ms) := by
  cases ms with
  | nil => simp only [membersOf, Eval.membersOf]; exact .nil
  | cons m ms =>
    obtain ⟨k, e⟩ := m
    simp only [membersOf, Eval.membersOf]
    exact .cons ⟨rfl, eval_quiet hq X e⟩ (members_quiet hq X ms)
theorem opt_quiet (hq : Quiet g reg) (X : Ext) (o : Option Expr) :
    match optOf X g o, Eval.optOf X o with | none, none => True | some d, some d' => ∀ env, d env = lift (d' (some reg) env) | _, _ => False := by
  cases o with
  | none => simp only [optOf, Eval.optOf]
  | some e => simp only [optOf, Eval.optOf]; exact eval_quiet hq X e
end

end Fx
