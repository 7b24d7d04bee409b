import Verif.Spec.Effects
import Mathlib.Data.List.Forall2
/-! Which calls of custom functions an evaluation can make: no others than those the expression names, and in the order of the expression. -/

namespace Fx

open Fx.Spec

variable {W : Type} {calls : W → List (Str × List Value)}

/-- Whatever the computation calls is in `S`. -/
def Within (calls : W → List (Str × List Value)) (S : List Str) {α : Type} (m : M W α) : Prop :=
  ∀ w, ∃ D, calls (m w).1 = calls w ++ D ∧ ∀ d ∈ D, d.1 ∈ S

theorem within_lift {S : List Str} {α : Type} (r : Res α) : Within calls S (lift r) := fun w => ⟨[], (List.append_nil _).symm, by simp⟩

theorem within_bind {S : List Str} {α β : Type} {m : M W α} {f : α → M W β} (hm : Within calls S m) (hf : ∀ v, Within calls S (f v)) : Within calls S (m >>= f) := by
  intro w
  obtain ⟨D, h1, h2⟩ := hm w
  show ∃ D, calls (match m w with | (w, .ok v) => f v w | (w, .error e) => (w, .error e)).1 = _ ∧ _
  revert h1
  rcases m w with ⟨w', r⟩
  intro h1
  cases r with
  | error e => exact ⟨D, h1, h2⟩
  | ok v =>
    obtain ⟨D', h3, h4⟩ := hf v w'
    refine ⟨D ++ D', ?_, ?_⟩
    · dsimp only at h1 ⊢
      rw [h3, h1, List.append_assoc]
    · intro d hd
      rcases List.mem_append.1 hd with hd | hd
      · exact h2 d hd
      · exact h4 d hd

/-- An operand that calls nothing but `S`. -/
structure WithinOp (calls : W → List (Str × List Value)) (S : List Str) (a : Operand W) : Prop where
  run : ∀ env, Within calls S (a.run env)
  spread : ∀ d, a.spread = some d → ∀ env, Within calls S (d env)

section
variable {S : List Str} {g : Reg W}

theorem within_execute (hg : Recorded g calls) (X : Ext) (n : Str) (hn : g.has X n → X.upper n ∈ S) (vs : List Value) : Within calls S (g.execute X n vs) := by
  unfold Reg.execute
  cases hf : g (X.upper n) with
  | none => exact within_lift _
  | some f =>
    have hr : Within calls S (f.run vs) := fun w => ⟨[(X.upper n, vs)], hg _ _ hf vs w, by
      intro d hd
      rw [List.mem_singleton.1 hd]
      exact hn (by simp [Reg.has, hf])⟩
    dsimp only
    split
    · exact within_lift _
    · cases f.maxArgs with
      | none => exact hr
      | some m =>
        dsimp only
        split
        · exact within_lift _
        · exact hr

theorem within_evalArgs {as : List (Operand W)} (h : ∀ a ∈ as, WithinOp calls S a) (env : Env) : Within calls S (evalArgs env as) := by
  induction as with
  | nil => exact within_lift _
  | cons a as ih =>
    have ih := ih fun a ha => h a (List.mem_cons_of_mem _ ha)
    have ha := h a List.mem_cons_self
    unfold evalArgs
    cases hs : a.spread with
    | none => exact within_bind (ha.run env) fun _ => within_bind ih fun _ => within_lift (.ok _)
    | some d =>
      refine within_bind (ha.spread d hs env) fun v => ?_
      cases v <;> first | exact within_lift _ | exact within_bind ih fun _ => within_lift (.ok _)

theorem within_elements {as : List (Operand W)} (h : ∀ a ∈ as, WithinOp calls S a) (env : Env) : Within calls S (elements env as) := by
  induction as with
  | nil => exact within_lift _
  | cons a as ih => exact within_bind ((h a List.mem_cons_self).run env) fun _ => within_bind (ih fun a ha => h a (List.mem_cons_of_mem _ ha)) fun _ => within_lift (.ok _)

theorem within_lastOf {as : List (Operand W)} (h : ∀ a ∈ as, WithinOp calls S a) (env : Env) (v : Value) : Within calls S (lastOf env v as) := by
  induction as generalizing v with
  | nil => exact within_lift _
  | cons a as ih => exact within_bind ((h a List.mem_cons_self).run env) fun v => ih (fun a ha => h a (List.mem_cons_of_mem _ ha)) v

theorem within_members (X : Ext) {ms : List (Str × (Env → M W Value))} (h : ∀ m ∈ ms, ∀ env, Within calls S (m.2 env)) (env : Env) (out : List (Str × Json)) :
    Within calls S (objectMembers X env out ms) := by
  induction ms generalizing out with
  | nil => exact within_lift _
  | cons m ms ih =>
    obtain ⟨k, d⟩ := m
    exact within_bind (h _ List.mem_cons_self env) fun v => within_bind (within_lift _) fun j => ih (fun m hm => h m (List.mem_cons_of_mem _ hm)) _

theorem within_ternary {as : List (Operand W)} (h : ∀ a ∈ as, WithinOp calls S a) (env : Env) : Within calls S (ternary env as) := by
  unfold ternary
  split
  · rename_i c a b
    refine within_bind ((h c (by simp)).run env) fun v => ?_
    cases v.asBool with
    | none => exact within_lift _
    | some cond => cases cond
                   · exact (h b (by simp)).run env
                   · exact (h a (by simp)).run env
  · exact within_lift _

theorem within_optional {o : Option (Env → M W Value)} (h : ∀ d, o = some d → ∀ env, Within calls S (d env)) (env : Env) : Within calls S (optional env o) := by
  cases o with
  | none => exact within_lift _
  | some d => exact within_bind (h d rfl env) fun v => within_lift (.ok _)

section
variable {lam : Env → M W Value} (h : ∀ env, Within calls S (lam env))
include h

theorem within_filter (p : Str) (env : Env) (items : List Value) : Within calls S (Loop.filter lam p env items) := by
  induction items generalizing env with
  | nil => exact within_lift _
  | cons v vs ih => exact within_bind (h _) fun _ => within_bind (ih _) fun _ => within_lift (.ok _)

theorem within_map (p : Str) (env : Env) (items : List Value) : Within calls S (Loop.map lam p env items) := by
  induction items generalizing env with
  | nil => exact within_lift _
  | cons v vs ih => exact within_bind (h _) fun _ => within_bind (ih _) fun _ => within_lift (.ok _)

theorem within_find (p : Str) (env : Env) (items : List Value) : Within calls S (Loop.find lam p env items) := by
  induction items generalizing env with
  | nil => exact within_lift _
  | cons v vs ih =>
    refine within_bind (h _) fun r => ?_
    split
    · exact within_lift _
    · exact ih _

theorem within_reduce (p q : Str) (env : Env) (acc : Value) (items : List Value) : Within calls S (Loop.reduce lam p q env acc items) := by
  induction items generalizing env acc with
  | nil => exact within_lift _
  | cons v vs ih => exact within_bind (h _) fun _ => ih _ _

theorem within_reduceAccFirst (env : Env) (acc : Value) (items : List Value) : Within calls S (Loop.reduceAccFirst lam env acc items) := by
  induction items generalizing env acc with
  | nil => exact within_lift _
  | cons v vs ih => exact within_bind (h _) fun _ => ih _ _

theorem within_sumif (env : Env) (acc : F64) (items : List Value) : Within calls S (Loop.sumif lam env acc items) := by
  induction items generalizing env acc with
  | nil => exact within_lift _
  | cons v vs ih => exact within_bind (h _) fun _ => ih _ _

theorem within_avgif (env : Env) (acc : F64) (n : Nat) (items : List Value) : Within calls S (Loop.avgif lam env acc n items) := by
  induction items generalizing env acc n with
  | nil => exact within_lift _
  | cons v vs ih =>
    refine within_bind (h _) fun r => ?_
    split
    · exact ih _ _ _
    · exact ih _ _ _

theorem within_countif (env : Env) (n : Nat) (items : List Value) : Within calls S (Loop.countif lam env n items) := by
  induction items generalizing env n with
  | nil => exact within_lift _
  | cons v vs ih => exact within_bind (h _) fun _ => ih _ _
end

theorem within_method (X : Ext) {as : List (Operand W)} (h : ∀ a ∈ as, WithinOp calls S a) (env : Env) (n : Str) (p : Bool) (v : Value) : Within calls S (Method.exec X env n p v as) := by
  unfold Method.exec
  split
  · exact within_lift _
  · dsimp only
    split
    · exact within_lift _
    · split
      · exact within_lift _
      · split
        · unfold Method.filter
          split
          · exact within_lift _
          · exact within_bind (within_filter (h _ List.mem_cons_self).run _ _ _) fun _ => within_lift (.ok _)
        split
        · unfold Method.map
          split
          · exact within_lift _
          · exact within_bind (within_map (h _ List.mem_cons_self).run _ _ _) fun _ => within_lift (.ok _)
        split
        · unfold Method.find
          split
          · exact within_lift _
          · exact within_find (h _ List.mem_cons_self).run _ _ _
        split
        · unfold Method.reduce
          split
          · exact within_bind ((h _ (by simp)).run _) fun _ => within_reduce (h _ List.mem_cons_self).run _ _ _ _ _
          · exact within_lift _
        · exact within_lift _
      · exact within_lift _
      · exact within_lift _
      · exact within_lift _

theorem within_legacyCall (hg : Recorded g calls) (X : Ext) {as : List (Operand W)} (h : ∀ a ∈ as, WithinOp calls S a) (n : Str) (hn : g.has X n → X.upper n ∈ S) (env : Env) :
    Within calls S (Legacy.call X g n as env) := by
  unfold Legacy.call
  split
  · exact within_ternary h env
  split
  · exact within_bind (within_evalArgs h env) fun vs => within_execute hg X n hn vs
  · unfold Legacy.higherOrder
    split
    · rename_i f hf
      split at hf
      · cases hf
        unfold Legacy.filter
        split
        · refine within_bind ((h _ (by simp)).run _) fun v => ?_
          cases v <;> first | exact within_lift _ | exact within_bind (within_filter (h _ (by simp)).run _ _ _) fun _ => within_lift (.ok _)
        · exact within_lift _
      split at hf
      · cases hf
        unfold Legacy.find
        split
        · refine within_bind ((h _ (by simp)).run _) fun v => ?_
          cases v <;> first | exact within_lift _ | exact within_find (h _ (by simp)).run _ _ _
        · exact within_lift _
      split at hf
      · cases hf
        unfold Legacy.map
        split
        · refine within_bind ((h _ (by simp)).run _) fun v => ?_
          cases v <;> first | exact within_lift _ | exact within_bind (within_map (h _ (by simp)).run _ _ _) fun _ => within_lift (.ok _)
        · exact within_lift _
      split at hf
      · cases hf
        unfold Legacy.reduce
        split
        · refine within_bind ((h _ (by simp)).run _) fun v => within_bind ((h _ (by simp)).run _) fun acc => ?_
          cases v <;> first | exact within_lift _ | exact within_reduceAccFirst (h _ (by simp)).run _ _ _
        · exact within_lift _
      split at hf
      · cases hf
        unfold Legacy.sumif
        split
        · refine within_bind ((h _ (by simp)).run _) fun v => ?_
          cases v <;> first | exact within_lift _ | exact within_bind (within_sumif (h _ (by simp)).run _ _ _) fun _ => within_lift (.ok _)
        · exact within_lift _
      split at hf
      · cases hf
        unfold Legacy.avgif
        split
        · refine within_bind ((h _ (by simp)).run _) fun v => ?_
          cases v <;> first | exact within_lift _ | exact within_bind (within_avgif (h _ (by simp)).run _ _ _ _) fun _ => within_lift (.ok _)
        · exact within_lift _
      split at hf
      · cases hf
        unfold Legacy.countif
        split
        · refine within_bind ((h _ (by simp)).run _) fun v => ?_
          cases v <;> first | exact within_lift _ | exact within_bind (within_countif (h _ (by simp)).run _ _ _) fun _ => within_lift (.ok _)
        · exact within_lift _
      · cases hf
    · exact within_bind (within_evalArgs h env) fun vs => within_lift _

theorem within_bound {o : Option (Env → M W Value)} (h : ∀ d, o = some d → ∀ env, Within calls S (d env)) (env : Env) (len dflt : Int) (err : String) :
    Within calls S (Legacy.bound env len dflt err o) := by
  cases o with
  | none => exact within_lift _
  | some d =>
    refine within_bind (h d rfl env) fun v => ?_
    cases v.asNumber with
    | none => exact within_lift _
    | some n => exact within_lift (.ok _)

private theorem left {A B : List Str} (h : ∀ n ∈ A ++ B, n ∈ S) : ∀ n ∈ A, n ∈ S := fun n hn => h n (List.mem_append_left _ hn)
private theorem right {A B : List Str} (h : ∀ n ∈ A ++ B, n ∈ S) : ∀ n ∈ B, n ∈ S := fun n hn => h n (List.mem_append_right _ hn)

mutual
theorem Legacy.eval_within (hg : Recorded g calls) (X : Ext) (e : Expr) (hS : ∀ n ∈ mentions X g e, n ∈ S) (env : Env) : Within calls S (Legacy.eval X g e env) := by
  cases e with
  | number _ => simp only [Legacy.eval]; exact within_lift _
  | strLit _ => simp only [Legacy.eval]; exact within_lift _
  | null => simp only [Legacy.eval]; exact within_lift _
  | spread _ => simp only [Legacy.eval]; exact within_lift _
  | var n => simp only [Legacy.eval]; cases env n <;> exact within_lift _
  | unary op e => simp only [Legacy.eval]; simp only [mentions] at hS; exact within_bind (Legacy.eval_within hg X e hS env) fun _ => within_lift _
  | prop e n => simp only [Legacy.eval]; simp only [mentions] at hS; exact within_bind (Legacy.eval_within hg X e hS env) fun _ => within_lift _
  | safeProp e n => simp only [Legacy.eval]; simp only [mentions] at hS; exact within_bind (Legacy.eval_within hg X e hS env) fun _ => within_lift _
  | cast e t => simp only [Legacy.eval]; simp only [mentions] at hS; exact within_bind (Legacy.eval_within hg X e hS env) fun _ => within_lift _
  | assign x e => simp only [Legacy.eval]; simp only [mentions] at hS; exact Legacy.eval_within hg X e hS env
  | binary a op b =>
    simp only [Legacy.eval]; simp only [mentions] at hS
    exact within_bind (Legacy.eval_within hg X a (left hS) env) fun _ => within_bind (Legacy.eval_within hg X b (right hS) env) fun _ => within_lift _
  | index a b =>
    simp only [Legacy.eval]; simp only [mentions] at hS
    exact within_bind (Legacy.eval_within hg X a (left hS) env) fun _ => within_bind (Legacy.eval_within hg X b (right hS) env) fun _ => within_lift _
  | call n es =>
    simp only [Legacy.eval]; simp only [mentions] at hS
    exact within_legacyCall hg X (Legacy.args_within hg X es (left hS)) n (fun hn => right hS _ (by simp [hn])) env
  | array es => simp only [Legacy.eval]; simp only [mentions] at hS; exact within_bind (within_elements (Legacy.args_within hg X es hS) env) fun _ => within_lift (.ok _)
  | seq es => simp only [Legacy.eval]; simp only [mentions] at hS; exact within_lastOf (Legacy.args_within hg X es hS) env .null
  | object ms => simp only [Legacy.eval]; simp only [mentions] at hS; exact within_bind (within_members X (Legacy.members_within hg X ms hS) env []) fun _ => within_lift (.ok _)
  | safeCall t n es =>
    simp only [Legacy.eval]; simp only [mentions] at hS
    refine within_bind (Legacy.eval_within hg X t (left hS) env) fun v => ?_
    cases v <;> first | exact within_lift (.ok _) | exact within_method X (Legacy.args_within hg X es (right hS)) env n false _
  | method t n es p =>
    simp only [Legacy.eval]; simp only [mentions] at hS
    exact within_bind (Legacy.eval_within hg X t (left hS) env) fun v => within_method X (Legacy.args_within hg X es (right hS)) env n p _
  | slice t a b =>
    simp only [Legacy.eval]; simp only [mentions] at hS
    refine within_bind (Legacy.eval_within hg X t (left hS) env) fun v => ?_
    cases v <;> first | exact within_lift _ | exact within_bind (within_bound (Legacy.opt_within hg X a (left (right hS))) _ _ _ _) fun s => within_bind (within_bound (Legacy.opt_within hg X b (right (right hS))) _ _ _ _) fun e => within_lift _
theorem Legacy.args_within (hg : Recorded g calls) (X : Ext) (es : List Expr) (hS : ∀ n ∈ mentionsAll X g es, n ∈ S) : ∀ a ∈ Legacy.argsOf X g es, WithinOp calls S a := by
  cases es with
  | nil => simp only [Legacy.argsOf]; intro a ha; cases ha
  | cons e es =>
    simp only [mentionsAll] at hS
    have hr := Legacy.eval_within hg X e (left hS)
    have ht := Legacy.args_within hg X es (right hS)
    cases e <;> simp only [Legacy.argsOf] <;> refine List.forall_mem_cons.2 ⟨⟨?_, ?_⟩, ht⟩ <;>
      first | exact hr | exact fun _ => within_lift _ | (intro d hd; cases hd; done) | skip
    rename_i e
    simp only [mentions] at hS
    intro d hd
    cases hd
    exact Legacy.eval_within hg X e (left hS)
theorem Legacy.members_within (hg : Recorded g calls) (X : Ext) (ms : List (Str × Expr)) (hS : ∀ n ∈ mentionsIn X g ms, n ∈ S) : ∀ m ∈ Legacy.membersOf X g ms, ∀ env, Within calls S (m.2 env) := by
  cases ms with
  | nil => simp only [Legacy.membersOf]; intro a ha; cases ha
  | cons m ms =>
    obtain ⟨k, e⟩ := m
    simp only [mentionsIn] at hS
    simp only [Legacy.membersOf]
    exact List.forall_mem_cons.2 ⟨Legacy.eval_within hg X e (left hS), Legacy.members_within hg X ms (right hS)⟩
theorem Legacy.opt_within (hg : Recorded g calls) (X : Ext) (o : Option Expr) (hS : ∀ n ∈ mentionsOpt X g o, n ∈ S) : ∀ d, Legacy.optOf X g o = some d → ∀ env, Within calls S (d env) := by
  cases o with
  | none => simp only [Legacy.optOf]; intro d hd; cases hd
  | some e => simp only [Legacy.optOf]; simp only [mentionsOpt] at hS; intro d hd; cases hd; exact Legacy.eval_within hg X e hS
end

theorem within_paramName {o : Option (Operand W)} (h : ∀ a, o = some a → WithinOp calls S a) (env : Env) (d : Str) : Within calls S (paramName env d o) := by
  cases o with
  | none => exact within_lift _
  | some a =>
    refine within_bind ((h a rfl).run env) fun v => ?_
    cases v <;> exact within_lift _

theorem within_staticCriterion {a : Operand W} (h : WithinOp calls S a) (env : Env) : Within calls S (staticCriterion env a) := by
  intro w
  have := h.run env w
  unfold staticCriterion
  revert this
  rcases a.run env w with ⟨w', r⟩
  intro this
  rcases r with f | v
  · cases f <;> exact this
  · cases v <;> exact this

theorem within_call (hg : Recorded g calls) (X : Ext) {as : List (Operand W)} (h : ∀ a ∈ as, WithinOp calls S a) (n : Str) (hn : g.has X n → X.upper n ∈ S) (env : Env) :
    Within calls S (call X g n as env) := by
  unfold call
  split
  · exact within_ternary h env
  split
  · exact within_lift _
  split
  · exact within_lift _
  split
  · exact within_bind (within_evalArgs h env) fun vs => within_execute hg X n hn vs
  · unfold higherOrder
    split
    · rename_i f hf
      split at hf
      · cases hf
        unfold filter
        split
        · exact within_bind ((h _ (by simp)).run _) fun v => within_bind (within_paramName (fun a ha => h a (List.mem_cons_of_mem _ (List.mem_cons_of_mem _ (List.mem_of_mem_head? ha)))) _ _) fun p => within_lift _
        · exact within_lift _
      split at hf
      · cases hf
        unfold find
        split
        · exact within_bind ((h _ (by simp)).run _) fun v => within_bind (within_paramName (fun a ha => h a (List.mem_cons_of_mem _ (List.mem_cons_of_mem _ (List.mem_of_mem_head? ha)))) _ _) fun p => within_lift _
        · exact within_lift _
      split at hf
      · cases hf
        unfold map
        split
        · exact within_bind ((h _ (by simp)).run _) fun v => within_bind (within_paramName (fun a ha => h a (List.mem_cons_of_mem _ (List.mem_cons_of_mem _ (List.mem_of_mem_head? ha)))) _ _) fun p => within_lift _
        · exact within_lift _
      split at hf
      · cases hf
        unfold reduce
        split
        · exact within_bind ((h _ (by simp)).run _) fun v => within_bind ((h _ (by simp)).run _) fun acc =>
            within_bind (within_paramName (fun a ha => h a (List.mem_cons_of_mem _ (List.mem_cons_of_mem _ (List.mem_cons_of_mem _ (List.mem_of_mem_head? ha))))) _ _) fun p =>
            within_bind (within_paramName (fun a ha => h a (List.mem_cons_of_mem _ (List.mem_cons_of_mem _ (List.mem_cons_of_mem _ (List.mem_of_getElem? ha))))) _ _) fun q => within_lift _
        · exact within_lift _
      split at hf
      · cases hf
        unfold sumif
        split
        · exact within_bind ((h _ (by simp)).run _) fun v => within_bind (within_staticCriterion (h _ (by simp)) _) fun c => within_lift _
        · exact within_bind ((h _ (by simp)).run _) fun v => within_bind ((h _ (by simp)).run _) fun s => within_bind (within_staticCriterion (h _ (by simp)) _) fun c => within_lift _
        · exact within_lift _
      split at hf
      · cases hf
        unfold avgif
        split
        · exact within_bind ((h _ (by simp)).run _) fun v => within_lift _
        · exact within_lift _
      split at hf
      · cases hf
        unfold countif
        split
        · exact within_bind ((h _ (by simp)).run _) fun v => within_lift _
        · exact within_lift _
      split at hf
      · cases hf
        unfold jq
        split
        · exact within_bind ((h _ (by simp)).run _) fun v => within_bind ((h _ (by simp)).run _) fun p => within_lift _
        · exact within_lift _
      · cases hf
    · exact within_bind (within_evalArgs h env) fun vs => within_lift _

mutual
theorem eval_within (hg : Recorded g calls) (X : Ext) (e : Expr) (hS : ∀ n ∈ mentions X g e, n ∈ S) (env : Env) : Within calls S (eval X g e env) := by
  cases e with
  | number _ => simp only [eval]; exact within_lift _
  | strLit _ => simp only [eval]; exact within_lift _
  | null => simp only [eval]; exact within_lift _
  | spread _ => simp only [eval]; exact within_lift _
  | var n => simp only [eval]; cases env n <;> exact within_lift _
  | unary op e => simp only [eval]; simp only [mentions] at hS; exact within_bind (eval_within hg X e hS env) fun _ => within_lift _
  | prop e n => simp only [eval]; simp only [mentions] at hS; exact within_bind (eval_within hg X e hS env) fun _ => within_lift _
  | safeProp e n => simp only [eval]; simp only [mentions] at hS; exact within_bind (eval_within hg X e hS env) fun _ => within_lift _
  | cast e t => simp only [eval]; simp only [mentions] at hS; exact within_bind (eval_within hg X e hS env) fun _ => within_lift _
  | assign x e => simp only [eval]; simp only [mentions] at hS; exact eval_within hg X e hS env
  | binary a op b =>
    simp only [eval]; simp only [mentions] at hS
    exact within_bind (eval_within hg X a (left hS) env) fun _ => within_bind (eval_within hg X b (right hS) env) fun _ => within_lift _
  | index a b =>
    simp only [eval]; simp only [mentions] at hS
    exact within_bind (eval_within hg X a (left hS) env) fun _ => within_bind (eval_within hg X b (right hS) env) fun _ => within_lift _
  | call n es =>
    simp only [eval]; simp only [mentions] at hS
    exact within_call hg X (args_within hg X es (left hS)) n (fun hn => right hS _ (by simp [hn])) env
  | array es => simp only [eval]; simp only [mentions] at hS; exact within_bind (within_elements (args_within hg X es hS) env) fun _ => within_lift (.ok _)
  | seq es => simp only [eval]; simp only [mentions] at hS; exact within_lastOf (args_within hg X es hS) env .null
  | object ms => simp only [eval]; simp only [mentions] at hS; exact within_bind (within_members X (members_within hg X ms hS) env []) fun _ => within_lift (.ok _)
  | safeCall t n es =>
    simp only [eval]; simp only [mentions] at hS
    refine within_bind (eval_within hg X t (left hS) env) fun v => ?_
    cases v <;> first | exact within_lift (.ok _) | exact within_method X (Legacy.args_within hg X es (right hS)) env n false _
  | method t n es p =>
    simp only [eval]; simp only [mentions] at hS
    exact within_bind (eval_within hg X t (left hS) env) fun v => within_method X (Legacy.args_within hg X es (right hS)) env n p _
  | slice t a b =>
    simp only [eval]; simp only [mentions] at hS
    refine within_bind (eval_within hg X t (left hS) env) fun v => ?_
    cases v <;> first | exact within_lift _ | exact within_bind (within_optional (opt_within hg X a (left (right hS))) _) fun s => within_bind (within_optional (opt_within hg X b (right (right hS))) _) fun e => within_lift _
theorem args_within (hg : Recorded g calls) (X : Ext) (es : List Expr) (hS : ∀ n ∈ mentionsAll X g es, n ∈ S) : ∀ a ∈ argsOf X g es, WithinOp calls S a := by
  cases es with
  | nil => simp only [argsOf]; intro a ha; cases ha
  | cons e es =>
    simp only [mentionsAll] at hS
    have hr := eval_within hg X e (left hS)
    have ht := args_within hg X es (right hS)
    cases e <;> simp only [argsOf] <;> refine List.forall_mem_cons.2 ⟨⟨?_, ?_⟩, ht⟩ <;>
      first | exact hr | exact fun _ => within_lift _ | (intro d hd; cases hd; done) | skip
    rename_i e
    simp only [mentions] at hS
    intro d hd
    cases hd
    exact eval_within hg X e (left hS)
theorem members_within (hg : Recorded g calls) (X : Ext) (ms : List (Str × Expr)) (hS : ∀ n ∈ mentionsIn X g ms, n ∈ S) : ∀ m ∈ membersOf X g ms, ∀ env, Within calls S (m.2 env) := by
  cases ms with
  | nil => simp only [membersOf]; intro a ha; cases ha
  | cons m ms =>
    obtain ⟨k, e⟩ := m
    simp only [mentionsIn] at hS
    simp only [membersOf]
    exact List.forall_mem_cons.2 ⟨eval_within hg X e (left hS), members_within hg X ms (right hS)⟩
theorem opt_within (hg : Recorded g calls) (X : Ext) (o : Option Expr) (hS : ∀ n ∈ mentionsOpt X g o, n ∈ S) : ∀ d, optOf X g o = some d → ∀ env, Within calls S (d env) := by
  cases o with
  | none => simp only [optOf]; intro d hd; cases hd
  | some e => simp only [optOf]; simp only [mentionsOpt] at hS; intro d hd; cases hd; exact eval_within hg X e hS
end
end

end Fx
