import Verif.Props.Independence
import Verif.Model.Lib
/-! C72: registering a function changes only the expressions that call it. -/

open Lib Spec

namespace Spec

/-- The function names an expression calls, letter case ignored, as the registry does. -/
def called (X : Ext) (e : Expr) : List Str := (calls e).map X.upper

end Spec

theorem AlikeRuns.registries {X : Ext} {ns : List Str} : AlikeRuns X X (fun n => X.upper n ∈ ns)
    (fun r r' => (r = none ∧ r' = none) ∨ ∃ g g' : Registry, r = some g ∧ r' = some g' ∧ ∀ n ∈ ns, g n = g' n) :=
  ⟨SameWorld.refl X, fun _ _ => ⟨fun _ => rfl, fun _ => rfl⟩, .inl ⟨rfl, rfl⟩,
    by rintro r r' (⟨rfl, rfl⟩ | ⟨g, g', rfl, rfl, _⟩) <;> rfl,
    by
      rintro g g' n (⟨h, _⟩ | ⟨_, _, h1, h2, h⟩) hn
      · cases h
      · cases h1; cases h2; exact h _ hn⟩

/-- C72: with two registries that agree on the functions an expression calls, evaluation gives the same value or the same error. -/
theorem C72_coincidence (X : Ext) (e : Expr) (reg reg' : Registry) (h : ∀ n ∈ called X e, reg n = reg' n) (env : Env) :
    evalCustom X reg e env = evalCustom X reg' e env :=
  eval_sim (E := sameEnv) (AlikeRuns.registries (ns := called X e)) e (fun _ _ _ _ he => by rw [show _ = _ from he])
    (fun n hn => by simp only [called, List.mem_map]; exact ⟨n, hn, rfl⟩) (.inr ⟨reg, reg', rfl, rfl, h⟩) env env rfl

/-- C72: registering a function, new or in place of an older one, does not change the result of an expression that does not call it. -/
theorem C72_register (X : Ext) (reg reg' : Registry) (f : CustomFn) (hf : reg.register X f = .ok reg') (input : Str) (e : Expr)
    (hp : parse input = .ok e) (h : X.upper f.name ∉ called X e) (env : Env) :
    evaluateWithCustom X reg' input env = evaluateWithCustom X reg input env := by
  unfold evaluateWithCustom
  rw [hp]
  refine C72_coincidence X e reg' reg (fun n hn => ?_) env
  unfold Registry.register at hf
  simp only at hf
  split at hf
  · cases hf
  split at hf
  · cases hf
  · cases hf
    have : n ≠ X.upper f.name := fun hne => h (hne ▸ hn)
    simp [this]

/-- C72: nor does removing one. -/
theorem C72_unregister (X : Ext) (reg : Registry) (name : Str) (input : Str) (e : Expr) (hp : parse input = .ok e)
    (h : X.upper name ∉ called X e) (env : Env) :
    evaluateWithCustom X (reg.unregister X name).1 input env = evaluateWithCustom X reg input env := by
  unfold evaluateWithCustom
  rw [hp]
  refine C72_coincidence X e _ reg (fun n hn => ?_) env
  have : n ≠ X.upper name := fun hne => h (hne ▸ hn)
  simp [Registry.unregister, this]

/-- An expression that calls functions, and one it does not call. -/
example (X : Ext) : ∃ e, parse c!"sum(:a, twice(:b))" = .ok e ∧ called X e = [c!"SUM", c!"TWICE"] ∧ X.upper c!"double" ∉ called X e := by
  refine ⟨.call c!"SUM" [.var c!"a", .call c!"TWICE" [.var c!"b"]], by kernel_rfl, by kernel_rfl, ?_⟩
  rw [show called X (.call c!"SUM" [.var c!"a", .call c!"TWICE" [.var c!"b"]]) = [c!"SUM", c!"TWICE"] by kernel_rfl,
    show X.upper c!"double" = c!"DOUBLE" by kernel_rfl]
  decide +kernel

/-- The exclusion is needed: a registered function replaces the builtin of that name. -/
theorem C72_called_changes (X : Ext) : ∃ (f : CustomFn) (reg' : Registry), Registry.empty.register X f = .ok reg' ∧
    evaluateWithCustom X Registry.empty c!"ABS(3)" Env.empty = .ok (.num (.fin 3)) ∧
    evaluateWithCustom X reg' c!"ABS(3)" Env.empty = .ok (.num (.fin 7)) :=
  ⟨⟨c!"abs", 1, some 1, fun _ => .ok (.num (.fin 7))⟩, fun n => if n = c!"ABS" then some ⟨c!"abs", 1, some 1, fun _ => .ok (.num (.fin 7))⟩ else none,
    by kernel_rfl, by kernel_rfl, by kernel_rfl⟩
