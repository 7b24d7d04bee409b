import Verif.Props.Replace
import Verif.Props.Laws
/-! C102 for lambdas: a part of a lambda that does not depend on the element can be named before the loop. -/

open Lib Spec

namespace Hoist

theorem find_congr {f g : Env → Res Value} {p : Str} {env : Env} (h : ∀ v, f (env.insert p v) = g (env.insert p v)) (items : List Value) :
    Loop.find f p env items = Loop.find g p env items := by
  have go : ∀ (us : List Value) (e : Env), (∀ v, f (e.insert p v) = g (e.insert p v)) → Loop.find f p e us = Loop.find g p e us := by
    intro us
    induction us with
    | nil => intros; rfl
    | cons u us ih =>
      intro e he
      rw [Loop.find, Loop.find, he u]
      have := ih (e.insert p u) fun v => by simp only [Env.insert_same, he]
      simp only [this]
  exact go items env h

/-- Lambdas that agree on every element do the same in a loop. -/
theorem each_congr (X : Ext) (name : Str) (hn : name ∈ [c!"FILTER", c!"FIND", c!"MAP"]) (a l m : Expr) (env : Env)
    (h : ∀ v, Eval.eval X l none (env.insert c!"x" v) = Eval.eval X m none (env.insert c!"x" v)) :
    Eval.eval X (.call name [a, l]) none env = Eval.eval X (.call name [a, m]) none env := by
  have nc : ∀ n, NotCustom X none n := fun n reg h => nomatch h
  simp only [List.mem_cons, List.not_mem_nil, or_false] at hn
  rcases hn with rfl | rfl | rfl
  · rw [call_higherOrder X _ _ none env Eval.filter (by decide) (by rfl) (nc _), call_higherOrder X _ _ none env Eval.filter (by decide) (by rfl) (nc _)]
    simp only [List.map_cons, List.map_nil, Eval.filter, Eval.argOf_run, List.head?_nil, Eval.paramName, Loop.filter_eq, bind, Except.bind, h]
  · rw [call_higherOrder X _ _ none env Eval.find (by decide) (by rfl) (nc _), call_higherOrder X _ _ none env Eval.find (by decide) (by rfl) (nc _)]
    simp only [List.map_cons, List.map_nil, Eval.find, Eval.argOf_run, List.head?_nil, Eval.paramName, bind, Except.bind, find_congr h]
  · rw [call_higherOrder X _ _ none env Eval.map (by decide) (by rfl) (nc _), call_higherOrder X _ _ none env Eval.map (by decide) (by rfl) (nc _)]
    simp only [List.map_cons, List.map_nil, Eval.map, Eval.argOf_run, List.head?_nil, Eval.paramName, Loop.map_eq, bind, Except.bind, h]

theorem reduce_congr (X : Ext) (a l m init : Expr) (env : Env)
    (h : ∀ v w, Eval.eval X l none ((env.insert c!"x" v).insert c!"acc" w) = Eval.eval X m none ((env.insert c!"x" v).insert c!"acc" w)) :
    Eval.eval X (.call c!"REDUCE" [a, l, init]) none env = Eval.eval X (.call c!"REDUCE" [a, m, init]) none env := by
  have nc : ∀ n, NotCustom X none n := fun n reg h => nomatch h
  rw [call_higherOrder X _ _ none env Eval.reduce (by decide) (by rfl) (nc _), call_higherOrder X _ _ none env Eval.reduce (by decide) (by rfl) (nc _)]
  simp only [List.map_cons, List.map_nil, Eval.reduce, Eval.argOf_run, List.head?_nil, Eval.paramName, Loop.reduce_eq, bind, Except.bind,
    List.getElem?_nil, h]

/-- The value of the part is the same under the lambda's names. -/
theorem part_same (X : Ext) (t : Str) (e : Expr) (env env' : Env) (v : Value) (hv : evalVars X e env = .ok v)
    (hk : ∀ n ∈ vars e, env' n = env n) (ht : env' t = some v) : Eval.eval X (.var t) none env' = Eval.eval X e none env' := by
  have h1 : Eval.eval X e none env' = Eval.eval X e none env := C09_coincidence X e none env' env hk
  have hv' : Eval.eval X e none env = .ok v := hv
  rw [h1, hv']
  simp only [Eval.eval, ht]

theorem named (X : Ext) (t : Str) (e : Expr) (env : Env) (v : Value) (hv : evalVars X e env = .ok v) (p q : Expr) (name : Str) (args : List Expr)
    (hp : p = .call name args) (h : Eval.eval X p none (env.insert t v) = Eval.eval X q none (env.insert t v)) (ht : t ∉ vars q) :
    evalAssign X (.seq [.assign t e, p]) env = evalVars X q env := by
  have hv' : Eval.eval X e none env = .ok v := hv
  have e2 : Eval.eval X q none (env.insert t v) = Eval.eval X q none env := C09_coincidence X _ none _ _ fun n hn => by
    have : n ≠ t := fun h => ht (h ▸ hn)
    simp [Env.insert, this]
  unfold evalAssign evalVars
  rw [← e2, ← h]
  simp only [Eval.assignments, Eval.assignmentsSeq, hv', bind, Except.bind, assignments_value X (e := p) (by simp [hp]) (by simp [hp]), pure, Except.pure]
  cases Eval.eval X p none (env.insert t v) <;> rfl

/-- **C102.** A part of the lambda of FILTER, FIND, MAP or REDUCE that mentions neither the element nor the accumulator can be named before the loop,
under a new name, if it has a value: `:t := e; MAP(a, C[:t])` gives what `MAP(a, C[e])` gives, value or error. -/
theorem C102_hoist (X : Ext) (t : Str) (e a init : Expr) (he : NotSpread e) (c : Ctx) (hc : c.Outer) (env : Env) (v : Value)
    (hv : evalVars X e env = .ok v) (hx : c!"x" ∉ vars e) (hte : t ∉ vars e) (htx : t ≠ c!"x") :
    (∀ name ∈ [c!"FILTER", c!"FIND", c!"MAP"], t ∉ vars (.call name [a, c.fill e]) →
      evalAssign X (.seq [.assign t e, .call name [a, c.fill (.var t)]]) env = evalVars X (.call name [a, c.fill e]) env) ∧
    (c!"acc" ∉ vars e → t ≠ c!"acc" → t ∉ vars (.call c!"REDUCE" [a, c.fill e, init]) →
      evalAssign X (.seq [.assign t e, .call c!"REDUCE" [a, c.fill (.var t), init]]) env = evalVars X (.call c!"REDUCE" [a, c.fill e, init]) env) := by
  constructor
  · intro name hn ht
    refine named X t e env v hv _ _ name _ rfl (each_congr X name hn a _ _ _ ?_) ht
    intro u
    refine replace_at X (a := .var t) trivial he none _ (part_same X t e env _ v hv ?_ ?_) c hc
    · intro n hn
      have h1 : n ≠ c!"x" := fun h => hx (h ▸ hn)
      have h2 : n ≠ t := fun h => hte (h ▸ hn)
      simp only [Env.insert, if_neg h1, if_neg h2]
    · simp only [Env.insert, if_neg htx, if_true]
  · intro hacc hta ht
    refine named X t e env v hv _ _ _ _ rfl (reduce_congr X a _ _ init _ ?_) ht
    intro u w
    refine replace_at X (a := .var t) trivial he none _ (part_same X t e env _ v hv ?_ ?_) c hc
    · intro n hn
      have h1 : n ≠ c!"x" := fun h => hx (h ▸ hn)
      have h2 : n ≠ t := fun h => hte (h ▸ hn)
      have h3 : n ≠ c!"acc" := fun h => hacc (h ▸ hn)
      simp only [Env.insert, if_neg h1, if_neg h2, if_neg h3]
    · simp only [Env.insert, if_neg htx, if_neg hta, if_true]

/-- **C102: where the part must have a value.** With no `a` given, `MAP([], :x * :a)` is `[]`, but `:t := :a; MAP([], :x * :t)` fails. -/
theorem C102_hoist_needs_value (X : Ext) :
    evalVars X (.call c!"MAP" [.array [], .binary (.var c!"x") .mul (.var c!"a")]) Env.empty = .ok (.arr []) ∧
    evalAssign X (.seq [.assign c!"t" (.var c!"a"), .call c!"MAP" [.array [], .binary (.var c!"x") .mul (.var c!"t")]]) Env.empty =
      fail "Missing variable: :{}" [c!"a"] := by
  constructor <;> kernel_rfl

/-- A case: `MAP(:xs, :x * SUM(:xs))` is `:t := SUM(:xs); MAP(:xs, :x * :t)`. -/
example : (Ctx.binaryR (.var c!"x") .mul .hole).Outer ∧ c!"x" ∉ vars (.call c!"SUM" [.var c!"xs"]) ∧ c!"t" ∉ vars (.call c!"SUM" [.var c!"xs"]) ∧
    (Ctx.binaryR (.var c!"x") .mul .hole).fill (.var c!"t") = .binary (.var c!"x") .mul (.var c!"t") ∧
    c!"t" ∉ vars (.call c!"MAP" [.var c!"xs", (Ctx.binaryR (.var c!"x") .mul .hole).fill (.call c!"SUM" [.var c!"xs"])]) := by
  refine ⟨trivial, by decide, by decide, rfl, by decide⟩

end Hoist
