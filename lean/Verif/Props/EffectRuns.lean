import Verif.Lemmas.EffectRuns
import Verif.Props.Effects
/-! C121, for all expressions: the sequences of calls of custom functions that an evaluation may make (`Spec/EffectRuns.lean`). -/

namespace Fx

open Fx.Spec Fx.Spec.Runs

variable {W : Type} {calls : W → List (Str × List Value)} {g : Reg W}

/-- C121. Every evaluation makes a sequence of calls that the expression allows: arguments from left to right before the function, the branch taken and not the other, lambdas of methods once per
element, and nothing after a failure, except after one of the criterion of `SUMIF`. -/
theorem C121_runs (hg : Recorded g calls) (X : Ext) (e : Expr) (vars : Env) (w : W) :
    let out := evalEffects X g e vars w
    ∃ made, calls out.1 = calls w ++ made ∧ runs X g false e (made.map Prod.fst) out.2.isOk :=
  eval_gr hg X e vars w

/-- `:a ? F(1) : G()`. -/
def Spec.branching : Expr := .call c!"__TERNARY__" [.var c!"a", .call c!"F" [.number (F64.ofNat 1)], .call c!"G" []]

/-- What `:a ? F(1) : G()` may do: call `F`, or call `G`, or fail without a call. -/
example (X : Ext) (hF : X.upper c!"F" = c!"F") (hG : X.upper c!"G" = c!"G") (s : List Str) (ok : Bool) :
    runs X noting false branching s ok ↔ s = [c!"F"] ∨ s = [c!"G"] ∨ (s = [] ∧ ok = false) := by
  have h1 : noting.has X c!"F" = true := by unfold Reg.has; rw [hF]; rfl
  have h2 : noting.has X c!"G" = true := by unfold Reg.has; rw [hG]; rfl
  simp only [branching, runs, runsEach, callRuns, conditionalRuns, h1, h2, hF, hG, isConditional, isConstant]
  simp only [if_true, beq_iff_eq, Bool.not_false, Bool.true_and, Bool.or_eq_true]
  rw [if_neg (by decide), if_neg (by decide), if_neg (by decide), if_neg (by decide)]
  simp only [List.map_cons, List.map_nil, inTurn]
  constructor
  · rintro (⟨rfl, rfl⟩ | ⟨s1, s2, rfl, rfl, ⟨rfl, rfl⟩ | h | h⟩)
    · exact .inr (.inr ⟨rfl, rfl⟩)
    · exact .inr (.inr ⟨rfl, rfl⟩)
    · rcases h with ⟨⟨⟨_, h⟩, _⟩ | ⟨_, _, rfl, ⟨_, h⟩, _, h'⟩, _⟩ | ⟨s3, s4, rfl, h, rfl | ⟨rfl, rfl⟩⟩
      · cases h
      · cases h'
      · rcases h with ⟨_, h⟩ | ⟨_, _, rfl, ⟨rfl, _⟩, rfl, _⟩
        · cases h
        · exact .inl rfl
      · rcases h with ⟨_, h⟩ | ⟨_, _, rfl, ⟨rfl, _⟩, rfl, _⟩
        · cases h
        · exact .inr (.inr ⟨rfl, rfl⟩)
    · rcases h with ⟨⟨_, h⟩, _⟩ | ⟨s3, s4, rfl, ⟨rfl, _⟩, rfl | ⟨rfl, rfl⟩⟩
      · cases h
      · exact .inr (.inl rfl)
      · exact .inr (.inr ⟨rfl, rfl⟩)
  · rintro (rfl | rfl | ⟨rfl, rfl⟩)
    · exact .inr ⟨[], _, rfl, rfl, .inr (.inl (.inr ⟨[], _, rfl, .inr ⟨[], [], rfl, ⟨rfl, rfl⟩, rfl, rfl⟩, .inl rfl⟩))⟩
    · exact .inr ⟨[], _, rfl, rfl, .inr (.inr (.inr ⟨[], _, rfl, ⟨rfl, rfl⟩, .inl rfl⟩))⟩
    · exact .inl ⟨rfl, rfl⟩

/-! ### Lambdas of methods -/

theorem runsEach_plain (X : Ext) (g : Reg W) (e : Expr) (es : List Expr) : ∃ r, runsEach X g true (e :: es) = ⟨runs X g true e, r⟩ :: runsEach X g true es := by
  cases e <;> simp only [runsEach] <;> first | exact ⟨_, rfl⟩ | (simp only [runs]; exact ⟨_, rfl⟩)

theorem head_gr (hg : Recorded g calls) (X : Ext) (e : Expr) (es : List Expr) :
    ∃ a, Legacy.argsOf X g (e :: es) = a :: Legacy.argsOf X g es ∧ ∀ env, Gr calls (runs X g true e) (a.run env) := by
  obtain ⟨a, h1, h2⟩ := argsOf_cons (g := g) X e es
  obtain ⟨r, hr⟩ := runsEach_plain X g e []
  have := Legacy.args_gr hg X [e]
  rw [h2, hr] at this
  cases this with
  | cons h _ => exact ⟨a, h1, h.run⟩

/-- C121. `t.map(...)` and `t.filter(...)` evaluate their lambda, whatever it is, once for each element, one element after the other; a failure ends it. -/
theorem C121_lambda (hg : Recorded g calls) (X : Ext) (n : Str) (hn : X.lower n = c!"map" ∨ X.lower n = c!"filter") (t lam : Expr) (rest : List Expr)
    (vars : Env) (w w1 : W) (items : List Value) (ht : evalEffects X g t vars w = (w1, .ok (.arr items))) :
    let out := evalEffects X g (.method t n (lam :: rest) false) vars w
    ∃ made, calls out.1 = calls w1 ++ made ∧ (runs X g true lam).times items.length (made.map Prod.fst) out.2.isOk := by
  obtain ⟨a, ha, htr⟩ := head_gr hg X lam rest
  intro out
  have key : Gr calls ((runs X g true lam).times items.length) (Method.exec X vars n false (.arr items) (Legacy.argsOf X g (lam :: rest))) := by
    rw [ha]
    unfold Method.exec
    rcases hn with hn | hn
    · rw [hn]
      exact gr_map (gr_loopMap htr _ _ _) fun _ => gr_ok _
    · rw [hn]
      exact gr_map (gr_loopFilter htr _ _ _) fun _ => gr_ok _
  have ho : out = Method.exec X vars n false (.arr items) (Legacy.argsOf X g (lam :: rest)) w1 := method_run X t n _ vars w w1 items ht
  rw [ho]
  exact key w1

/-- C121. `t.reduce(..., start)` evaluates the start value, then its lambda once for each element; a failure ends it. -/
theorem C121_reduce (hg : Recorded g calls) (X : Ext) (n : Str) (hn : X.lower n = c!"reduce") (t lam start : Expr) (rest : List Expr)
    (vars : Env) (w w1 : W) (items : List Value) (ht : evalEffects X g t vars w = (w1, .ok (.arr items))) :
    let out := evalEffects X g (.method t n (lam :: start :: rest) false) vars w
    ∃ made, calls out.1 = calls w1 ++ made ∧ ((runs X g true start).andThen ((runs X g true lam).times items.length)) (made.map Prod.fst) out.2.isOk := by
  obtain ⟨a, ha, htr⟩ := head_gr hg X lam (start :: rest)
  obtain ⟨b, hb, hbr⟩ := head_gr hg X start rest
  intro out
  have key : Gr calls ((runs X g true start).andThen ((runs X g true lam).times items.length)) (Method.exec X vars n false (.arr items) (Legacy.argsOf X g (lam :: start :: rest))) := by
    rw [ha, hb]
    unfold Method.exec
    rw [hn]
    exact gr_bind (hbr _) fun _ => gr_loopReduce htr _ _ _ _ _
  have ho : out = Method.exec X vars n false (.arr items) (Legacy.argsOf X g (lam :: start :: rest)) w1 := method_run X t n _ vars w w1 items ht
  rw [ho]
  exact key w1

/-- C121. `t.find(...)` evaluates its lambda for the elements from the first on. When it succeeds, the element last tried is the result, or all were tried and the result is null: the lambda is not
evaluated for any element behind the one found. -/
theorem C121_find (hg : Recorded g calls) (X : Ext) (n : Str) (hn : X.lower n = c!"find") (t lam : Expr) (rest : List Expr)
    (vars : Env) (w w1 : W) (items : List Value) (ht : evalEffects X g t vars w = (w1, .ok (.arr items))) :
    let out := evalEffects X g (.method t n (lam :: rest) false) vars w
    ∃ tried made, tried ≤ items.length ∧ calls out.1 = calls w1 ++ made ∧ (runs X g true lam).times tried (made.map Prod.fst) out.2.isOk ∧
      ∀ r, out.2 = .ok r → (0 < tried ∧ items[tried - 1]? = some r) ∨ (tried = items.length ∧ r = .null) := by
  obtain ⟨a, ha, htr⟩ := head_gr hg X lam rest
  intro out
  have ho : out = Method.exec X vars n false (.arr items) (Legacy.argsOf X g (lam :: rest)) w1 := method_run X t n _ vars w w1 items ht
  have he : Method.exec X vars n false (.arr items) (Legacy.argsOf X g (lam :: rest)) w1 =
      Loop.find a.run (_root_.Method.paramName c!"x" ((Legacy.argsOf X g rest).head?.map Operand.plain)) vars items w1 := by
    rw [ha]
    unfold Method.exec
    rw [hn]
    rfl
  rw [ho, he]
  exact gr_loopFind htr _ _ _ _

/-- A lambda with a conditional in it: `[1, 2].map(:x > 1 ? F(:x) : 0)` calls `F` once, for the second element. -/
example (X : Ext) (h1 : X.upper c!"F" = c!"F") (h2 : X.lower c!"map" = c!"map") :
    evalEffects X noting (.method (.array [.number (F64.ofNat 1), .number (F64.ofNat 2)]) c!"map"
      [.call c!"__TERNARY__" [.binary (.var c!"x") .gt (.number (F64.ofNat 1)), pass c!"F", .number (F64.ofNat 0)]] false) (fun _ => none) [] =
      ([(c!"F", [.num (F64.ofNat 2)])], .ok (.arr [.num (F64.ofNat 0), .num (F64.ofNat 2)])) := by
  simp only [evalEffects, eval, Method.exec, h2, pass, Legacy.eval, Legacy.argsOf, Legacy.call, Reg.has, Reg.execute, h1]
  kernel_rfl

end Fx
