import Verif.Props.Casts
/-! C36 and C37: logical functions and intervals. -/

open Lib Spec

namespace Spec

/-- The zeros. -/
def IsZero : F64 → Prop
  | .zero _ => True
  | .fin q => q = 0
  | _ => False

/-- What counts as true: `TRUE` and every number other than zero. -/
def Holds : Value → Prop
  | .bool b => b = true
  | .num n => ¬ IsZero n
  | _ => False

/-- `b` answers the question `p`. -/
def Answers (r : Res Value) (p : Prop) : Prop := ∃ b : Bool, r = .ok (.bool b) ∧ (b = true ↔ p)

end Spec

theorem truthy_iff (v : Value) : Logic.truthy v = true ↔ Holds v := by
  cases v <;> simp only [Logic.truthy, Holds, Bool.false_eq_true]
  rename_i n
  rw [show F64.fne n (.zero false) = !F64.feq n (.zero false) from rfl]
  cases n with
  | nan => simp [F64.feq, IsZero]
  | inf s => simp [F64.feq, IsZero]
  | zero s => simp [F64.feq, F64.toRat, IsZero]
  | fin q => simp only [F64.feq, F64.toRat, IsZero]; by_cases h : q = 0 <;> simp [h]

theorem andLoop_iff (r : Bool) (vs : List Value) : Logic.andLoop r vs = true ↔ r = true ∧ ∀ v ∈ vs, Holds v := by
  induction vs generalizing r with
  | nil => simp [Logic.andLoop]
  | cons v vs ih =>
    simp only [Logic.andLoop, List.mem_cons, forall_eq_or_imp, ← truthy_iff v]
    split
    · rename_i h; cases r <;> cases hv : Logic.truthy v <;> simp_all
    · rename_i h; rw [ih]; cases r <;> cases hv : Logic.truthy v <;> simp_all

theorem orLoop_iff (r : Bool) (vs : List Value) : Logic.orLoop r vs = true ↔ r = true ∨ ∃ v ∈ vs, Holds v := by
  induction vs generalizing r with
  | nil => simp [Logic.orLoop]
  | cons v vs ih =>
    simp only [Logic.orLoop, List.mem_cons, exists_eq_or_imp, ← truthy_iff v]
    split
    · rename_i h; cases r <;> cases hv : Logic.truthy v <;> simp_all
    · rename_i h; rw [ih]; cases r <;> cases hv : Logic.truthy v <;> simp_all

/-- C36: `AND` asks whether every argument holds. -/
theorem C36_and (X : Ext) (vs : List Value) : Answers (fn X c!"AND" vs) (∀ v ∈ vs, Holds v) := by
  rw [fn_eq X _ _ (by decide)]
  exact ⟨_, rfl, by rw [andLoop_iff]; simp⟩

/-- C36: `OR` asks whether some argument holds. -/
theorem C36_or (X : Ext) (vs : List Value) : Answers (fn X c!"OR" vs) (∃ v ∈ vs, Holds v) := by
  rw [fn_eq X _ _ (by decide)]
  exact ⟨_, rfl, by rw [orLoop_iff]; simp⟩

/-- C36: `NOT` asks whether its argument does not hold. -/
theorem C36_not (X : Ext) (v : Value) : Answers (fn X c!"NOT" [v]) (¬ Holds v) := by
  rw [fn_eq X _ _ (by decide)]
  refine ⟨!Logic.truthy v, rfl, ?_⟩
  rw [← truthy_iff]; cases Logic.truthy v <;> simp

/-- C36, partial: `XOR` of two arguments asks whether exactly one holds. Missing: other numbers of arguments, which
are refused. -/
theorem C36_xor_partial (X : Ext) (v w : Value) : Answers (fn X c!"XOR" [v, w]) (¬ (Holds v ↔ Holds w)) := by
  rw [fn_eq X _ _ (by decide)]
  refine ⟨Logic.truthy v != Logic.truthy w, rfl, ?_⟩
  rw [← truthy_iff, ← truthy_iff]
  cases Logic.truthy v <;> cases Logic.truthy w <;> simp

/-- C36 fails for `XOR` of any other number of arguments: it is refused. -/
theorem C36_xor_wrong (X : Ext) (vs : List Value) (h : vs.length ≠ 2) :
    fn X c!"XOR" vs = fail "XOR expects 2 arguments" := by
  rw [fn_eq X _ _ (by decide), show execFast X c!"XOR" vs = Logic.xor vs from rfl]
  match vs with
  | [] | [_] | _ :: _ :: _ :: _ => rfl
  | [_, _] => simp at h

/-- The answer of a function. -/
theorem answers_unique {r : Res Value} {p q : Prop} (hp : Answers r p) (hq : Answers r q) : p ↔ q := by
  obtain ⟨b, rfl, h1⟩ := hp
  obtain ⟨c, h, h2⟩ := hq
  cases h
  exact h1.symm.trans h2

theorem answers_eq {r s : Res Value} {p : Prop} (hp : Answers r p) (hq : Answers s p) : r = s := by
  obtain ⟨b, rfl, h1⟩ := hp
  obtain ⟨c, rfl, h2⟩ := hq
  have : b = c := by rw [Bool.eq_iff_iff]; exact h1.trans h2.symm
  rw [this]

/-- C36, De Morgan: the negation of `AND(vs)` is `OR` of the negations, and the other way round. -/
theorem C36_de_morgan (X : Ext) (vs nots : List Value) (a o : Value)
    (hn : vs.mapM (fun v => fn X c!"NOT" [v]) = .ok nots)
    (ha : fn X c!"AND" vs = .ok a) (ho : fn X c!"OR" vs = .ok o) :
    fn X c!"NOT" [a] = fn X c!"OR" nots ∧ fn X c!"NOT" [o] = fn X c!"AND" nots := by
  have hrel : (∀ w ∈ nots, Holds w ∨ ¬ Holds w) ∧ ((∃ w ∈ nots, Holds w) ↔ ∃ v ∈ vs, ¬ Holds v) ∧
      ((∀ w ∈ nots, Holds w) ↔ ∀ v ∈ vs, ¬ Holds v) := by
    refine ⟨fun _ _ => em _, ?_⟩
    clear ha ho
    induction vs generalizing nots with
    | nil => cases hn; simp
    | cons v vs ih =>
      obtain ⟨b, hb, hiff⟩ := C36_not X v
      rw [List.mapM_cons, hb] at hn
      cases hm : vs.mapM (fun v => fn X c!"NOT" [v]) with
      | error f => rw [hm] at hn; cases hn
      | ok ws =>
        rw [hm] at hn
        cases hn
        obtain ⟨i1, i2⟩ := ih ws hm
        have : Holds (.bool b) ↔ ¬ Holds v := hiff
        simp [this, i1, i2]
  obtain ⟨-, h1, h2⟩ := hrel
  have hA := C36_and X vs
  have hO := C36_or X vs
  have val : ∀ (r : Res Value) (x : Value) (p : Prop), r = .ok x → Answers r p → (Holds x ↔ p) := by
    rintro r x p rfl ⟨b, hb, hiff⟩
    cases hb
    exact hiff
  constructor
  · refine answers_eq (C36_not X a) ?_
    have := C36_or X nots
    rwa [h1, show (∃ v ∈ vs, ¬ Holds v) ↔ ¬ Holds a by rw [val _ _ _ ha hA]; push Not; rfl] at this
  · refine answers_eq (C36_not X o) ?_
    have := C36_and X nots
    rwa [h2, show (∀ v ∈ vs, ¬ Holds v) ↔ ¬ Holds o by rw [val _ _ _ ho hO]; push Not; rfl] at this

/-- C36: `IF` picks the second argument when the first holds, else the third (`FALSE` when there is none). -/
theorem C36_if (X : Ext) (c a b : Value) :
    (Holds c → fn X c!"IF" [c, a, b] = .ok a ∧ fn X c!"IF" [c, a] = .ok a) ∧
    (¬ Holds c → fn X c!"IF" [c, a, b] = .ok b ∧ fn X c!"IF" [c, a] = .ok (.bool false)) := by
  have hf : ∀ rest, fn X c!"IF" (c :: a :: rest) = .ok (if Logic.truthy c then a else rest.head?.getD (.bool false)) := by
    intro rest; rw [fn_eq X _ _ (by decide)]; rfl
  rw [hf, hf, ← truthy_iff]
  cases Logic.truthy c <;> simp

/-- C36: `IFS` picks the value of the first condition that holds, or `FALSE` when none does. -/
theorem C36_ifs (X : Ext) (ps : List (Value × Value)) :
    (∀ pre c a post, ps = pre ++ (c, a) :: post → (∀ p ∈ pre, ¬ Holds p.1) → Holds c →
      fn X c!"IFS" (ps.flatMap fun p => [p.1, p.2]) = .ok a) ∧
    ((∀ p ∈ ps, ¬ Holds p.1) → fn X c!"IFS" (ps.flatMap fun p => [p.1, p.2]) = .ok (.bool false)) := by
  have hf : fn X c!"IFS" (ps.flatMap fun p => [p.1, p.2]) = .ok (Logic.ifsLoop (ps.flatMap fun p => [p.1, p.2])) := by
    rw [fn_eq X _ _ (by decide), show execFast X c!"IFS" = Logic.ifs from rfl]
    unfold Logic.ifs
    have : (ps.flatMap fun p => [p.1, p.2]).length = 2 * ps.length := by
      induction ps with
      | nil => rfl
      | cons p ps ih => simp only [List.flatMap_cons, List.length_append, ih]; simp; omega
    rw [if_neg (by omega)]
  rw [hf]
  constructor
  · rintro pre c a post rfl hpre hc
    clear hf
    induction pre with
    | nil => simp [Logic.ifsLoop, (truthy_iff c).2 hc]
    | cons p pre ih =>
      have hp : Logic.truthy p.1 = false := by
        have := hpre p (by simp); rw [← truthy_iff] at this; simpa using this
      simp only [List.cons_append, List.flatMap_cons, Logic.ifsLoop, hp]
      exact ih (fun p hp => hpre p (by simp [hp]))
  · intro h
    clear hf
    induction ps with
    | nil => rfl
    | cons p ps ih =>
      have hp : Logic.truthy p.1 = false := by
        have := h p (by simp); rw [← truthy_iff] at this; simpa using this
      simp only [List.flatMap_cons, List.cons_append, List.nil_append, Logic.ifsLoop, hp]
      exact ih (fun p hp => h p (by simp [hp]))

example (X : Ext) : evaluate X c!"IFS(1 > 2, \"a\", 0, \"b\", 3, \"c\")" = .ok (.str c!"c") := by kernel_rfl
example (X : Ext) : evaluate X c!"AND(TRUE, 2, 0 = 0)" = .ok (.bool true) := by kernel_rfl

/-! ## C37 -/

/-- C37 fails: a call of `BETWEEN` is refused as an unknown function. -/
theorem C37_between_wrong (X : Ext) (vs : List Value) :
    fn X c!"BETWEEN" vs = fail "Unknown function: {}" [c!"BETWEEN"] := by
  rw [fn_eq X _ _ (by decide)]; rfl

/-- C37, partial: the method `v.between(lo, hi)` is the test of the closed interval. Missing: the function form. -/
theorem C37_between_method_partial (X : Ext) (v lo hi : F64) :
    meth2 X (.num v) c!"between" (.num lo) (.num hi) = .ok (.bool (F64.fle lo v && F64.fle v hi)) := by
  rw [meth2_eq]
  rw [show ∀ env args, Method.exec X none env c!"between" false (.num v) args = Method.between env v args from fun _ _ => rfl]
  simp only [Method.between]
  rw [show ∀ env a, Method.ev env a = a.run none env from fun _ _ => rfl]
  rw [show ∀ env a, Method.ev env a = a.run none env from fun _ _ => rfl]
  rw [arg_var X none _ c!"a" (.num lo) (by rfl), arg_var X none _ c!"b" (.num hi) (by rfl)]
  rfl

/-- C37, partial: inside the lambda of a method, `BETWEEN(lo, hi, v)` exists and is the test of the closed interval
(with the tested value last). Missing: everywhere else. -/
theorem C37_between_lambda_partial (X : Ext) (vs : List F64) (lo hi : F64) :
    evalVars X (.method (.var c!"r") c!"map" [.call c!"BETWEEN" [.var c!"a", .var c!"b", .var c!"x"]] false)
        (((Env.empty.insert c!"r" (.arr (vs.map .num))).insert c!"a" (.num lo)).insert c!"b" (.num hi)) =
      .ok (.arr (vs.map fun v => .bool (F64.fle lo v && F64.fle v hi))) := by
  have key : ∀ v env, (env c!"a" = some (.num lo)) → (env c!"b" = some (.num hi)) → (env c!"x" = some (.num v)) →
      (Legacy.argOf X (.call c!"BETWEEN" [.var c!"a", .var c!"b", .var c!"x"])).run none env =
        .ok (.bool (F64.fle lo v && F64.fle v hi)) := by
    intro v env ha hb hx
    simp only [Legacy.argOf, Legacy.eval, Legacy.argsOf_eq, List.map_cons, List.map_nil]
    rw [show ∀ args, Legacy.call X c!"BETWEEN" args none env = (evalArgs none env args).bind (execBuiltin X c!"BETWEEN") from fun _ => rfl]
    simp only [evalArgs, ha, hb, hx]
    rfl
  rw [show ∀ e env, evalVars X e env = Eval.eval X e none env from fun _ _ => rfl]
  simp only [Eval.eval, Legacy.argsOf_eq, List.map_cons, List.map_nil]
  change Method.map none (((Env.empty.insert c!"r" (.arr (vs.map .num))).insert c!"a" (.num lo)).insert c!"b" (.num hi)) (vs.map .num)
    [Legacy.argOf X (.call c!"BETWEEN" [.var c!"a", .var c!"b", .var c!"x"])] = _
  simp only [Method.map, Loop.map_eq]
  have : ∀ env : Env, (env c!"a" = some (.num lo)) → (env c!"b" = some (.num hi)) →
      (vs.map Value.num).mapM (fun v => (Legacy.argOf X (.call c!"BETWEEN" [.var c!"a", .var c!"b", .var c!"x"])).run none (env.insert c!"x" v)) =
        .ok (vs.map fun v => .bool (F64.fle lo v && F64.fle v hi)) := by
    intro env ha hb
    induction vs with
    | nil => rfl
    | cons v vs ih =>
      rw [List.map_cons, List.mapM_cons, ih, key v (env.insert c!"x" (.num v)) ha hb rfl]
      rfl
  have := this (((Env.empty.insert c!"r" (.arr (vs.map .num))).insert c!"a" (.num lo)).insert c!"b" (.num hi)) rfl rfl
  rw [show Method.paramName c!"x" ([] : List Arg).head? = c!"x" from rfl, this]
  rfl

example (X : Ext) : evaluate X c!"[1, 5, 9].map(BETWEEN(2, 5, :x))" =
    .ok (.arr [.bool false, .bool true, .bool false]) := by kernel_rfl
