import Verif.Props.Hoist
import Verif.Props.MethodLaws
/-! C102 for the lambdas of methods: a part that does not depend on the element can be named before the loop. -/

open Lib

namespace Hoist

open _root_.Spec _root_.Laws.Spec

theorem legacy_param {env : Env} {as as' : List Arg} (h : List.Forall₂ (SameArg none env) as as') (i : Nat) :
    Legacy.paramName env as[i]? = Legacy.paramName env as'[i]? := by
  induction h generalizing i with
  | nil => rfl
  | @cons a a' l l' ha hl ih =>
    cases i with
    | zero => simp only [List.getElem?_cons_zero, Legacy.paramName, ha.1]
    | succ i => simpa using ih i

theorem legacy_filter {env : Env} {as as' : List Arg} (h : List.Forall₂ (SameArg none env) as as') (h1 : as[1]? = as'[1]?) :
    Legacy.filter none env as = Legacy.filter none env as' ∧ Legacy.find none env as = Legacy.find none env as' ∧ Legacy.map none env as = Legacy.map none env as' := by
  cases h with
  | nil => exact ⟨rfl, rfl, rfl⟩
  | @cons a a' l l' ha hl =>
    cases hl with
    | nil => exact ⟨rfl, rfl, rfl⟩
    | @cons b b' l l' hb hl =>
      have hp := legacy_param hl 0
      simp only [List.getElem?_cons_succ, List.getElem?_cons_zero, Option.some.injEq] at h1
      subst h1
      rw [← List.head?_eq_getElem?, ← List.head?_eq_getElem?] at hp
      simp only [Legacy.filter, Legacy.find, Legacy.map, ha.1, hp]
      exact ⟨trivial, trivial, trivial⟩

theorem legacy_reduce {env : Env} {as as' : List Arg} (h : List.Forall₂ (SameArg none env) as as') (h1 : as[1]? = as'[1]?) :
    Legacy.reduce none env as = Legacy.reduce none env as' := by
  cases h with
  | nil => rfl
  | @cons a a' l l' ha hl =>
    cases hl with
    | nil => rfl
    | @cons b b' l l' hb hl =>
      cases hl with
      | nil => rfl
      | @cons c c' l l' hc hl =>
        have hp := legacy_param hl 0
        have hq := legacy_param hl 1
        simp only [List.getElem?_cons_succ, List.getElem?_cons_zero, Option.some.injEq] at h1
        subst h1
        rw [← List.head?_eq_getElem?, ← List.head?_eq_getElem?] at hp
        simp only [Legacy.reduce, Legacy.paramNameOr, ha.1, hc.1, hp, hq]

theorem legacy_if {env : Env} {as as' : List Arg} (h : List.Forall₂ (SameArg none env) as as') (h1 : as[1]? = as'[1]?) :
    Legacy.sumif none env as = Legacy.sumif none env as' ∧ Legacy.avgif none env as = Legacy.avgif none env as' ∧ Legacy.countif none env as = Legacy.countif none env as' := by
  cases h with
  | nil => exact ⟨rfl, rfl, rfl⟩
  | @cons a a' l l' ha hl =>
    cases hl with
    | nil => exact ⟨rfl, rfl, rfl⟩
    | @cons b b' l l' hb hl =>
      simp only [List.getElem?_cons_succ, List.getElem?_cons_zero, Option.some.injEq] at h1
      subst h1
      cases hl with
      | nil =>
        simp only [Legacy.sumif, Legacy.avgif, Legacy.countif, ha.1]
        exact ⟨trivial, trivial, trivial⟩
      | @cons c c' l l' hc hl => exact ⟨rfl, rfl, rfl⟩

theorem legacy_call (X : Ext) {env : Env} {as as' : List Arg} (h : List.Forall₂ (SameArg none env) as as') (n : Str)
    (h1 : n ∈ perElement → as[1]? = as'[1]?) : Legacy.call X n as none env = Legacy.call X n as' none env := by
  unfold Legacy.call
  rw [same_ternary h, same_evalArgs h]
  have hh : (match Legacy.higherOrder n with | some f => f none env as | none => (do execBuiltin X n (← evalArgs none env as') : Res Value)) =
      match Legacy.higherOrder n with | some f => f none env as' | none => (do execBuiltin X n (← evalArgs none env as') : Res Value) := by
    unfold Legacy.higherOrder
    by_cases hn : n ∈ perElement
    · have hs := h1 hn
      obtain ⟨e1, e2, e3⟩ := legacy_filter h hs
      obtain ⟨e5, e6, e7⟩ := legacy_if h hs
      split_ifs
      · exact e1
      · exact e2
      · exact e3
      · exact legacy_reduce h hs
      · exact e5
      · exact e6
      · exact e7
      · rfl
    · simp only [perElement, List.mem_cons, List.not_mem_nil, or_false, not_or] at hn
      rw [if_neg hn.1, if_neg hn.2.1, if_neg hn.2.2.1, if_neg hn.2.2.2.1, if_neg hn.2.2.2.2.1, if_neg hn.2.2.2.2.2.1, if_neg hn.2.2.2.2.2.2]
  split_ifs <;> first | rfl | exact hh

theorem legacy_argOf (X : Ext) {env : Env} {a b : Expr} (ha : NotSpread a) (hb : NotSpread b) (h : Legacy.eval X a none env = Legacy.eval X b none env) :
    SameArg none env (Legacy.argOf X a) (Legacy.argOf X b) := by
  have e1 : (Legacy.argOf X a).spread = none := by cases a <;> first | exact ha.elim | rfl
  have e2 : (Legacy.argOf X b).spread = none := by cases b <;> first | exact hb.elim | rfl
  refine ⟨by simpa only [Legacy.argOf_run] using h, ?_⟩
  rw [e1, e2]
  trivial

theorem legacy_spread (X : Ext) {env : Env} {a b : Expr} (h : Legacy.eval X a none env = Legacy.eval X b none env) :
    SameArg none env (Legacy.argOf X (.spread a)) (Legacy.argOf X (.spread b)) := by
  refine ⟨by simp only [Legacy.argOf_run, Legacy.eval], ?_⟩
  exact h

theorem legacy_members (X : Ext) {env : Env} {a b : Expr} (k : Str) (h : Legacy.eval X a none env = Legacy.eval X b none env) (after : List (Str × Expr)) :
    ∀ (before : List (Str × Expr)) (acc : List (Str × Json)),
      objectMembers X none env acc (Legacy.membersOf X (before ++ (k, a) :: after)) = objectMembers X none env acc (Legacy.membersOf X (before ++ (k, b) :: after))
  | [], acc => by simp only [List.nil_append, Legacy.membersOf, objectMembers, h]
  | (k', e) :: es, acc => by
    have ih := legacy_members X k h after es
    simp only [List.cons_append, Legacy.membersOf, objectMembers, ih]

/-- In the lambda of a method, two parts with the same value may replace each other wherever they are evaluated at the same variables. -/
theorem legacy_replace (X : Ext) {a b : Expr} (ha : NotSpread a) (hb : NotSpread b) (env : Env) (h : Legacy.eval X a none env = Legacy.eval X b none env) (c : Ctx)
    (hc : c.Outer) : Legacy.eval X (c.fill a) none env = Legacy.eval X (c.fill b) none env := by
  induction c with
  | hole => exact h
  | unary op c ih | prop c n ih | safeProp c n ih | cast c t ih | assign x c ih | methodT c n es p ih | safeCallT c n es ih =>
    simp only [Ctx.fill, Legacy.eval, ih hc]
  | binaryL c op e ih | binaryR e op c ih | indexL c i ih | indexR t c ih =>
    simp only [Ctx.fill, Legacy.eval, ih hc]
  | sliceT c x y ih | sliceStart t c y ih | sliceStop t x c ih =>
    simp only [Ctx.fill, Legacy.eval, Legacy.optOf, Legacy.optional, ih hc]
  | array l c m ih =>
    obtain ⟨oa, ob⟩ := fill_notSpread ha hb c
    simp only [Ctx.fill, Legacy.eval, Legacy.argsOf_eq, List.map_append, List.map_cons]
    rw [same_elements (same_at (legacy_argOf X oa ob (ih hc)) _ _)]
  | seq l c m ih =>
    obtain ⟨oa, ob⟩ := fill_notSpread ha hb c
    simp only [Ctx.fill, Legacy.eval, Legacy.argsOf_eq, List.map_append, List.map_cons]
    rw [same_lastOf (same_at (legacy_argOf X oa ob (ih hc)) _ _)]
  | call n l c m ih =>
    obtain ⟨oa, ob⟩ := fill_notSpread ha hb c
    simp only [Ctx.fill, Legacy.eval, Legacy.argsOf_eq, List.map_append, List.map_cons]
    exact legacy_call X (same_at (legacy_argOf X oa ob (ih hc.2)) _ _) n fun hn => second_at _ _ (by simpa using hc.1 hn)
  | callSpread n l c m ih =>
    simp only [Ctx.fill, Legacy.eval, Legacy.argsOf_eq, List.map_append, List.map_cons]
    exact legacy_call X (same_at (legacy_spread X (ih hc.2)) _ _) n fun hn => second_at _ _ (by simpa using hc.1 hn)
  | object l k c m ih => simp only [Ctx.fill, Legacy.eval, legacy_members X k (ih hc)]
  | methodA t n l c m p ih => exact hc.elim
  | safeCallA t n l c m ih => exact hc.elim

theorem legacy_same (X : Ext) (e : Expr) (env env' : Env) (h : ∀ n ∈ vars e, env n = env' n) : Legacy.eval X e none env = Legacy.eval X e none env' :=
  legacy_sim (E := onNames (vars e)) (AlikeRuns.of (SameWorld.refl X) fun _ _ => ⟨fun _ => rfl, fun _ => rfl⟩) e (fun n hn _ _ he => he n hn) (fun _ hn => hn) (rfl : (none : Option Registry) = none) env env' h

theorem legacy_part (X : Ext) (t : Str) (e : Expr) (env env' : Env) (v : Value) (hv : Legacy.eval X e none env = .ok v)
    (hk : ∀ n ∈ vars e, env' n = env n) (ht : env' t = some v) : Legacy.eval X (.var t) none env' = Legacy.eval X e none env' := by
  rw [legacy_same X e env' env hk, hv]
  simp only [Legacy.eval, ht]

theorem named_dot (X : Ext) (t : Str) (e : Expr) (env : Env) (v : Value) (hv : evalVars X e env = .ok v) (p q a : Expr) (name : Str) (args : List Expr)
    (hp : p = .method a name args false) (h : Eval.eval X p none (env.insert t v) = Eval.eval X q none (env.insert t v)) (ht : t ∉ vars q) :
    evalAssign X (.seq [.assign t e, p]) env = evalVars X q env := by
  have hv' : Eval.eval X e none env = .ok v := hv
  have e2 : Eval.eval X q none (env.insert t v) = Eval.eval X q none env := C09_coincidence X _ none _ _ fun n hn => by
    have : n ≠ t := fun h => ht (h ▸ hn)
    simp [Env.insert, this]
  unfold evalAssign evalVars
  rw [← e2, ← h]
  simp only [Eval.assignments, Eval.assignmentsSeq, hv', bind, Except.bind, assignments_value X (e := p) (by simp [hp]) (by simp [hp]), pure, Except.pure]
  cases Eval.eval X p none (env.insert t v) <;> rfl

/-- **C102.** The same for the methods `filter`, `find`, `map` and `reduce` of an array: `:t := e; a.map(C[:t])` gives what `a.map(C[e])` gives, value or error, if `e` has the same value before the
loop and in it (`[null].map(e)` is `[v]`; the lambdas of methods are evaluated by other code than the rest). -/
theorem C102_hoist_dot (X : Ext) (t : Str) (e a init : Expr) (he : NotSpread e) (c : Ctx) (hc : c.Outer) (env : Env) (v : Value) (items : List Value)
    (hv : evalVars X e env = .ok v) (hin : evalVars X (.method (.array [.null]) c!"map" [e] false) env = .ok (.arr [v]))
    (ha : evalVars X a env = .ok (.arr items)) (hta : t ∉ vars a) (hx : c!"x" ∉ vars e) (hte : t ∉ vars e) (htx : t ≠ c!"x") :
    (∀ name ∈ [c!"filter", c!"find", c!"map"], t ∉ vars (.method a name [c.fill e] false) →
      evalAssign X (.seq [.assign t e, .method a name [c.fill (.var t)] false]) env = evalVars X (.method a name [c.fill e] false) env) ∧
    (c!"acc" ∉ vars e → t ≠ c!"acc" → t ∉ vars (.method a c!"reduce" [c.fill e, init] false) →
      evalAssign X (.seq [.assign t e, .method a c!"reduce" [c.fill (.var t), init] false]) env = evalVars X (.method a c!"reduce" [c.fill e, init] false) env) := by
  have hl : Legacy.eval X e none (env.insert c!"x" .null) = .ok v := by
    have h0 : Eval.eval X (.array [.null]) none env = .ok (.arr [.null]) := by
      simp only [Eval.eval, Eval.argsOf, elements, bind, Except.bind, pure, Except.pure]
    have h1 := Laws.dot_map (lam := e) h0
    have h2 : Eval.eval X (dotEach (.array [.null]) c!"map" e) none env = .ok (.arr [v]) := hin
    rw [h2] at h1
    simp only [List.mapM_cons, List.mapM_nil, bind, Except.bind, pure, Except.pure] at h1
    rw [show atElement X e none env .null = Legacy.eval X e none (env.insert c!"x" .null) from rfl] at h1
    cases hw : Legacy.eval X e none (env.insert c!"x" .null) with
    | error f => rw [hw] at h1; exact nomatch h1
    | ok w => rw [hw] at h1; cases h1; rfl
  have hle : Legacy.eval X e none env = .ok v := by
    rw [← hl]
    refine legacy_same X e _ _ fun n hn => ?_
    have h1 : n ≠ c!"x" := fun h => hx (h ▸ hn)
    simp only [Env.insert, if_neg h1]
  have ha' : Eval.eval X a none (env.insert t v) = .ok (.arr items) := by
    have h1 : Eval.eval X a none (env.insert t v) = Eval.eval X a none env := C09_coincidence X a none _ _ fun n hn => by
      have h1 : n ≠ t := fun h => hta (h ▸ hn)
      simp only [Env.insert, if_neg h1]
    rw [h1]; exact ha
  have hone : ∀ u, Legacy.eval X (c.fill (.var t)) none ((env.insert t v).insert c!"x" u) = Legacy.eval X (c.fill e) none ((env.insert t v).insert c!"x" u) := by
    intro u
    refine legacy_replace X (a := .var t) trivial he _ (legacy_part X t e env _ v hle ?_ ?_) c hc
    · intro n hn
      have h1 : n ≠ c!"x" := fun h => hx (h ▸ hn)
      have h2 : n ≠ t := fun h => hte (h ▸ hn)
      simp only [Env.insert, if_neg h1, if_neg h2]
    · simp only [Env.insert, if_neg htx, if_true]
  constructor
  · intro name hn ht
    refine named_dot X t e env v hv _ _ a name _ rfl ?_ ht
    simp only [List.mem_cons, List.not_mem_nil, or_false] at hn
    rcases hn with rfl | rfl | rfl
    · refine (Laws.dot_filter ha').trans ((Laws.dot_filter ha').trans ?_).symm
      rw [show atElement X (c.fill e) none (env.insert t v) = atElement X (c.fill (.var t)) none (env.insert t v) from funext fun u => (hone u).symm]
    · refine (Laws.dot_find ha').trans ((Laws.dot_find ha').trans ?_).symm
      exact (find_congr hone items).symm
    · refine (Laws.dot_map ha').trans ((Laws.dot_map ha').trans ?_).symm
      rw [show atElement X (c.fill e) none (env.insert t v) = atElement X (c.fill (.var t)) none (env.insert t v) from funext fun u => (hone u).symm]
  · intro hacc htacc ht
    refine named_dot X t e env v hv _ _ a _ _ rfl ?_ ht
    simp only [Eval.eval, ha', bind, Except.bind, Legacy.argsOf_eq, List.map_cons, List.map_nil]
    change Method.reduce none _ items [Legacy.argOf X _, Legacy.argOf X init] = Method.reduce none _ items [Legacy.argOf X _, Legacy.argOf X init]
    simp only [Method.reduce, Legacy.argOf_run, bind, Except.bind]
    cases Legacy.eval X init none (env.insert t v) with
    | error f => rfl
    | ok w =>
      simp only [List.head?_nil, List.getElem?_nil, Method.paramName, Loop.reduce_eq]
      have hboth : ∀ u z, Legacy.eval X (c.fill (.var t)) none (((env.insert t v).insert c!"x" u).insert c!"acc" z) =
          Legacy.eval X (c.fill e) none (((env.insert t v).insert c!"x" u).insert c!"acc" z) := by
        intro u z
        refine legacy_replace X (a := .var t) trivial he _ (legacy_part X t e env _ v hle ?_ ?_) c hc
        · intro n hn
          have h1 : n ≠ c!"x" := fun h => hx (h ▸ hn)
          have h2 : n ≠ t := fun h => hte (h ▸ hn)
          have h3 : n ≠ c!"acc" := fun h => hacc (h ▸ hn)
          simp only [Env.insert, if_neg h1, if_neg h2, if_neg h3]
        · simp only [Env.insert, if_neg htx, if_neg htacc, if_true]
      simp only [hboth]

/-- A case: `:xs.map(:x * SUM(:xs))` is `:t := SUM(:xs); :xs.map(:x * :t)`, both `[3, 6]` for `[1, 2]`. -/
example (X : Ext) :
    let env := Env.empty.insert c!"xs" (.arr [.num (.fin 1), .num (.fin 2)])
    evalAssign X (.seq [.assign c!"t" (.call c!"SUM" [.var c!"xs"]), .method (.var c!"xs") c!"map" [.binary (.var c!"x") .mul (.var c!"t")] false]) env =
      evalVars X (.method (.var c!"xs") c!"map" [.binary (.var c!"x") .mul (.call c!"SUM" [.var c!"xs"])] false) env ∧
    evalVars X (.method (.var c!"xs") c!"map" [.binary (.var c!"x") .mul (.call c!"SUM" [.var c!"xs"])] false) env = .ok (.arr [.num (.fin 3), .num (.fin 6)]) :=
  ⟨(C102_hoist_dot X c!"t" (.call c!"SUM" [.var c!"xs"]) (.var c!"xs") .null trivial (.binaryR (.var c!"x") .mul .hole) trivial _ (.num (.fin 3)) [.num (.fin 1), .num (.fin 2)]
    (by kernel_rfl) (by kernel_rfl) (by kernel_rfl) (by decide) (by decide) (by decide) (by decide)).1 c!"map" (by decide) (by decide), by kernel_rfl⟩

/-- **C102: where the part must have its value in the loop, too.** In the lambda of a method `REDUCE` does not know `acc` unless it is told the name: `[10].map(REDUCE([1, 2], :acc + :x, 0))` fails,
`:t := REDUCE([1, 2], :acc + :x, 0); [10].map(:t)` is `[3]`. -/
theorem C102_hoist_dot_differs (X : Ext) :
    evaluate X c!"[10].map(REDUCE([1, 2], :acc + :x, 0))" = fail "Missing variable: :{}" [c!"acc"] ∧
    (parse c!":t := REDUCE([1, 2], :acc + :x, 0); [10].map(:t)" >>= fun p => evalAssign X p Env.empty) = .ok (.arr [.num (.fin 3)]) := by
  constructor <;> kernel_rfl

end Hoist
