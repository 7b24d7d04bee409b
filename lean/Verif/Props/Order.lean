import Mathlib.Logic.Relation
import Verif.Props.Lambda
/-! C112: parts are evaluated from left to right, and the first that fails decides the failure. -/

open Lib

namespace Order

/-! ### Which parts of an expression are evaluated, and when -/

/-- An expression, the custom functions in reach and the variables. -/
structure Site where
  funs : Option Registry
  vars : Env
  expr : Expr

/-- Its value or failure. -/
def Site.result (X : Ext) (s : Site) : Res Value :=
  match s.funs with
  | none => evalVars X s.expr s.vars
  | some reg => evalCustom X reg s.expr s.vars

/-- It has a value. -/
def Site.Fine (X : Ext) (s : Site) : Prop := ∃ v, s.result X = .ok v

/-- A part, with what is wanted of it: any value, an array (operands of spreads and of slices), or a value that can be written as
JSON (members of object literals). -/
inductive Part where
  | value (e : Expr)
  | array (e : Expr)
  | json (e : Expr)

/-- The expression. -/
def Part.expr : Part → Expr
  | .value e => e
  | .array e => e
  | .json e => e

/-- It has a value of the kind wanted. -/
def Part.Done (X : Ext) (r : Option Registry) (env : Env) : Part → Prop
  | .value e => ∃ v, (Site.mk r env e).result X = .ok v
  | .array e => ∃ vs, (Site.mk r env e).result X = .ok (.arr vs)
  | .json e => ∃ v j, (Site.mk r env e).result X = .ok v ∧ v.toJson X = .ok j

/-- An argument: of `...e`, the operand. -/
def argument : Expr → Part
  | .spread e => .array e
  | e => .value e

/-- Is a custom function of this name in reach? -/
def custom (X : Ext) (r : Option Registry) (name : Str) : Bool :=
  match r with
  | none => false
  | some reg => reg.has X name

/-- The parts of a call that are evaluated first, in this order. -/
def callParts (X : Ext) (r : Option Registry) (name : Str) (args : List Expr) : List Part :=
  if name = c!"__TERNARY__" then
    match args with
    | [c, _, _] => [.value c]
    | _ => []
  else if name = c!"__CONST_TRUE__" ∨ name = c!"__CONST_FALSE__" then []
  else if custom X r name then args.map argument
  else if name ∈ [c!"FILTER", c!"FIND", c!"MAP"] then
    match args with
    | a :: _ :: rest => .value a :: (rest.take 1).map .value
    | _ => []
  else if name = c!"REDUCE" then
    match args with
    | a :: _ :: init :: rest => .value a :: .value init :: (rest.take 2).map .value
    | _ => []
  else if name = c!"SUMIF" then
    match args with
    | [a, _] => [.value a]
    | [a, _, s] => [.value a, .value s]
    | _ => []
  else if name ∈ [c!"AVGIF", c!"COUNTIF"] then
    match args with
    | [a, _] => [.value a]
    | _ => []
  else if name = c!"JQ" then
    match args with
    | [a, b] => [.value a, .value b]
    | _ => []
  else args.map argument

/-- The parts of an expression that are evaluated first, in this order, whatever their values. -/
def parts (X : Ext) (r : Option Registry) : Expr → List Part
  | .number _ | .strLit _ | .null | .var _ | .spread _ => []
  | .unary _ e => [.value e]
  | .binary a _ b => [.value a, .value b]
  | .prop t _ => [.value t]
  | .safeProp t _ => [.value t]
  | .cast e _ => [.value e]
  | .index t i => [.value t, .value i]
  | .slice t start stop => .array t :: (start.toList ++ stop.toList).map .value
  | .array es => es.map .value
  | .object ms => ms.map fun m => .json m.2
  | .assign _ e => [.value e]
  | .seq es => es.map .value
  | .method t _ _ _ => [.value t]
  | .safeCall t _ _ => [.value t]
  | .call name args => callParts X r name args

/-- The parameter name that the remaining arguments of `FILTER`, .. give. -/
inductive Param (X : Ext) (r : Option Registry) (env : Env) (dflt : Str) : List Expr → Str → Prop where
  | none : Param X r env dflt [] dflt
  | text {e es s} : (Site.mk r env e).result X = .ok (.str s) → Param X r env dflt (e :: es) s
  | other {e es v} : (Site.mk r env e).result X = .ok v → (∀ s, v ≠ .str s) → Param X r env dflt (e :: es) dflt

/-- The accumulator after some elements. -/
inductive Folded (X : Ext) (lam : Expr) (env : Env) (p q : Str) : Value → List Value → Value → Prop where
  | none {acc} : Folded X lam env p q acc [] acc
  | one {acc it acc' rest acc''} : evalVars X lam ((env.insert p it).insert q acc) = .ok acc' → Folded X lam env p q acc' rest acc'' →
      Folded X lam env p q acc (it :: rest) acc''

/-- The parts that are evaluated depending on the values of others: the branch taken of a ternary, and the lambda on each element in
turn. -/
inductive Later (X : Ext) : Site → Site → Prop where
  | whenTrue {r env c a b} : (Site.mk r env c).result X = .ok (.bool true) → Later X ⟨r, env, .call c!"__TERNARY__" [c, a, b]⟩ ⟨r, env, a⟩
  | whenFalse {r env c a b} : (Site.mk r env c).result X = .ok (.bool false) → Later X ⟨r, env, .call c!"__TERNARY__" [c, a, b]⟩ ⟨r, env, b⟩
  | each {r env name a lam rest p done it more} : name ∈ [c!"FILTER", c!"MAP"] → custom X r name = false →
      (Site.mk r env a).result X = .ok (.arr (done ++ it :: more)) → Param X r env c!"x" rest p →
      (∀ d ∈ done, (Site.mk none (env.insert p d) lam).Fine X) →
      Later X ⟨r, env, .call name (a :: lam :: rest)⟩ ⟨none, env.insert p it, lam⟩
  | search {r env a lam rest p done it more} : custom X r c!"FIND" = false →
      (Site.mk r env a).result X = .ok (.arr (done ++ it :: more)) → Param X r env c!"x" rest p →
      (∀ d ∈ done, ∃ v, (Site.mk none (env.insert p d) lam).result X = .ok v ∧ v ≠ .bool true) →
      Later X ⟨r, env, .call c!"FIND" (a :: lam :: rest)⟩ ⟨none, env.insert p it, lam⟩
  | fold {r env a lam init rest p q acc done acc' it more} : custom X r c!"REDUCE" = false →
      (Site.mk r env a).result X = .ok (.arr (done ++ it :: more)) → (Site.mk r env init).result X = .ok acc →
      Param X r env c!"x" rest p → Param X r env c!"acc" (rest.drop 1) q → Folded X lam env p q acc done acc' →
      Later X ⟨r, env, .call c!"REDUCE" (a :: lam :: init :: rest)⟩ ⟨none, (env.insert p it).insert q acc', lam⟩
  | tally {r env name a lam done it more} : name ∈ [c!"AVGIF", c!"COUNTIF"] → custom X r name = false →
      (Site.mk r env a).result X = .ok (.arr (done ++ it :: more)) →
      (∀ d ∈ done, (Site.mk none (env.insert c!"x" d) lam).Fine X) →
      Later X ⟨r, env, .call name [a, lam]⟩ ⟨none, env.insert c!"x" it, lam⟩
  /-- The criterion of `SUMIF` is a lambda when it has no value, or one that is neither a text nor a number, by itself. -/
  | sum {r env a lam done it more} : custom X r c!"SUMIF" = false →
      (Site.mk r env a).result X = .ok (.arr (done ++ it :: more)) →
      (∀ s, (Site.mk r env lam).result X ≠ .ok (.str s)) → (∀ n, (Site.mk r env lam).result X ≠ .ok (.num n)) →
      (∀ w, (Site.mk r env lam).result X ≠ .error (.panic w)) →
      (∀ d ∈ done, (Site.mk none (env.insert c!"x" d) lam).Fine X) →
      Later X ⟨r, env, .call c!"SUMIF" [a, lam]⟩ ⟨none, env.insert c!"x" it, lam⟩
  /-- A criterion may fail, but not panic. -/
  | criterion {r env a lam rest w} : custom X r c!"SUMIF" = false → rest.length ≤ 1 → (∀ e ∈ a :: rest, (Site.mk r env e).Fine X) →
      (Site.mk r env lam).result X = .error (.panic w) → Later X ⟨r, env, .call c!"SUMIF" (a :: lam :: rest)⟩ ⟨r, env, lam⟩

/-- `Next X s t`: evaluating `s` comes to evaluate its part `t`, everything evaluated before it having succeeded. -/
inductive Next (X : Ext) : Site → Site → Prop where
  | part {r env e before p after} : parts X r e = before ++ p :: after → (∀ q ∈ before, q.Done X r env) → Next X ⟨r, env, e⟩ ⟨r, env, p.expr⟩
  | later {s t} : Later X s t → Next X s t

/-- Parts of parts of .. -/
abbrev Reaches (X : Ext) : Site → Site → Prop := Relation.ReflTransGen (Next X)

/-- `s` fails by itself: all its parts that are evaluated have values. -/
def Culprit (X : Ext) (s : Site) (f : Fail) : Prop := s.result X = .error f ∧ ∀ t, Next X s t → t.Fine X

/-! ### The evaluator in terms of parts -/

theorem result_eq (X : Ext) (s : Site) : s.result X = Eval.eval X s.expr s.funs s.vars := by
  rcases s with ⟨_ | _, _, _⟩ <;> rfl

/-- Evaluate parts from left to right; `bad` is the failure for a value that is no array. -/
def runPart (X : Ext) (bad : Fail) (r : Option Registry) (env : Env) : Part → Res Value
  | .value e => Eval.eval X e r env
  | .array e => do
    match ← Eval.eval X e r env with
    | .arr vs => .ok (.arr vs)
    | _ => .error bad
  | .json e => do
    let v ← Eval.eval X e r env
    let _ ← v.toJson X
    return v

/-- Evaluate parts from left to right. -/
def runParts (X : Ext) (bad : Fail) (r : Option Registry) (env : Env) : List Part → Res (List Value)
  | [] => .ok []
  | p :: ps => do
    let v ← runPart X bad r env p
    let vs ← runParts X bad r env ps
    return v :: vs

theorem runPart_error {X : Ext} {bad : Fail} {r : Option Registry} {env : Env} {p : Part} {f : Fail}
    (h : (Site.mk r env p.expr).result X = .error f) : runPart X bad r env p = .error f := by
  rw [result_eq] at h
  cases p <;> simp only [Part.expr] at h <;> simp only [runPart, h, bind, Except.bind]

theorem runPart_done {X : Ext} {bad : Fail} {r : Option Registry} {env : Env} {p : Part} (h : p.Done X r env) :
    ∃ v, runPart X bad r env p = .ok v := by
  cases p <;> simp only [Part.Done, result_eq] at h
  · exact h
  · obtain ⟨v, h⟩ := h; exact ⟨.arr v, by simp only [runPart, h, bind, Except.bind]⟩
  · obtain ⟨v, j, h, h'⟩ := h; exact ⟨v, by simp only [runPart, h, h', bind, Except.bind, pure, Except.pure]⟩

theorem runParts_first {X : Ext} (bad : Fail) {r : Option Registry} {env : Env} {before after : List Part} {p : Part} {f : Fail}
    (hb : ∀ q ∈ before, q.Done X r env) (h : (Site.mk r env p.expr).result X = .error f) :
    runParts X bad r env (before ++ p :: after) = .error f := by
  induction before with
  | nil => simp only [List.nil_append, runParts, runPart_error h, bind, Except.bind]
  | cons q before ih =>
    obtain ⟨v, hv⟩ := runPart_done (bad := bad) (hb q (by simp))
    simp only [List.cons_append, runParts, hv, ih (fun q hq => hb q (by simp [hq])), bind, Except.bind]

theorem evalArgs_parts (X : Ext) (r : Option Registry) (env : Env) (es : List Expr) :
    ∃ k : List Value → List Value, evalArgs r env (Eval.argsOf X es) = (runParts X (.err "Spread expects array" [] none) r env (es.map argument) >>= fun vs => .ok (k vs)) := by
  induction es with
  | nil => exact ⟨fun _ => [], rfl⟩
  | cons e es ih =>
    obtain ⟨k, ih⟩ := ih
    rw [Eval.argsOf_cons, evalArgs]
    by_cases hs : ∃ i, e = .spread i
    · obtain ⟨i, rfl⟩ := hs
      refine ⟨fun vs => match vs with | .arr items :: rest => items ++ k rest | _ => [], ?_⟩
      simp only [Eval.argOf, List.map_cons, argument, runParts, runPart, bind, Except.bind]
      cases h : Eval.eval X i r env with
      | error f => rfl
      | ok v =>
        cases v <;> first | rfl | skip
        simp only [ih, bind, Except.bind, pure, Except.pure]
        cases runParts X (.err "Spread expects array" [] none) r env (es.map argument) <;> rfl
    · refine ⟨fun vs => match vs with | v :: rest => v :: k rest | _ => [], ?_⟩
      have hn : (Eval.argOf X e).spread = none := by
        cases e <;> first | rfl | exact absurd ⟨_, rfl⟩ hs
      have ha : argument e = .value e := by
        cases e <;> first | rfl | exact absurd ⟨_, rfl⟩ hs
      simp only [hn, Eval.argOf_run, List.map_cons, ha, runParts, runPart, bind, Except.bind, ih, pure, Except.pure]
      cases Eval.eval X e r env with
      | error f => rfl
      | ok v => cases runParts X (.err "Spread expects array" [] none) r env (es.map argument) <;> rfl

theorem elements_parts (X : Ext) (bad : Fail) (r : Option Registry) (env : Env) (es : List Expr) :
    elements r env (Eval.argsOf X es) = runParts X bad r env (es.map .value) := by
  induction es with
  | nil => rfl
  | cons e es ih =>
    rw [Eval.argsOf_cons, elements, ih]; rfl

theorem lastOf_parts (X : Ext) (bad : Fail) (r : Option Registry) (env : Env) (last : Value) (es : List Expr) :
    lastOf r env last (Eval.argsOf X es) = (runParts X bad r env (es.map .value) >>= fun vs => .ok (vs.getLast?.getD last)) := by
  induction es generalizing last with
  | nil => rfl
  | cons e es ih =>
    rw [Eval.lastOf_argsOf]
    simp only [List.map_cons, runParts, runPart, bind, Except.bind, pure, Except.pure, ih]
    cases Eval.eval X e r env with
    | error f => rfl
    | ok v =>
      simp only
      cases runParts X bad r env (es.map .value) with
      | error f => rfl
      | ok vs => cases vs <;> simp [List.getLast?_cons]

theorem members_parts (X : Ext) (bad : Fail) (r : Option Registry) (env : Env) (acc : List (Str × Json)) (ms : List (Str × Expr)) :
    ∃ k : List Value → List (Str × Json), objectMembers X r env acc (Eval.membersOf X ms) = (runParts X bad r env (ms.map fun m => .json m.2) >>= fun vs => .ok (k vs)) := by
  induction ms generalizing acc with
  | nil => exact ⟨fun _ => acc, rfl⟩
  | cons m ms ih =>
    obtain ⟨n, e⟩ := m
    rw [Eval.membersOf, objectMembers]
    simp only [List.map_cons, runParts, runPart, bind, Except.bind, pure, Except.pure]
    cases Eval.eval X e r env with
    | error f => exact ⟨fun _ => [], rfl⟩
    | ok v =>
      simp only
      cases v.toJson X with
      | error f => exact ⟨fun _ => [], rfl⟩
      | ok j =>
        obtain ⟨k, ih⟩ := ih (objInsert n j acc)
        refine ⟨fun vs => k vs.tail, ?_⟩
        simp only [ih, bind, Except.bind]
        cases runParts X bad r env (ms.map fun m => .json m.2) <;> rfl

theorem custom_iff {X : Ext} {r : Option Registry} {name : Str} : custom X r name = true ↔ ∃ reg, r = some reg ∧ reg.has X name = true := by
  cases r <;> simp [custom]

theorem notCustom_iff {X : Ext} {r : Option Registry} {name : Str} : custom X r name = false ↔ Spec.NotCustom X r name := by
  cases r <;> simp [custom, Spec.NotCustom]

/-- Evaluating a call begins with its parts. -/
theorem call_parts (X : Ext) (r : Option Registry) (env : Env) (name : Str) (args : List Expr) :
    ∃ (bad : Fail) (k : List Value → Res Value), Eval.eval X (.call name args) r env = runParts X bad r env (callParts X r name args) >>= k := by
  have pure1 : ∀ (a : Expr) (k : Value → Res Value),
      (Eval.eval X a r env >>= k) = runParts X (.panic "") r env [.value a] >>= fun vs => k (vs.headD .null) := by
    intro a k
    simp only [runParts, runPart, bind, Except.bind, pure, Except.pure]
    cases Eval.eval X a r env <;> rfl
  have none : ∀ v : Res Value, v = runParts X (.panic "") r env [] >>= fun _ => v := fun _ => rfl
  rw [callParts.eq_def]
  by_cases h1 : name = c!"__TERNARY__"
  · rw [if_pos h1]
    subst h1
    simp only [Eval.eval, Eval.call, if_true, Eval.argsOf_eq]
    rcases args with _ | ⟨a, _ | ⟨b, _ | ⟨c, _ | ⟨d, rest⟩⟩⟩⟩ <;> simp only [List.map_cons, List.map_nil, Legacy.ternary, Eval.argOf_run]
    all_goals first | exact ⟨_, _, none _⟩ | exact ⟨_, _, pure1 _ _⟩
  rw [if_neg h1]
  by_cases h2 : name = c!"__CONST_TRUE__" ∨ name = c!"__CONST_FALSE__"
  · rw [if_pos h2]
    exact ⟨.panic "", fun _ => Eval.eval X (.call name args) r env, none _⟩
  rw [if_neg h2]
  by_cases h3 : custom X r name = true
  · rw [if_pos h3]
    obtain ⟨k, hk⟩ := evalArgs_parts X r env args
    obtain ⟨reg, rfl, hreg⟩ := custom_iff.1 h3
    refine ⟨.err "Spread expects array" [] Option.none, fun vs => reg.execute X name (k vs), ?_⟩
    simp only [not_or] at h2
    simp only [Eval.eval, Eval.call, if_neg h1, if_neg h2.1, if_neg h2.2, hreg, if_true, hk, bind, Except.bind]
    cases runParts X (.err "Spread expects array" [] Option.none) (some reg) env (args.map argument) <;> rfl
  rw [if_neg h3]
  simp only [not_or] at h2
  have hc := notCustom_iff.1 (Bool.eq_false_iff.2 h3)
  by_cases h4 : name ∈ [c!"FILTER", c!"FIND", c!"MAP"]
  · rw [if_pos h4]
    simp only [List.mem_cons, List.not_mem_nil, or_false] at h4
    have two : ∀ (a : Expr) (rest : List Expr) (k : Value → Str → Res Value), ∃ k' : List Value → Res Value,
        (Eval.eval X a r env >>= fun v => Eval.paramName r env c!"x" (rest.map (Eval.argOf X)).head? >>= k v) =
          runParts X (.panic "") r env (.value a :: (rest.take 1).map .value) >>= k' := by
      intro a rest k
      cases rest with
      | nil =>
        refine ⟨fun vs => k (vs.headD .null) c!"x", ?_⟩
        simp only [List.map_nil, List.head?_nil, Eval.paramName, List.take_nil, runParts, runPart, bind, Except.bind, pure, Except.pure]
        cases Eval.eval X a r env <;> rfl
      | cons e rest =>
        refine ⟨fun vs => k (vs.headD .null) (match vs.tail.headD .null with | .str s => s | _ => c!"x"), ?_⟩
        simp only [List.map_cons, List.head?_cons, Eval.paramName, List.take_succ_cons, List.take_zero, List.map_nil, runParts, runPart, bind, Except.bind,
          pure, Except.pure, Eval.argOf_run]
        cases Eval.eval X a r env with
        | error f => rfl
        | ok v =>
          simp only
          cases Eval.eval X e r env with
          | error f => rfl
          | ok w => cases w <;> rfl
    have go : ∀ f, Eval.higherOrder X name = some f →
        (∀ a lam rest, ∃ k : Value → Str → Res Value, f r env (a :: lam :: rest) = a.run r env >>= fun v => Eval.paramName r env c!"x" rest.head? >>= k v) →
        ∃ (bad : Fail) (k : List Value → Res Value), Eval.eval X (.call name args) r env = runParts X bad r env (match args with
          | a :: _ :: rest => .value a :: (rest.take 1).map .value
          | _ => []) >>= k := by
      intro f hf hl
      rw [call_higherOrder X name args r env f (by simp [h1, h2]) hf hc]
      rcases args with _ | ⟨a, _ | ⟨b, rest⟩⟩
      · exact ⟨_, _, none _⟩
      · exact ⟨_, _, none _⟩
      · obtain ⟨k, hk⟩ := hl (Eval.argOf X a) (Eval.argOf X b) (rest.map (Eval.argOf X))
        obtain ⟨k', hk'⟩ := two a rest k
        simp only [List.map_cons, hk, Eval.argOf_run]
        exact ⟨_, k', hk'⟩
    rcases h4 with rfl | rfl | rfl
    · exact go _ rfl fun a lam rest => ⟨_, rfl⟩
    · exact go _ rfl fun a lam rest => ⟨_, rfl⟩
    · exact go _ rfl fun a lam rest => ⟨_, rfl⟩
  rw [if_neg h4]
  by_cases h5 : name = c!"REDUCE"
  · rw [if_pos h5]
    subst h5
    rw [call_higherOrder X _ args r env Eval.reduce (by decide) rfl hc]
    rcases args with _ | ⟨a, _ | ⟨b, _ | ⟨c, rest⟩⟩⟩
    · exact ⟨_, _, none _⟩
    · exact ⟨_, _, none _⟩
    · exact ⟨_, _, none _⟩
    · simp only [List.map_cons, Eval.reduce, Eval.argOf_run]
      refine ⟨.panic "", fun vs =>
        let p := match rest, vs with | _ :: _, _ :: _ :: .str s :: _ => s | _, _ => c!"x"
        let q := match rest, vs with | _ :: _ :: _, _ :: _ :: _ :: .str s :: _ => s | _, _ => c!"acc"
        match vs.headD .null with
          | .arr items => Loop.reduce (Eval.eval X b .none) p q env (vs.tail.headD .null) items
          | _ => fail "REDUCE first arg must be array", ?_⟩
      rcases rest with _ | ⟨d, _ | ⟨e, rest⟩⟩
      all_goals
        simp only [List.map_cons, List.map_nil, List.head?_cons, List.head?_nil, Eval.paramName, List.take_succ_cons, List.take_zero, List.take_nil, runParts, runPart, bind, Except.bind,
          pure, Except.pure, Eval.argOf_run, List.getElem?_cons_succ, List.getElem?_cons_zero, List.getElem?_nil]
        rcases Eval.eval X a r env with f | x
        · rfl
        rcases Eval.eval X c r env with f | y
        · rfl
      · rfl
      · rcases Eval.eval X d r env with f | z
        · rfl
        cases z <;> rfl
      · rcases Eval.eval X d r env with f | z
        · rfl
        rcases hE : Eval.eval X e r env with f | w
        · cases z <;> rfl
        cases z <;> cases w <;> rfl
  rw [if_neg h5]
  by_cases h6 : name = c!"SUMIF"
  · rw [if_pos h6]
    subst h6
    rw [call_higherOrder X _ args r env Eval.sumif (by decide) rfl hc]
    rcases args with _ | ⟨a, _ | ⟨b, _ | ⟨c, _ | ⟨d, rest⟩⟩⟩⟩
    · exact ⟨_, _, none _⟩
    · exact ⟨_, _, none _⟩
    · simp only [List.map_cons, List.map_nil, Eval.sumif, Eval.argOf_run]
      exact ⟨_, _, pure1 _ _⟩
    · simp only [List.map_cons, List.map_nil, Eval.sumif, Eval.argOf_run]
      refine ⟨.panic "", fun vs => (Eval.staticCriterion r env (Eval.argOf X b)) >>= fun o => match o with
        | some crit => .ok (.num (Eval.sumifExcel (vs.headD .null) crit (vs.tail.headD .null)))
        | .none => fail "Lambda-style SUMIF expects exactly (array, expr)", ?_⟩
      simp only [runParts, runPart, bind, Except.bind, pure, Except.pure]
      rcases Eval.eval X a r env with f | x
      · rfl
      rcases Eval.eval X c r env with f | y
      · rfl
      rcases Eval.staticCriterion r env (Eval.argOf X b) with f | o
      · rfl
      cases o <;> rfl
    · exact ⟨_, _, none _⟩
  rw [if_neg h6]
  by_cases h7 : name ∈ [c!"AVGIF", c!"COUNTIF"]
  · rw [if_pos h7]
    simp only [List.mem_cons, List.not_mem_nil, or_false] at h7
    rcases h7 with rfl | rfl
    · rw [call_higherOrder X _ args r env Eval.avgif (by decide) rfl hc]
      rcases args with _ | ⟨a, _ | ⟨b, _ | ⟨c, rest⟩⟩⟩
      · exact ⟨_, _, none _⟩
      · exact ⟨_, _, none _⟩
      · simp only [List.map_cons, List.map_nil, Eval.avgif, Eval.argOf_run]
        exact ⟨_, _, pure1 _ _⟩
      · exact ⟨_, _, none _⟩
    · rw [call_higherOrder X _ args r env Eval.countif (by decide) rfl hc]
      rcases args with _ | ⟨a, _ | ⟨b, _ | ⟨c, rest⟩⟩⟩
      · exact ⟨_, _, none _⟩
      · exact ⟨_, _, none _⟩
      · simp only [List.map_cons, List.map_nil, Eval.countif, Eval.argOf_run]
        exact ⟨_, _, pure1 _ _⟩
      · exact ⟨_, _, none _⟩
  rw [if_neg h7]
  by_cases h8 : name = c!"JQ"
  · rw [if_pos h8]
    subst h8
    rw [call_higherOrder X _ args r env (Eval.jq X) (by decide) rfl hc]
    rcases args with _ | ⟨a, _ | ⟨b, _ | ⟨c, rest⟩⟩⟩
    · exact ⟨_, _, none _⟩
    · exact ⟨_, _, none _⟩
    · refine ⟨.panic "", fun vs => match vs.tail.headD .null with
        | .str path =>
          if Str.startsWith path c!"$" then JsonFn.applyJsonPath X (vs.headD .null) path
          else fail "JQ second argument must be a valid JSONPath expression starting with $"
        | _ => fail "JQ second argument must be a string", ?_⟩
      simp only [List.map_cons, List.map_nil, Eval.jq, Eval.argOf_run, runParts, runPart, bind, Except.bind, pure, Except.pure]
      rcases Eval.eval X a r env with f | x
      · rfl
      rcases Eval.eval X b r env with f | y
      · rfl
      rfl
    · exact ⟨_, _, none _⟩
  · rw [if_neg h8]
    obtain ⟨k, hk⟩ := evalArgs_parts X r env args
    refine ⟨.err "Spread expects array" [] Option.none, fun vs => execFast X name (k vs), ?_⟩
    have hh : Eval.higherOrder X name = Option.none := by
      simp only [List.mem_cons, List.not_mem_nil, or_false, not_or] at h4 h7
      simp [Eval.higherOrder, h4, h5, h6, h7, h8]
    have hm : (match (generalizing := false) r with | some reg => if reg.has X name then some reg else .none | .none => .none) = (Option.none : Option Registry) := by
      cases r with
      | none => rfl
      | some reg => simp [hc reg rfl]
    simp only [Eval.eval, Eval.call, if_neg h1, if_neg h2.1, if_neg h2.2, hh]
    split
    · rename_i hx; exact absurd (hm.symm.trans hx) (by simp)
    · simp only [hk, bind, Except.bind]
      cases runParts X (.err "Spread expects array" [] Option.none) r env (args.map argument) <;> rfl

/-- Evaluating an expression begins with its parts. -/
theorem eval_parts (X : Ext) (r : Option Registry) (env : Env) (e : Expr) :
    ∃ (bad : Fail) (k : List Value → Res Value), Eval.eval X e r env = runParts X bad r env (parts X r e) >>= k := by
  have pure1 : ∀ (a : Expr) (k : Value → Res Value),
      (Eval.eval X a r env >>= k) = runParts X (.panic "") r env [.value a] >>= fun vs => k (vs.headD .null) := by
    intro a k
    simp only [runParts, runPart, bind, Except.bind, pure, Except.pure]
    cases Eval.eval X a r env <;> rfl
  have pure2 : ∀ (a b : Expr) (k : Value → Value → Res Value),
      (Eval.eval X a r env >>= fun x => Eval.eval X b r env >>= k x) =
        runParts X (.panic "") r env [.value a, .value b] >>= fun vs => k (vs.headD .null) (vs.tail.headD .null) := by
    intro a b k
    simp only [runParts, runPart, bind, Except.bind, pure, Except.pure]
    cases Eval.eval X a r env with
    | error f => rfl
    | ok x => cases Eval.eval X b r env <;> rfl
  cases e with
  | number n => exact ⟨.panic "", fun _ => .ok (.num n), by simp only [Eval.eval, parts]; rfl⟩
  | strLit n => exact ⟨.panic "", fun _ => .ok (.str n), by simp only [Eval.eval, parts]; rfl⟩
  | null => exact ⟨.panic "", fun _ => .ok .null, by simp only [Eval.eval, parts]; rfl⟩
  | var n => exact ⟨.panic "", fun _ => Eval.eval X (.var n) r env, by simp only [parts]; rfl⟩
  | spread n => exact ⟨.panic "", fun _ => Eval.eval X (.spread n) r env, by simp only [parts]; rfl⟩
  | unary op e => exact ⟨_, _, by simp only [Eval.eval, parts]; exact pure1 e _⟩
  | binary a op b => exact ⟨_, _, by simp only [Eval.eval, parts]; exact pure2 a b _⟩
  | prop t n => exact ⟨_, _, by simp only [Eval.eval, parts]; exact pure1 t _⟩
  | safeProp t n => exact ⟨_, _, by simp only [Eval.eval, parts]; exact pure1 t _⟩
  | cast t n => exact ⟨_, _, by simp only [Eval.eval, parts]; exact pure1 t _⟩
  | method t n as p => exact ⟨_, _, by simp only [Eval.eval, parts]; exact pure1 t _⟩
  | safeCall t n as => exact ⟨_, _, by simp only [Eval.eval, parts]; exact pure1 t _⟩
  | index t i => exact ⟨_, _, by simp only [Eval.eval, parts]; exact pure2 t i _⟩
  | assign n e => exact ⟨.panic "", fun vs => .ok (vs.headD .null), by
      have := pure1 e .ok
      simp only [Eval.eval, parts]
      rw [← this]
      cases Eval.eval X e r env <;> rfl⟩
  | array es => exact ⟨.panic "", fun vs => .ok (.arr vs), by simp only [Eval.eval, parts, elements_parts X (.panic "")]; rfl⟩
  | seq es => exact ⟨.panic "", _, by simp only [Eval.eval, parts]; exact lastOf_parts X (.panic "") r env .null es⟩
  | object ms =>
    obtain ⟨k, h⟩ := members_parts X (.panic "") r env [] ms
    refine ⟨.panic "", fun vs => .ok (.json (X.jsonPrint (.obj (k vs)))), ?_⟩
    simp only [Eval.eval, parts, h, bind, Except.bind, pure, Except.pure]
    cases runParts X (.panic "") r env (ms.map fun m => .json m.2) <;> rfl
  | slice t start stop =>
    refine ⟨.err "Slice on non-array" [] none, fun vs => match vs, start, stop with
      | [.arr items], none, none => sliceArray items none none
      | [.arr items, s], some _, none => sliceArray items (some s) none
      | [.arr items, e], none, some _ => sliceArray items none (some e)
      | [.arr items, s, e], some _, some _ => sliceArray items (some s) (some e)
      | _, _, _ => panics "", ?_⟩
    simp only [Eval.eval, parts, runParts, runPart, bind, Except.bind, pure, Except.pure]
    cases Eval.eval X t r env with
    | error f => rfl
    | ok v =>
      cases v <;> try rfl
      cases start with
      | none =>
        cases stop with
        | none => rfl
        | some e =>
          simp only [Eval.optOf, Legacy.optional, Option.toList, List.nil_append, List.map_cons, List.map_nil, runParts, runPart, bind, Except.bind, pure, Except.pure]
          cases Eval.eval X e r env <;> rfl
      | some s =>
        cases stop with
        | none =>
          simp only [Eval.optOf, Legacy.optional, Option.toList, List.append_nil, List.map_cons, List.map_nil, runParts, runPart, bind, Except.bind, pure, Except.pure]
          cases Eval.eval X s r env <;> rfl
        | some e =>
          simp only [Eval.optOf, Legacy.optional, Option.toList, List.cons_append, List.nil_append, List.map_cons, List.map_nil, runParts, runPart, bind, Except.bind, pure, Except.pure]
          cases Eval.eval X s r env with
          | error f => rfl
          | ok s => cases Eval.eval X e r env <;> rfl
  | call n as => exact call_parts X r env n as

/-! ### Propagation -/

theorem part_fails {X : Ext} {r : Option Registry} {env : Env} {e : Expr} {before after : List Part} {p : Part} {f : Fail}
    (hp : parts X r e = before ++ p :: after) (hb : ∀ q ∈ before, q.Done X r env) (h : (Site.mk r env p.expr).result X = .error f) :
    (Site.mk r env e).result X = .error f := by
  obtain ⟨bad, k, hk⟩ := eval_parts X r env e
  rw [result_eq, hk, hp, runParts_first bad hb h]
  rfl

theorem param_name {X : Ext} {r : Option Registry} {env : Env} {d p : Str} {rest : List Expr} (h : Param X r env d rest p) :
    Eval.paramName r env d (rest.map (Eval.argOf X)).head? = .ok p := by
  cases h with
  | none => rfl
  | text h =>
    rw [result_eq] at h
    simp only [List.map_cons, List.head?_cons, Eval.paramName, Eval.argOf_run, h, bind, Except.bind, pure, Except.pure]
  | @other e es v h hv =>
    rw [result_eq] at h
    simp only [List.map_cons, List.head?_cons, Eval.paramName, Eval.argOf_run, h, bind, Except.bind, pure, Except.pure]

theorem param_name2 {X : Ext} {r : Option Registry} {env : Env} {d p : Str} {rest : List Expr} (h : Param X r env d (rest.drop 1) p) :
    Eval.paramName r env d (rest.map (Eval.argOf X))[1]? = .ok p := by
  have := param_name h
  rcases rest with _ | ⟨a, _ | ⟨b, rest⟩⟩ <;> exact this

section loops
variable {lam : Env → Res Value} {env : Env} {it : Value} {more : List Value} {f : Fail}

theorem map_fails {p : Str} {done : List Value} (hd : ∀ d ∈ done, ∃ v, lam (env.insert p d) = .ok v) (h : lam (env.insert p it) = .error f) :
    (done ++ it :: more).mapM (fun v => lam (env.insert p v)) = .error f := by
  induction done with
  | nil => simp only [List.nil_append, List.mapM_cons, h, bind, Except.bind]
  | cons d done ih =>
    obtain ⟨v, hv⟩ := hd d (by simp)
    simp only [List.cons_append, List.mapM_cons, hv, ih (fun d hd' => hd d (by simp [hd'])), bind, Except.bind]

theorem find_fails {p : Str} {done : List Value} (hd : ∀ d ∈ done, ∃ v, lam (env.insert p d) = .ok v ∧ v ≠ .bool true)
    (h : lam (env.insert p it) = .error f) : Loop.find lam p env (done ++ it :: more) = .error f := by
  have go : ∀ env' : Env, (∀ v, env'.insert p v = env.insert p v) → Loop.find lam p env' (done ++ it :: more) = .error f := by
    induction done with
    | nil => intro env' he; simp only [List.nil_append, Loop.find, he, h, bind, Except.bind]
    | cons d done ih =>
      intro env' he
      obtain ⟨v, hv, hn⟩ := hd d (by simp)
      have : isTrue v = false := by
        cases v <;> first | rfl | skip
        rename_i b; cases b
        · rfl
        · exact absurd rfl hn
      simp only [List.cons_append, Loop.find, he, hv, bind, Except.bind, this, Bool.false_eq_true, if_false]
      exact ih (fun d hd' => hd d (by simp [hd'])) _ (fun w => by rw [← he d, Env.insert_same, he])
  exact go env fun _ => rfl

end loops

theorem fold_fails {X : Ext} {lam : Expr} {env : Env} {p q : Str} {acc acc' it : Value} {done more : List Value} {f : Fail}
    (hd : Folded X lam env p q acc done acc') (h : evalVars X lam ((env.insert p it).insert q acc') = .error f) :
    (done ++ it :: more).foldlM (fun acc v => evalVars X lam ((env.insert p v).insert q acc)) acc = .error f := by
  induction hd with
  | none => simp only [List.nil_append, List.foldlM_cons, h, bind, Except.bind]
  | one h1 _ ih => simp only [List.cons_append, List.foldlM_cons, h1, ih h, bind, Except.bind]

theorem later_fails {X : Ext} {s t : Site} {f : Fail} (hl : Later X s t) (h : t.result X = .error f) : s.result X = .error f := by
  cases hl with
  | whenTrue hc =>
    rw [result_eq] at *
    simp only [Eval.eval, Eval.call, if_true, Eval.argsOf_eq, List.map_cons, List.map_nil, Legacy.ternary, Eval.argOf_run, hc, bind, Except.bind, Value.asBool]
    exact h
  | whenFalse hc =>
    rw [result_eq] at *
    simp only [Eval.eval, Eval.call, if_true, Eval.argsOf_eq, List.map_cons, List.map_nil, Legacy.ternary, Eval.argOf_run, hc, bind, Except.bind, Value.asBool,
      Bool.false_eq_true, if_false]
    exact h
  | each hn hc ha hp hd =>
    rw [notCustom_iff] at hc
    simp only [Site.Fine, result_eq] at *
    simp only [List.mem_cons, List.not_mem_nil, or_false] at hn
    rcases hn with rfl | rfl
    · rw [call_higherOrder X _ _ _ _ Eval.filter (by decide) rfl hc]
      simp only [List.map_cons, Eval.filter, Eval.argOf_run, ha, param_name hp, bind, Except.bind, Loop.filter_eq]
      rw [map_fails (lam := Eval.eval X _ none) hd h]; rfl
    · rw [call_higherOrder X _ _ _ _ Eval.map (by decide) rfl hc]
      simp only [List.map_cons, Eval.map, Eval.argOf_run, ha, param_name hp, bind, Except.bind, Loop.map_eq]
      rw [map_fails (lam := Eval.eval X _ none) hd h]
  | search hc ha hp hd =>
    rw [notCustom_iff] at hc
    simp only [result_eq] at *
    rw [call_higherOrder X _ _ _ _ Eval.find (by decide) rfl hc]
    simp only [List.map_cons, Eval.find, Eval.argOf_run, ha, param_name hp, bind, Except.bind]
    exact find_fails (lam := Eval.eval X _ none) hd h
  | fold hc ha hi hp hq hd =>
    rw [notCustom_iff] at hc
    have h' := fun more => fold_fails (more := more) hd h
    simp only [result_eq] at ha hi ⊢
    rw [call_higherOrder X _ _ _ _ Eval.reduce (by decide) rfl hc]
    simp only [List.map_cons, Eval.reduce, Eval.argOf_run, ha, hi, param_name hp, param_name2 hq, bind, Except.bind, Loop.reduce_eq]
    exact h' _
  | tally hn hc ha hd =>
    rw [notCustom_iff] at hc
    simp only [Site.Fine, result_eq] at *
    simp only [List.mem_cons, List.not_mem_nil, or_false] at hn
    rcases hn with rfl | rfl
    · rw [call_higherOrder X _ _ _ _ Eval.avgif (by decide) rfl hc]
      simp only [List.map_cons, List.map_nil, Eval.avgif, Eval.argOf_run, ha, bind, Except.bind, Loop.avgif_eq]
      rw [map_fails (lam := Eval.eval X _ none) hd h]; rfl
    · rw [call_higherOrder X _ _ _ _ Eval.countif (by decide) rfl hc]
      simp only [List.map_cons, List.map_nil, Eval.countif, Eval.argOf_run, ha, bind, Except.bind, Loop.countif_eq]
      rw [map_fails (lam := Eval.eval X _ none) hd h]; rfl
  | @sum r env a lam done it more hc ha h1 h2 h3 hd =>
    rw [notCustom_iff] at hc
    simp only [Site.Fine, result_eq] at *
    rw [call_higherOrder X _ _ _ _ Eval.sumif (by decide) rfl hc]
    have hs : Eval.staticCriterion r env (Eval.argOf X lam) = .ok none := by
      simp only [Eval.staticCriterion, Eval.argOf_run]
      cases hE : Eval.eval X lam r env with
      | error g =>
        cases g with
        | err => rfl
        | panic w => exact absurd hE (h3 w)
      | ok v => cases v <;> first | rfl | exact absurd hE (h1 _) | exact absurd hE (h2 _)
    simp only [List.map_cons, List.map_nil, Eval.sumif, Eval.argOf_run, ha, bind, Except.bind, pure, Except.pure, hs, Option.isSome_none, Bool.false_eq_true, if_false, Loop.sumif_eq]
    rw [map_fails (lam := Eval.eval X _ none) hd h]; rfl
  | @criterion r env a lam rest w hc hr hd hw =>
    rw [notCustom_iff] at hc
    rw [hw] at h; cases h
    simp only [Site.Fine, result_eq] at *
    rw [call_higherOrder X _ _ _ _ Eval.sumif (by decide) rfl hc]
    have hs : Eval.staticCriterion r env (Eval.argOf X lam) = .error (.panic w) := by
      simp only [Eval.staticCriterion, Eval.argOf_run, hw]
    obtain ⟨v, hv⟩ := hd a (by simp)
    rcases rest with _ | ⟨s, _ | _⟩
    · simp only [List.map_cons, List.map_nil, Eval.sumif, Eval.argOf_run, hv, bind, Except.bind, pure, Except.pure, hs]
    · obtain ⟨u, hu⟩ := hd s (by simp)
      simp only [List.map_cons, List.map_nil, Eval.sumif, Eval.argOf_run, hv, hu, bind, Except.bind, pure, Except.pure, hs]
    · simp at hr

theorem next_fails {X : Ext} {s t : Site} {f : Fail} (hn : Next X s t) (h : t.result X = .error f) : s.result X = .error f := by
  cases hn with
  | part hp hb => exact part_fails hp hb h
  | later hl => exact later_fails hl h

/-! ### Parts are smaller, and the failing one is unique -/

theorem part_size {X : Ext} {r : Option Registry} {e : Expr} {p : Part} (h : p ∈ parts X r e) : sizeOf p.expr < sizeOf e := by
  have harg : ∀ (name : Str) (es : List Expr), p ∈ es.map argument → sizeOf p.expr < sizeOf (Expr.call name es) := by
    intro name es h
    obtain ⟨a, ha, rfl⟩ := List.mem_map.1 h
    have := List.sizeOf_lt_of_mem ha
    have h2 : sizeOf (argument a).expr ≤ sizeOf a := by
      cases a <;> simp only [argument, Part.expr, Expr.spread.sizeOf_spec] <;> omega
    simp only [Expr.call.sizeOf_spec]; omega
  have hval : ∀ es : List Expr, p ∈ es.map Part.value → sizeOf p.expr < sizeOf es := by
    intro es h
    obtain ⟨a, ha, rfl⟩ := List.mem_map.1 h
    exact List.sizeOf_lt_of_mem ha
  cases e with
  | number | strLit | null | var | spread => simp [parts] at h
  | unary op e => simp only [parts, List.mem_singleton] at h; subst h; simp only [Part.expr, Expr.unary.sizeOf_spec]; omega
  | prop e n => simp only [parts, List.mem_singleton] at h; subst h; simp only [Part.expr, Expr.prop.sizeOf_spec]; omega
  | safeProp e n => simp only [parts, List.mem_singleton] at h; subst h; simp only [Part.expr, Expr.safeProp.sizeOf_spec]; omega
  | cast e n => simp only [parts, List.mem_singleton] at h; subst h; simp only [Part.expr, Expr.cast.sizeOf_spec]; omega
  | assign n e => simp only [parts, List.mem_singleton] at h; subst h; simp only [Part.expr, Expr.assign.sizeOf_spec]; omega
  | method t n as p => simp only [parts, List.mem_singleton] at h; subst h; simp only [Part.expr, Expr.method.sizeOf_spec]; omega
  | safeCall t n as => simp only [parts, List.mem_singleton] at h; subst h; simp only [Part.expr, Expr.safeCall.sizeOf_spec]; omega
  | binary a op b =>
    simp only [parts, List.mem_cons, List.not_mem_nil, or_false] at h
    rcases h with rfl | rfl <;> simp only [Part.expr, Expr.binary.sizeOf_spec] <;> omega
  | index a b =>
    simp only [parts, List.mem_cons, List.not_mem_nil, or_false] at h
    rcases h with rfl | rfl <;> simp only [Part.expr, Expr.index.sizeOf_spec] <;> omega
  | slice t a b =>
    simp only [parts, List.mem_cons, List.mem_map, List.mem_append, Option.mem_toList] at h
    rcases h with rfl | ⟨x, h | h, rfl⟩
    · simp only [Part.expr, Expr.slice.sizeOf_spec]; omega
    · cases h; simp only [Part.expr, Expr.slice.sizeOf_spec, Option.some.sizeOf_spec]; omega
    · cases h; simp only [Part.expr, Expr.slice.sizeOf_spec, Option.some.sizeOf_spec]; omega
  | array es => have := hval es h; simp only [Expr.array.sizeOf_spec]; omega
  | seq es => have := hval es h; simp only [Expr.seq.sizeOf_spec]; omega
  | object ms =>
    simp only [parts, List.mem_map] at h
    obtain ⟨m, hm, rfl⟩ := h
    have := List.sizeOf_lt_of_mem hm
    rcases m with ⟨k, e⟩
    simp only [Prod.mk.sizeOf_spec] at this
    simp only [Part.expr, Expr.object.sizeOf_spec]; omega
  | call name args =>
    simp only [parts] at h
    rw [callParts.eq_def] at h
    have hsub : ∀ a ∈ args, sizeOf a < sizeOf (Expr.call name args) := by
      intro a ha
      have := List.sizeOf_lt_of_mem ha
      simp only [Expr.call.sizeOf_spec]; omega
    have hin : ∀ l : List Expr, (∀ a ∈ l, a ∈ args) → p ∈ l.map Part.value → sizeOf p.expr < sizeOf (Expr.call name args) := by
      intro l hl h
      obtain ⟨a, ha, rfl⟩ := List.mem_map.1 h
      exact hsub a (hl a ha)
    split at h
    · split at h
      · exact hin [_] (by simp) h
      · simp at h
    split at h
    · simp at h
    split at h
    · exact harg name args h
    split at h
    · split at h
      · exact hin (_ :: _) (by
          intro x hx
          rcases List.mem_cons.1 hx with rfl | hx
          · simp
          · simp [List.mem_of_mem_take hx]) h
      · simp at h
    split at h
    · split at h
      · exact hin (_ :: _ :: _) (by
          intro x hx
          rcases List.mem_cons.1 hx with rfl | hx
          · simp
          rcases List.mem_cons.1 hx with rfl | hx
          · simp
          · simp [List.mem_of_mem_take hx]) h
      · simp at h
    split at h
    · split at h
      · exact hin [_] (by simp) h
      · exact hin [_, _] (by simp) h
      · simp at h
    split at h
    · split at h
      · exact hin [_] (by simp) h
      · simp at h
    split at h
    · split at h
      · exact hin [_, _] (by simp) h
      · simp at h
    · exact harg name args h

theorem next_size {X : Ext} {s t : Site} (h : Next X s t) : sizeOf t.expr < sizeOf s.expr := by
  cases h with
  | part hp hb => exact part_size (p := _) (X := X) (by rw [hp]; simp)
  | later hl =>
    cases hl <;> simp only [Expr.call.sizeOf_spec, List.cons.sizeOf_spec] <;> omega

theorem later_done {X : Ext} {s t : Site} (h : Later X s t) : ∀ p ∈ parts X s.funs s.expr, p.Done X s.funs s.vars := by
  have hpar : ∀ {r env d rest p}, Param X r env d rest p → ∀ e ∈ rest.take 1, ∃ v, (Site.mk r env e).result X = .ok v := by
    intro r env d rest p h e he
    cases h with
    | none => simp at he
    | text h => simp at he; subst he; exact ⟨_, h⟩
    | other h => simp at he; subst he; exact ⟨_, h⟩
  cases h with
  | whenTrue hc => simp [parts, callParts.eq_def, Part.Done]; exact ⟨_, hc⟩
  | whenFalse hc => simp [parts, callParts.eq_def, Part.Done]; exact ⟨_, hc⟩
  | @each r env name a lam rest q done it more hn hc ha hp hd =>
    simp only [List.mem_cons, List.not_mem_nil, or_false] at hn
    intro p hp'
    have : p ∈ Part.value a :: (List.take 1 rest).map Part.value := by
      rcases hn with rfl | rfl <;> simpa [parts, callParts.eq_def, hc] using hp'
    rcases List.mem_cons.1 this with rfl | h
    · exact ⟨_, ha⟩
    · obtain ⟨e, he, rfl⟩ := List.mem_map.1 h
      exact hpar hp e he
  | @search r env a lam rest q done it more hc ha hp hd =>
    intro p hp'
    have : p ∈ Part.value a :: (List.take 1 rest).map Part.value := by simpa [parts, callParts.eq_def, hc] using hp'
    rcases List.mem_cons.1 this with rfl | h
    · exact ⟨_, ha⟩
    · obtain ⟨e, he, rfl⟩ := List.mem_map.1 h
      exact hpar hp e he
  | @fold r env a lam init rest _ _ _ _ _ _ _ hc ha hi hp hq hd =>
    intro p hp'
    have : p ∈ Part.value a :: Part.value init :: (List.take 2 rest).map Part.value := by simpa [parts, callParts.eq_def, hc] using hp'
    rcases List.mem_cons.1 this with rfl | h
    · exact ⟨_, ha⟩
    rcases List.mem_cons.1 h with rfl | h
    · exact ⟨_, hi⟩
    · obtain ⟨e, he, rfl⟩ := List.mem_map.1 h
      rcases rest with _ | ⟨x, rest⟩
      · simp at he
      · simp only [List.take_succ_cons, List.mem_cons] at he
        rcases he with rfl | he
        · exact hpar hp _ (by simp)
        · exact hpar hq e (by simpa using he)
  | @tally r env name a lam done it more hn hc ha hd =>
    simp only [List.mem_cons, List.not_mem_nil, or_false] at hn
    intro p hp'
    have : p ∈ [Part.value a] := by
      rcases hn with rfl | rfl <;> simpa [parts, callParts.eq_def, hc] using hp'
    rw [List.mem_singleton] at this; subst this
    exact ⟨_, ha⟩
  | @sum r env a lam done it more hc ha =>
    intro p hp'
    have : p ∈ [Part.value a] := by simpa [parts, callParts.eq_def, hc] using hp'
    rw [List.mem_singleton] at this; subst this
    exact ⟨_, ha⟩
  | @criterion r env a lam rest w hc hr hd hw =>
    intro p hp'
    rcases rest with _ | ⟨x, _ | _⟩
    · have : p ∈ [Part.value a] := by simpa [parts, callParts.eq_def, hc] using hp'
      rw [List.mem_singleton] at this; subst this
      exact hd a (by simp)
    · have : p ∈ [Part.value a, Part.value x] := by simpa [parts, callParts.eq_def, hc] using hp'
      simp only [List.mem_cons, List.not_mem_nil, or_false] at this
      rcases this with rfl | rfl
      · exact hd a (by simp)
      · exact hd x (by simp)
    · simp at hr

theorem done_fine {X : Ext} {r : Option Registry} {env : Env} {p : Part} (h : p.Done X r env) : (Site.mk r env p.expr).Fine X := by
  cases p <;> simp only [Part.Done] at h
  · exact h
  · obtain ⟨v, h⟩ := h; exact ⟨_, h⟩
  · obtain ⟨v, j, h, _⟩ := h; exact ⟨_, h⟩

theorem fine_not_fails {X : Ext} {s : Site} {f : Fail} (h : s.Fine X) (hf : s.result X = .error f) : False := by
  obtain ⟨v, h⟩ := h
  rw [hf] at h; cases h

/-- Two lists split where the first bad element is. -/
theorem split_unique {α : Type} {P : α → Prop} {l l' m m' : List α} {x y : α} (h : l ++ x :: m = l' ++ y :: m') (hl : ∀ a ∈ l, P a)
    (hl' : ∀ a ∈ l', P a) (hx : ¬ P x) (hy : ¬ P y) : l = l' ∧ x = y ∧ m = m' := by
  induction l generalizing l' with
  | nil =>
    cases l' with
    | nil => simp at h; exact ⟨rfl, h.1, h.2⟩
    | cons a l' => simp at h; exact absurd (h.1 ▸ hl' a (by simp)) hx
  | cons a l ih =>
    cases l' with
    | nil => simp at h; exact absurd (h.1 ▸ hl a (by simp)) hy
    | cons b l' =>
      simp at h
      obtain ⟨h1, h2, h3⟩ := ih h.2 (fun a ha => hl a (by simp [ha])) fun a ha => hl' a (by simp [ha])
      exact ⟨by rw [h.1, h1], h2, h3⟩

theorem param_unique {X : Ext} {r : Option Registry} {env : Env} {d p q : Str} {rest : List Expr} (h : Param X r env d rest p) (h' : Param X r env d rest q) :
    p = q := by
  have := (param_name h).symm.trans (param_name h')
  cases this; rfl

theorem folded_unique {X : Ext} {lam : Expr} {env : Env} {p q : Str} {acc a b x y : Value} {l l' m m' : List Value} {f g : Fail}
    (hl : Folded X lam env p q acc l a) (hl' : Folded X lam env p q acc l' b) (h : l ++ x :: m = l' ++ y :: m')
    (hx : evalVars X lam ((env.insert p x).insert q a) = .error f) (hy : evalVars X lam ((env.insert p y).insert q b) = .error g) :
    x = y ∧ a = b := by
  induction hl generalizing l' with
  | none =>
    cases hl' with
    | none => simp at h; exact ⟨h.1, rfl⟩
    | one h1 _ => simp at h; rw [h.1, h1] at hx; cases hx
  | one h1 _ ih =>
    cases hl' with
    | none => simp at h; rw [← h.1, h1] at hy; cases hy
    | one h2 h3 =>
      simp at h
      rw [h.1, h2] at h1; cases h1
      exact ih h3 h.2 hx

theorem later_unique {X : Ext} {s t u : Site} {f g : Fail} (ht : Later X s t) (hu : Later X s u) (hf : t.result X = .error f)
    (hg : u.result X = .error g) : t = u := by
  have split : ∀ {p : Str} {env : Env} {lam : Expr} {l l' m m' : List Value} {x y : Value}, l ++ x :: m = l' ++ y :: m' →
      (∀ d ∈ l, (Site.mk none (env.insert p d) lam).Fine X) → (∀ d ∈ l', (Site.mk none (env.insert p d) lam).Fine X) →
      (Site.mk none (env.insert p x) lam).result X = .error f → (Site.mk none (env.insert p y) lam).result X = .error g → x = y := by
    intro p env lam l l' m m' x y h h1 h2 hx hy
    exact (split_unique h h1 h2 (fun h => fine_not_fails h hx) fun h => fine_not_fails h hy).2.1
  cases ht with
  | whenTrue hc =>
    cases hu with
    | whenTrue => rfl
    | whenFalse hc' => rw [hc] at hc'; cases hc'
    | each hn => simp at hn
  | whenFalse hc =>
    cases hu with
    | whenFalse => rfl
    | whenTrue hc' => rw [hc] at hc'; cases hc'
    | each hn => simp at hn
  | each hn hc ha hp hd =>
    cases hu with
    | each hn' hc' ha' hp' hd' =>
      have := param_unique hp hp'; subst this
      rw [ha] at ha'; injection ha' with ha'; injection ha' with ha'
      rw [split ha' hd hd' hf hg]
    | whenTrue | whenFalse | search | fold | sum | criterion => simp at hn
    | tally hn' =>
      simp only [List.mem_cons, List.not_mem_nil, or_false] at hn hn'
      rcases hn with rfl | rfl <;> simp at hn'
  | search hc ha hp hd =>
    cases hu with
    | search hc' ha' hp' hd' =>
      have := param_unique hp hp'; subst this
      rw [ha] at ha'; injection ha' with ha'; injection ha' with ha'
      rw [split ha' (fun d h => (hd d h).imp fun _ h => h.1) (fun d h => (hd' d h).imp fun _ h => h.1) hf hg]
    | each hn => simp at hn
    | tally hn => simp at hn
  | fold hc ha hi hp hq hd =>
    cases hu with
    | fold hc' ha' hi' hp' hq' hd' =>
      have := param_unique hp hp'; subst this
      have := param_unique hq hq'; subst this
      rw [ha] at ha'; injection ha' with ha'; injection ha' with ha'
      rw [hi] at hi'; cases hi'
      obtain ⟨rfl, rfl⟩ := folded_unique hd hd' ha' hf hg
      rfl
    | each hn => simp at hn
  | tally hn hc ha hd =>
    cases hu with
    | tally hn' hc' ha' hd' =>
      rw [ha] at ha'; injection ha' with ha'; injection ha' with ha'
      rw [split ha' hd hd' hf hg]
    | search | sum | criterion => simp at hn
    | each hn' =>
      simp only [List.mem_cons, List.not_mem_nil, or_false] at hn hn'
      rcases hn with rfl | rfl <;> simp at hn'
  | sum hc ha h1 h2 h3 hd =>
    cases hu with
    | sum hc' ha' _ _ _ hd' =>
      rw [ha] at ha'; injection ha' with ha'; injection ha' with ha'
      rw [split ha' hd hd' hf hg]
    | criterion _ _ _ hw => exact absurd hw (h3 _)
    | each hn => simp at hn
    | tally hn => simp at hn
  | criterion _ _ _ hw =>
    cases hu with
    | criterion => rfl
    | sum _ _ _ _ h3 => exact absurd hw (h3 _)
    | each hn => simp at hn
    | tally hn => simp at hn

theorem next_unique {X : Ext} {s t u : Site} {f g : Fail} (ht : Next X s t) (hu : Next X s u) (hf : t.result X = .error f)
    (hg : u.result X = .error g) : t = u := by
  cases ht with
  | @part r env e before p after hp hb =>
    cases hu with
    | @part _ _ _ before' p' after' hp' hb' =>
      obtain ⟨_, rfl, _⟩ := split_unique (hp.symm.trans hp') hb hb' (fun h => fine_not_fails (done_fine h) hf) fun h => fine_not_fails (done_fine h) hg
      rfl
    | later hl =>
      have := later_done hl p (by simp only [hp]; simp)
      exact (fine_not_fails (done_fine this) hf).elim
  | later hl =>
    cases hu with
    | @part r env e before p after hp hb =>
      have := later_done hl p (by simp only [hp]; simp)
      exact (fine_not_fails (done_fine this) hg).elim
    | later hl' => exact later_unique hl hl' hf hg

/-! ### The property -/

/-- C112: whatever a part, however deep, fails with, the whole expression fails with, provided that all that is evaluated before the part
succeeds. -/
theorem C112_first {X : Ext} {s t : Site} {f : Fail} (h : Reaches X s t) (ht : t.result X = .error f) : s.result X = .error f := by
  induction h with
  | refl => exact ht
  | tail _ hn ih => exact ih (next_fails hn ht)

/-- C112: a failure has exactly one origin. -/
theorem C112_culprit {X : Ext} {s : Site} {f : Fail} (h : s.result X = .error f) : ∃! t, Reaches X s t ∧ Culprit X t f := by
  have hex : ∀ n (s : Site), sizeOf s.expr = n → s.result X = .error f → ∃ t, Reaches X s t ∧ Culprit X t f := by
    intro n
    induction n using Nat.strong_induction_on with
    | _ n ih =>
      intro s hn h
      by_cases hc : ∀ t, Next X s t → t.Fine X
      · exact ⟨s, .refl, h, hc⟩
      · push Not at hc
        obtain ⟨t, ht, hb⟩ := hc
        cases hr : t.result X with
        | ok v => exact absurd ⟨v, hr⟩ hb
        | error g =>
          have := (next_fails ht hr).symm.trans h
          cases this
          obtain ⟨u, hu, hc⟩ := ih _ (hn ▸ next_size ht) t rfl hr
          exact ⟨u, .head ht hu, hc⟩
  obtain ⟨t, ht, hc⟩ := hex _ s rfl h
  refine ⟨t, ⟨ht, hc⟩, ?_⟩
  rintro u ⟨hu, hc'⟩
  clear hex h
  induction ht using Relation.ReflTransGen.head_induction_on with
  | refl =>
    cases hu using Relation.ReflTransGen.head_induction_on with
    | refl => rfl
    | head hn hr => exact (fine_not_fails (hc.2 _ hn) (C112_first hr hc'.1)).elim
  | head hn hr ih =>
    cases hu using Relation.ReflTransGen.head_induction_on with
    | refl => exact (fine_not_fails (hc'.2 _ hn) (C112_first hr hc.1)).elim
    | head hn' hr' =>
      have := next_unique hn hn' (C112_first hr hc.1) (C112_first hr' hc'.1)
      subst this
      exact ih hr'

/-- Expressions that never fail by themselves. -/
inductive Blameless (X : Ext) : Site → Prop where
  | number {r env n} : Blameless X ⟨r, env, .number n⟩
  | text {r env s} : Blameless X ⟨r, env, .strLit s⟩
  | null {r env} : Blameless X ⟨r, env, .null⟩
  | constant {r env name} : name ∈ [c!"__CONST_TRUE__", c!"__CONST_FALSE__"] → Blameless X ⟨r, env, .call name []⟩
  | var {r env x v} : env x = some v → Blameless X ⟨r, env, .var x⟩
  | array {r env es} : Blameless X ⟨r, env, .array es⟩
  | assign {r env x e} : Blameless X ⟨r, env, .assign x e⟩
  | seq {r env es} : Blameless X ⟨r, env, .seq es⟩
  | equality {r env a op b} : op ∈ [BinaryOp.eq, .ne] → Blameless X ⟨r, env, .binary a op b⟩
  | ternary {r env c a b t} : (Site.mk r env c).result X = .ok (.bool t) → Blameless X ⟨r, env, .call c!"__TERNARY__" [c, a, b]⟩
  | each {r env name a lam rest items} : name ∈ [c!"FILTER", c!"FIND", c!"MAP"] → custom X r name = false →
      (Site.mk r env a).result X = .ok (.arr items) → Blameless X ⟨r, env, .call name (a :: lam :: rest)⟩
  | fold {r env a lam init rest items} : custom X r c!"REDUCE" = false →
      (Site.mk r env a).result X = .ok (.arr items) → Blameless X ⟨r, env, .call c!"REDUCE" (a :: lam :: init :: rest)⟩
  | tally {r env name a lam items} : name ∈ [c!"AVGIF", c!"COUNTIF", c!"SUMIF"] → custom X r name = false →
      (Site.mk r env a).result X = .ok (.arr items) → Blameless X ⟨r, env, .call name [a, lam]⟩

theorem param_exists {X : Ext} {r : Option Registry} {env : Env} (d : Str) {rest : List Expr} (h : ∀ e ∈ rest.take 1, (Site.mk r env e).Fine X) :
    ∃ p, Param X r env d rest p := by
  cases rest with
  | nil => exact ⟨d, .none⟩
  | cons e rest =>
    obtain ⟨v, hv⟩ := h e (by simp)
    by_cases hs : ∃ s, v = .str s
    · obtain ⟨s, rfl⟩ := hs; exact ⟨s, .text hv⟩
    · exact ⟨d, .other hv fun s h => hs ⟨s, h⟩⟩

/-- When every element, everything before it being fine, is fine, all are. -/
theorem all_fine {α : Type} {P : α → Prop} {l : List α} (h : ∀ before x after, l = before ++ x :: after → (∀ d ∈ before, P d) → P x) : ∀ d ∈ l, P d := by
  have go : ∀ n, ∀ before after, l = before ++ after → before.length = n → ∀ d ∈ before, P d := by
    intro n
    induction n with
    | zero => intro before after _ hn d hd; rw [List.length_eq_zero_iff] at hn; subst hn; simp at hd
    | succ n ih =>
      intro before after he hn d hd
      obtain ⟨b, x, rfl⟩ : ∃ b x, before = b ++ [x] := by
        rcases List.eq_nil_or_concat before with rfl | ⟨b, x, h⟩
        · simp at hn
        · exact ⟨b, x, by simpa using h⟩
      have hb := ih b (x :: after) (by simp [he]) (by simpa using hn)
      rcases List.mem_append.1 hd with h' | h'
      · exact hb d h'
      · rw [List.mem_singleton] at h'; subst h'
        exact h b d after (by simp [he]) hb
  intro d hd
  exact go l.length l [] (by simp) rfl d hd

theorem mapM_fine {α β : Type} {g : α → Res β} {l : List α} (h : ∀ d ∈ l, ∃ v, g d = .ok v) : ∃ vs, l.mapM g = .ok vs := by
  induction l with
  | nil => exact ⟨[], rfl⟩
  | cons a l ih =>
    obtain ⟨v, hv⟩ := h a (by simp)
    obtain ⟨vs, hvs⟩ := ih fun d hd => h d (by simp [hd])
    exact ⟨v :: vs, by simp only [List.mapM_cons, hv, hvs, bind, Except.bind, pure, Except.pure]⟩

theorem find_fine {lam : Env → Res Value} {p : Str} {env : Env} {l : List Value}
    (h : ∀ before x after, l = before ++ x :: after → (∀ d ∈ before, ∃ v, lam (env.insert p d) = .ok v ∧ v ≠ .bool true) → ∃ v, lam (env.insert p x) = .ok v) :
    ∃ v, Loop.find lam p env l = .ok v := by
  have go : ∀ env' : Env, (∀ v, env'.insert p v = env.insert p v) → ∃ v, Loop.find lam p env' l = .ok v := by
    induction l with
    | nil => intro env' _; exact ⟨.null, rfl⟩
    | cons a l ih =>
      intro env' he
      obtain ⟨v, hv⟩ := h [] a l rfl (by simp)
      simp only [Loop.find, he, hv, bind, Except.bind]
      by_cases ht : isTrue v = true
      · exact ⟨a, by rw [if_pos ht]⟩
      · rw [if_neg ht]
        refine ih ?_ _ (fun w => by rw [← he a, Env.insert_same, he])
        intro before x after hl hd
        refine h (a :: before) x after (by rw [hl]; rfl) ?_
        intro d hd'
        rcases List.mem_cons.1 hd' with rfl | hd'
        · exact ⟨v, hv, by rintro rfl; exact ht rfl⟩
        · exact hd d hd'
  exact go env fun _ => rfl

theorem fold_fine {X : Ext} {lam : Expr} {env : Env} {p q : Str} {acc : Value} {l : List Value}
    (h : ∀ before x after acc', l = before ++ x :: after → Folded X lam env p q acc before acc' → ∃ v, evalVars X lam ((env.insert p x).insert q acc') = .ok v) :
    ∃ v, l.foldlM (fun acc v => evalVars X lam ((env.insert p v).insert q acc)) acc = .ok v := by
  induction l generalizing acc with
  | nil => exact ⟨acc, rfl⟩
  | cons a l ih =>
    obtain ⟨v, hv⟩ := h [] a l acc rfl .none
    obtain ⟨w, hw⟩ := ih (acc := v) fun before x after acc' hl hf => h (a :: before) x after acc' (by rw [hl]; rfl) (.one hv hf)
    exact ⟨w, by simp only [List.foldlM_cons, hv, bind, Except.bind, hw]⟩

/-- When every part with everything before it fine is fine, all parts are done, unless one is not of the kind wanted. -/
theorem values_done {X : Ext} {r : Option Registry} {env : Env} {e : Expr} {es : List Expr} (hp : parts X r e = es.map .value)
    (h : ∀ t, Next X ⟨r, env, e⟩ t → t.Fine X) : ∀ a ∈ es, (Site.mk r env a).Fine X := by
  refine all_fine fun before x after hl hd => ?_
  refine h ⟨r, env, x⟩ (Next.part (before := before.map .value) (p := .value x) (after := after.map .value) (by rw [hp, hl]; simp) ?_)
  intro q hq
  obtain ⟨a, ha, rfl⟩ := List.mem_map.1 hq
  exact hd a ha

/-- C112: numbers, texts, variables with a value, arrays, assignments, sequences, `==` and `!=`, a ternary whose condition is a boolean, and the higher
order functions on an array are never the origin of a failure. -/
theorem C112_blameless {X : Ext} {s : Site} {f : Fail} (h : Blameless X s) : ¬ Culprit X s f := by
  rintro ⟨hf, hall⟩
  suffices hfine : s.Fine X from fine_not_fails hfine hf
  have values : ∀ {r : Option Registry} {env : Env} {es : List Expr}, (∀ a ∈ es, (Site.mk r env a).Fine X) → ∃ vs, runParts X (.panic "") r env (es.map .value) = .ok vs := by
    intro r env es h
    induction es with
    | nil => exact ⟨[], rfl⟩
    | cons e es ih =>
      obtain ⟨v, hv⟩ := h e (by simp)
      obtain ⟨vs, hvs⟩ := ih fun a ha => h a (by simp [ha])
      rw [result_eq] at hv
      exact ⟨v :: vs, by simp only [List.map_cons, runParts, runPart, hv, hvs, bind, Except.bind, pure, Except.pure]⟩
  cases h with
  | number => exact ⟨_, by rw [result_eq]; simp only [Eval.eval]; rfl⟩
  | text => exact ⟨_, by rw [result_eq]; simp only [Eval.eval]; rfl⟩
  | null => exact ⟨_, by rw [result_eq]; simp only [Eval.eval]; rfl⟩
  | constant hn =>
    simp only [List.mem_cons, List.not_mem_nil, or_false] at hn
    rcases hn with rfl | rfl
    · exact ⟨.bool true, by rw [result_eq]; simp only [Eval.eval]; rfl⟩
    · exact ⟨.bool false, by rw [result_eq]; simp only [Eval.eval]; rfl⟩
  | var hv => exact ⟨_, by rw [result_eq]; simp only [Eval.eval, hv]; rfl⟩
  | array =>
    obtain ⟨vs, hvs⟩ := values (values_done rfl hall)
    exact ⟨.arr vs, by rw [result_eq]; simp only [Eval.eval, elements_parts X (.panic ""), hvs]; rfl⟩
  | seq =>
    obtain ⟨vs, hvs⟩ := values (values_done rfl hall)
    exact ⟨_, by rw [result_eq]; simp only [Eval.eval, lastOf_parts X (.panic ""), hvs]; rfl⟩
  | @assign r env x e =>
    obtain ⟨v, hv⟩ := values_done (es := [e]) rfl hall e (by simp)
    rw [result_eq] at hv
    exact ⟨v, by rw [result_eq]; simp only [Eval.eval]; exact hv⟩
  | @equality r env a op b ho =>
    have hd := values_done (es := [a, b]) rfl hall
    obtain ⟨x, hx⟩ := hd a (by simp)
    obtain ⟨y, hy⟩ := hd b (by simp)
    rw [result_eq] at hx hy
    simp only [List.mem_cons, List.not_mem_nil, or_false] at ho
    simp only [Site.Fine, result_eq, Eval.eval, hx, hy, bind, Except.bind]
    rcases ho with rfl | rfl <;> simp only [Ops.binary] <;> cases x <;> cases y <;> exact ⟨_, rfl⟩
  | @ternary r env c a b t hc =>
    cases t with
    | true =>
      obtain ⟨v, hv⟩ := hall _ (.later (.whenTrue hc))
      rw [result_eq] at hc hv
      exact ⟨v, by
        rw [result_eq]
        simp only [Eval.eval, Eval.call, if_true, Eval.argsOf_eq, List.map_cons, List.map_nil, Legacy.ternary, Eval.argOf_run, hc, bind, Except.bind, Value.asBool]
        exact hv⟩
    | false =>
      obtain ⟨v, hv⟩ := hall _ (.later (.whenFalse hc))
      rw [result_eq] at hc hv
      exact ⟨v, by
        rw [result_eq]
        simp only [Eval.eval, Eval.call, if_true, Eval.argsOf_eq, List.map_cons, List.map_nil, Legacy.ternary, Eval.argOf_run, hc, bind, Except.bind, Value.asBool,
          Bool.false_eq_true, if_false]
        exact hv⟩
  | @each r env name a lam rest items hn hc ha =>
    have hparts : parts X r (.call name (a :: lam :: rest)) = (a :: rest.take 1).map .value := by
      simp only [List.mem_cons, List.not_mem_nil, or_false] at hn
      rcases hn with rfl | rfl | rfl <;> simp [parts, callParts.eq_def, hc]
    have hd := values_done hparts hall
    obtain ⟨p, hp⟩ := param_exists c!"x" (X := X) (r := r) (env := env) (rest := rest) fun e he => hd e (by simp [he])
    have hc' := notCustom_iff.1 hc
    have ha' := ha; rw [result_eq] at ha'
    by_cases hfind : name = c!"FIND"
    · subst hfind
      have hitems := find_fine (lam := Eval.eval X lam none) (p := p) (env := env) (l := items) fun before x after hl hd => by
        obtain ⟨v, hv⟩ := hall _ (.later (.search (more := after) (it := x) (done := before) hc (by rw [ha, hl]) hp (by simpa only [result_eq] using hd)))
        exact ⟨v, by rw [result_eq] at hv; exact hv⟩
      obtain ⟨v, hv⟩ := hitems
      refine ⟨v, ?_⟩
      rw [result_eq, call_higherOrder X _ _ _ _ Eval.find (by decide) rfl hc']
      simp only [List.map_cons, Eval.find, Eval.argOf_run, ha', param_name hp, bind, Except.bind]
      exact hv
    · have hn' : name ∈ [c!"FILTER", c!"MAP"] := by
        simp only [List.mem_cons, List.not_mem_nil, or_false] at hn ⊢
        rcases hn with h | h | h
        · exact .inl h
        · exact absurd h hfind
        · exact .inr h
      have hitems : ∀ d ∈ items, ∃ v, Eval.eval X lam none (env.insert p d) = .ok v := by
        have := all_fine (P := fun d => (Site.mk none (env.insert p d) lam).Fine X) (l := items) fun before x after hl hd =>
          hall _ (.later (.each (more := after) (it := x) (done := before) hn' hc (by rw [ha, hl]) hp hd))
        simpa only [Site.Fine, result_eq] using this
      obtain ⟨vs, hvs⟩ := mapM_fine hitems
      simp only [List.mem_cons, List.not_mem_nil, or_false] at hn'
      rcases hn' with rfl | rfl
      · refine ⟨.arr (Spec.select items vs), ?_⟩
        rw [result_eq, call_higherOrder X _ _ _ _ Eval.filter (by decide) rfl hc']
        simp only [List.map_cons, Eval.filter, Eval.argOf_run, ha', param_name hp, bind, Except.bind, Loop.filter_eq, hvs]
        rfl
      · refine ⟨.arr vs, ?_⟩
        rw [result_eq, call_higherOrder X _ _ _ _ Eval.map (by decide) rfl hc']
        simp only [List.map_cons, Eval.map, Eval.argOf_run, ha', param_name hp, bind, Except.bind, Loop.map_eq, hvs]
        rfl
  | @fold r env a lam init rest items hc ha =>
    have hparts : parts X r (.call c!"REDUCE" (a :: lam :: init :: rest)) = (a :: init :: rest.take 2).map .value := by
      simp [parts, callParts.eq_def, hc]
    have hd := values_done hparts hall
    obtain ⟨p, hp⟩ := param_exists c!"x" (X := X) (r := r) (env := env) (rest := rest) fun e he => hd e (by
      rcases rest with _ | ⟨y, rest⟩
      · simp at he
      · simp at he; simp [he])
    obtain ⟨q, hq⟩ := param_exists c!"acc" (X := X) (r := r) (env := env) (rest := rest.drop 1) fun e he => hd e (by
      rcases rest with _ | ⟨y, _ | ⟨z, rest⟩⟩
      · simp at he
      · simp at he
      · simp at he; simp [he])
    obtain ⟨acc, hi⟩ := hd init (by simp)
    have hc' := notCustom_iff.1 hc
    obtain ⟨v, hv⟩ := fold_fine (X := X) (lam := lam) (env := env) (p := p) (q := q) (acc := acc) (l := items) fun before x after acc' hl hf =>
      hall _ (.later (.fold (more := after) (it := x) hc (by rw [ha, hl]) hi hp hq hf))
    rw [result_eq] at ha hi
    refine ⟨v, ?_⟩
    rw [result_eq, call_higherOrder X _ _ _ _ Eval.reduce (by decide) rfl hc']
    simp only [List.map_cons, Eval.reduce, Eval.argOf_run, ha, hi, param_name hp, param_name2 hq, bind, Except.bind, Loop.reduce_eq]
    exact hv
  | @tally r env name a lam items hn hc ha =>
    have hc' := notCustom_iff.1 hc
    have ha' := ha; rw [result_eq] at ha'
    by_cases hsum : name = c!"SUMIF"
    · subst hsum
      simp only [Site.Fine]
      rw [result_eq, call_higherOrder X _ _ _ _ Eval.sumif (by decide) rfl hc']
      simp only [List.map_cons, List.map_nil, Eval.sumif, Eval.argOf_run, ha', bind, Except.bind, pure, Except.pure, Option.isSome_none, Bool.false_eq_true, if_false]
      have loop : (∀ s, Eval.eval X lam r env ≠ .ok (.str s)) → (∀ n, Eval.eval X lam r env ≠ .ok (.num n)) → (∀ w, Eval.eval X lam r env ≠ .error (.panic w)) →
          ∃ v, Loop.sumif (Eval.eval X lam none) env (.zero false) items = .ok v := by
        intro h1 h2 h3
        have hitems : ∀ d ∈ items, ∃ v, Eval.eval X lam none (env.insert c!"x" d) = .ok v := by
          have := all_fine (P := fun d => (Site.mk none (env.insert c!"x" d) lam).Fine X) (l := items) fun before x after hl hd =>
            hall _ (.later (.sum (more := after) (it := x) (done := before) hc (by rw [ha, hl]) (by simpa only [result_eq] using h1)
              (by simpa only [result_eq] using h2) (by simpa only [result_eq] using h3) hd))
          simpa only [Site.Fine, result_eq] using this
        obtain ⟨vs, hvs⟩ := mapM_fine hitems
        exact ⟨_, by rw [Loop.sumif_eq, hvs]; rfl⟩
      cases hE : Eval.eval X lam r env with
      | error g =>
        cases g with
        | panic w =>
          have : (Site.mk r env lam).result X = .error (.panic w) := by rw [result_eq]; exact hE
          exact (fine_not_fails (hall _ (.later (.criterion (rest := []) hc (by simp) (by simp; exact ⟨_, ha⟩) this))) this).elim
        | err m as pos =>
          obtain ⟨v, hv⟩ := loop (by simp [hE]) (by simp [hE]) (by simp [hE])
          simp only [Eval.staticCriterion, Eval.argOf_run, hE, hv]
          exact ⟨_, rfl⟩
      | ok v =>
        simp only [Eval.staticCriterion, Eval.argOf_run, hE]
        cases v <;> first
          | exact ⟨_, rfl⟩
          | (obtain ⟨v, hv⟩ := loop (by simp [hE]) (by simp [hE]) (by simp [hE]); simp only [hv]; exact ⟨_, rfl⟩)
    · have hn' : name ∈ [c!"AVGIF", c!"COUNTIF"] := by
        simp only [List.mem_cons, List.not_mem_nil, or_false] at hn ⊢
        rcases hn with h | h | h
        · exact .inl h
        · exact .inr h
        · exact absurd h hsum
      have hitems : ∀ d ∈ items, ∃ v, Eval.eval X lam none (env.insert c!"x" d) = .ok v := by
        have := all_fine (P := fun d => (Site.mk none (env.insert c!"x" d) lam).Fine X) (l := items) fun before x after hl hd =>
          hall _ (.later (.tally (more := after) (it := x) (done := before) hn' hc (by rw [ha, hl]) hd))
        simpa only [Site.Fine, result_eq] using this
      obtain ⟨vs, hvs⟩ := mapM_fine hitems
      simp only [Site.Fine]
      simp only [List.mem_cons, List.not_mem_nil, or_false] at hn'
      rcases hn' with rfl | rfl
      · rw [result_eq, call_higherOrder X _ _ _ _ Eval.avgif (by decide) rfl hc']
        simp only [List.map_cons, List.map_nil, Eval.avgif, Eval.argOf_run, ha', bind, Except.bind, Loop.avgif_eq, hvs]
        exact ⟨_, rfl⟩
      · rw [result_eq, call_higherOrder X _ _ _ _ Eval.countif (by decide) rfl hc']
        simp only [List.map_cons, List.map_nil, Eval.countif, Eval.argOf_run, ha', bind, Except.bind, Loop.countif_eq, hvs]
        exact ⟨_, rfl⟩

/-- C112: a program of statements fails exactly when one of them does, in the variables that those before it leave, and then with its failure. -/
theorem C112_program {X : Ext} (ss : List Spec.Stmt) (hok : ∀ s ∈ ss, s.Ok) (env : Env) (f : Fail) :
    evalAssign X (.seq (ss.map Spec.Stmt.expr)) env = .error f ↔
      ∃ before s after v env', ss = before ++ s :: after ∧ Spec.Exec X env before .null v env' ∧ evalVars X s.value env' = .error f := by
  have key : ∀ (ss : List Spec.Stmt), (∀ s ∈ ss, s.Ok) → ∀ (env : Env) (last : Value),
      (Eval.assignmentsSeq X (ss.map Spec.Stmt.expr) last env = .error f ↔
        ∃ before s after v env', ss = before ++ s :: after ∧ Spec.Exec X env before last v env' ∧ evalVars X s.value env' = .error f) := by
    intro ss
    induction ss with
    | nil => intro _ env last; simp [Eval.assignmentsSeq]
    | cons s ss ih =>
      intro hok env last
      rw [List.map_cons, assignmentsSeq_cons X s (hok s (by simp))]
      cases h : evalVars X s.value env with
      | error g =>
        simp only [bind, Except.bind]
        constructor
        · intro hg; cases hg
          exact ⟨[], s, ss, last, env, rfl, .nil, h⟩
        · rintro ⟨before, s', after, v, env', hs, he, hf⟩
          cases he with
          | nil => simp at hs; rw [← hs.1, h] at hf; cases hf; rfl
          | cons h1 _ => simp at hs; rw [← hs.1, h] at h1; cases h1
      | ok v =>
        simp only [bind, Except.bind]
        rw [ih (fun s hs => hok s (by simp [hs])) (s.after v env) v]
        constructor
        · rintro ⟨before, s', after, w, env', hs, he, hf⟩
          exact ⟨s :: before, s', after, w, env', by rw [hs]; rfl, .cons h he, hf⟩
        · rintro ⟨before, s', after, w, env', hs, he, hf⟩
          cases he with
          | nil => simp at hs; rw [← hs.1, h] at hf; cases hf
          | cons h1 h2 =>
            simp at hs
            obtain ⟨rfl, hs⟩ := hs
            rw [h] at h1; cases h1
            exact ⟨_, s', after, w, env', hs, h2, hf⟩
  rw [← key ss hok env .null]
  simp only [evalAssign, Eval.assignments, bind, Except.bind]
  cases Eval.assignmentsSeq X (ss.map Spec.Stmt.expr) .null env <;> simp [pure, Except.pure]

/-! ### Cases -/

/-- `SUM(1, [2, -"a"][0]) + :missing`: both operands would fail; the failure is that of `-"a"`. -/
def sample : Expr :=
  .binary (.call c!"SUM" [.number (F64.ofNat 1), .index (.array [.number (F64.ofNat 2), .unary .minus (.strLit c!"a")]) (.number (F64.ofNat 0))]) .add
    (.var c!"missing")

example (X : Ext) : Reaches X ⟨none, Env.empty, sample⟩ ⟨none, Env.empty, .unary .minus (.strLit c!"a")⟩ := by
  refine .head (.part (before := []) (p := .value _) rfl (by simp)) ?_
  refine .head (.part (before := [.value _]) (p := .value _) rfl ?_) ?_
  · intro q hq; rw [List.mem_singleton] at hq; subst hq; exact ⟨.num (F64.ofNat 1), by kernel_rfl⟩
  refine .head (.part (before := []) (p := .value _) rfl (by simp)) ?_
  refine .single (.part (before := [.value _]) (p := .value _) rfl ?_)
  intro q hq; rw [List.mem_singleton] at hq; subst hq; exact ⟨.num (F64.ofNat 2), by kernel_rfl⟩
example (X : Ext) : (Site.mk none Env.empty (.unary .minus (.strLit c!"a"))).result X = fail "Unary '-' on non-number" := by kernel_rfl
example (X : Ext) : (Site.mk none Env.empty sample).result X = fail "Unary '-' on non-number" := by kernel_rfl
example (X : Ext) : Culprit X ⟨none, Env.empty, .unary .minus (.strLit c!"a")⟩ (.err "Unary '-' on non-number" [] none) := by
  refine ⟨by kernel_rfl, ?_⟩
  intro t ht
  cases ht with
  | @part _ _ _ before p after hp hb =>
    rcases before with _ | ⟨b, before⟩
    · have : Part.value (.strLit c!"a") = p := by simp only [parts, List.nil_append, List.cons.injEq] at hp; exact hp.1
      subst this
      exact ⟨.str c!"a", by kernel_rfl⟩
    · simp [parts] at hp
  | later h => cases h

/-- The lambda of `MAP([1, "a"], -:x)` is reached on the second element. -/
example (X : Ext) : Reaches X ⟨none, Env.empty, .call c!"MAP" [.array [.number (F64.ofNat 1), .strLit c!"a"], .unary .minus (.var c!"x")]⟩
    ⟨none, Env.empty.insert c!"x" (.str c!"a"), .unary .minus (.var c!"x")⟩ := by
  refine .single (.later (.each (done := [.num (F64.ofNat 1)]) (more := []) (by simp) rfl ?_ .none ?_))
  · kernel_rfl
  · intro d hd; rw [List.mem_singleton] at hd; subst hd; exact ⟨.num (F64.ofNat 1).neg, by kernel_rfl⟩
example (X : Ext) : evalVars X (.call c!"MAP" [.array [.number (F64.ofNat 1), .strLit c!"a"], .unary .minus (.var c!"x")]) Env.empty =
    fail "Unary '-' on non-number" := by kernel_rfl
example (X : Ext) (f : Fail) : ¬ Culprit X ⟨none, Env.empty, .call c!"MAP" [.array [.number (F64.ofNat 1), .strLit c!"a"], .unary .minus (.var c!"x")]⟩ f :=
  C112_blameless (.each (by simp) rfl (items := [.num (F64.ofNat 1), .str c!"a"]) (by kernel_rfl))

/-- `:a := 1; :b := :a + :c; -"a"` fails with the second statement. -/
example (X : Ext) : evalAssign X (.seq ([.set c!"a" (.number (F64.ofNat 1)), .set c!"b" (.binary (.var c!"a") .add (.var c!"c")),
    .run (.unary .minus (.strLit c!"a"))].map Spec.Stmt.expr)) Env.empty = fail "Missing variable: :{}" [c!"c"] := by
  refine (C112_program _ (by simp [Spec.Stmt.Ok]) _ _).2
    ⟨[.set c!"a" (.number (F64.ofNat 1))], _, _, _, _, rfl, .cons (v := .num (F64.ofNat 1)) (by kernel_rfl) .nil, by kernel_rfl⟩

end Order
