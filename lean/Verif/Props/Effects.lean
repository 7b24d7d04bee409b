import Verif.Lemmas.EffectsPure
import Verif.Lemmas.EffectsOrder
import Verif.Base.KernelRfl
/-! C121: custom functions with effects: which are called, how often, in which order and when. -/

namespace Fx

open Fx.Spec

variable {W : Type} {calls : W → List (Str × List Value)} {g : Reg W}

/-! ### A registry to try things with -/

/-- A world that is the list of the calls made. -/
abbrev Spec.Log := List (Str × List Value)

/-- `F` returns its argument, `G` fails; both leave a note. -/
def Spec.noting : Reg Spec.Log := fun k =>
  if k = c!"F" then some ⟨c!"F", 1, some 1, fun args w => (w ++ [(c!"F", args)], .ok (args.headD .null))⟩
  else if k = c!"G" then some ⟨c!"G", 0, none, fun args w => (w ++ [(c!"G", args)], fail "no")⟩
  else none

theorem noting_recorded : Recorded noting id := by
  intro k f hf args w
  unfold noting at hf
  by_cases h1 : k = c!"F"
  · rw [if_pos h1] at hf
    cases hf
    subst h1
    rfl
  rw [if_neg h1] at hf
  by_cases h2 : k = c!"G"
  · rw [if_pos h2] at hf
    cases hf
    subst h2
    rfl
  rw [if_neg h2] at hf
  cases hf

/-! ### Functions without effects -/

/-- C121. Functions that leave the world alone: the result does not depend on the world, is that of the evaluation without effects, and the world is as before. -/
theorem C121_quiet (reg : Registry) (h : Quiet g reg) (X : Ext) (e : Expr) (vars : Env) (w : W) :
    evalEffects X g e vars w = (w, evalCustom X reg e vars) := by
  unfold evalEffects evalCustom
  rw [eval_quiet h]
  rfl

example : ∃ (g : Reg Nat) (reg : Registry), Quiet g reg ∧ (∃ k, (g k).isSome) :=
  ⟨fun k => if k = c!"F" then some ⟨c!"F", 1, none, fun args w => (w, .ok (.arr args))⟩ else none,
   fun k => if k = c!"F" then some ⟨c!"F", 1, none, fun args => .ok (.arr args)⟩ else none, by
    intro k
    by_cases h : k = c!"F"
    · right
      simp only [h, if_true]
      exact ⟨_, _, rfl, rfl, rfl, rfl, fun _ _ => rfl⟩
    · left
      simp only [h, if_false]
      exact ⟨trivial, trivial⟩, c!"F", rfl⟩

/-! ### Which functions are called -/

/-- C121. Whatever an evaluation does, it only calls custom functions the expression names. -/
theorem C121_named (hg : Recorded g calls) (X : Ext) (e : Expr) (vars : Env) (w : W) :
    ∃ made, calls (evalEffects X g e vars w).1 = calls w ++ made ∧ ∀ call ∈ made, call.1 ∈ mentions X g e :=
  eval_within hg X e (fun _ h => h) vars w

/-- C121. An expression that names no custom function calls none. -/
theorem C121_none (hg : Recorded g calls) (X : Ext) (e : Expr) (he : mentions X g e = []) (vars : Env) (w : W) :
    calls (evalEffects X g e vars w).1 = calls w := by
  obtain ⟨made, h1, h2⟩ := C121_named hg X e vars w
  rw [he] at h2
  cases made with
  | nil => rw [h1, List.append_nil]
  | cons c _ => cases h2 c List.mem_cons_self

/-! ### Order -/

/-- C121. Every place that calls a custom function is run at most once, and in order: arguments from left to right, then the function.
Partial: without custom functions in the lambdas of methods, which are run for each element (`C121_map_partial` and the following). -/
theorem C121_once_partial (hg : Recorded g calls) (X : Ext) (e : Expr) (he : straight X g false e = true) (vars : Env) (w : W) :
    ∃ made, calls (evalEffects X g e vars w).1 = calls w ++ made ∧ (made.map Prod.fst).Sublist (sites X g e) := by
  obtain ⟨D, h1, h2, _⟩ := eval_tr hg X e he vars w
  exact ⟨D, h1, h2⟩

/-- C121. Without conditionals and `SUMIF`, an evaluation that succeeds runs every place exactly once, in order; one that fails runs the first of them, up to the failure. In
particular both sides of `&&`, `||` and of every other operator are run.
Partial: as before. -/
theorem C121_exact_partial (hg : Recorded g calls) (X : Ext) (e : Expr) (he : straight X g true e = true) (vars : Env) (w : W) :
    ∃ made, calls (evalEffects X g e vars w).1 = calls w ++ made ∧ made.map Prod.fst <+: sites X g e ∧
      (∀ v, (evalEffects X g e vars w).2 = .ok v → made.map Prod.fst = sites X g e) := by
  obtain ⟨D, h1, _, h3⟩ := eval_tr hg X e he vars w
  exact ⟨D, h1, (h3 rfl).1, fun v hv => (h3 rfl).2 ⟨v, hv⟩⟩

/-- `F(1) + F(2) * G()`. -/
def Spec.sample : Expr := .binary (.call c!"F" [.number (F64.ofNat 1)]) .add (.binary (.call c!"F" [.number (F64.ofNat 2)]) .mul (.call c!"G" []))

/-- Two places call `F` and one calls `G`; `G` fails, and all three were called. -/
example (X : Ext) (h1 : X.upper c!"F" = c!"F") (h2 : X.upper c!"G" = c!"G") : straight X noting true sample = true ∧ sites X noting sample = [c!"F", c!"F", c!"G"] ∧
    (evalEffects X noting sample (fun _ => none) []).1 = [(c!"F", [.num (F64.ofNat 1)]), (c!"F", [.num (F64.ofNat 2)]), (c!"G", [])] := by
  refine ⟨?_, ?_, ?_⟩
  · simp [straight, straightAll, sample, runsCustom, isConditional, isConstant]
  · simp [sites, sitesEach, sample, runsCustom, isConditional, isConstant, Reg.has, h1, h2, noting]
  · simp only [evalEffects, sample, eval, call, Reg.has, Reg.execute, h1, h2]
    kernel_rfl

/-! ### Methods with a lambda -/

theorem bind_run {α β : Type} (m : M W α) (k : α → M W β) (w : W) : (m >>= k) w = match m w with | (w, .ok v) => k v w | (w, .error e) => (w, .error e) := rfl


/-- Run the function on one value after the other, up to the first failure. -/
def Spec.each (f : List Value → M W Value) : List Value → M W (List Value)
  | [] => fun w => (w, .ok [])
  | v :: vs => fun w => match f [v] w with
    | (w, .error e) => (w, .error e)
    | (w, .ok r) => match each f vs w with
      | (w, .error e) => (w, .error e)
      | (w, .ok rs) => (w, .ok (r :: rs))

/-- The lambda that passes the element to a custom function. -/
def Spec.pass (F : Str) : Expr := .call F [.var c!"x"]

theorem pass_run (X : Ext) (F : Str) (f : Fn W) (hF : F ≠ c!"__TERNARY__") (hf : g (X.upper F) = some f) (h1 : f.minArgs ≤ 1) (h2 : ∀ m, f.maxArgs = some m → 1 ≤ m) (env : Env) (v : Value) :
    Legacy.eval X g (pass F) (env.insert c!"x" v) = f.run [v] := by
  have hv : (env.insert c!"x" v) c!"x" = some v := by simp [Env.insert]
  have ha : (evalArgs (env.insert c!"x" v) (Legacy.argsOf X g [.var c!"x"]) : M W (List Value)) = lift (.ok [v]) := by
    funext w
    simp only [Legacy.argsOf, evalArgs, Legacy.eval, hv]
    rfl
  have he : g.execute X F [v] = f.run [v] := by
    unfold Reg.execute
    rw [hf]
    have h3 : ¬ [v].length < f.minArgs := by simpa using h1
    dsimp only
    rw [if_neg h3]
    cases hm : f.maxArgs with
    | none => rfl
    | some m =>
      have h4 : ¬ [v].length > m := Nat.not_lt.2 (h2 m hm)
      dsimp only
      rw [if_neg h4]
  simp only [pass, Legacy.eval, Legacy.call]
  rw [if_neg hF, if_pos (by simp [Reg.has, hf]), ha, ← he]
  rfl

theorem each_calls {F : Str} {f : Fn W} (hg : Recorded g calls) (hf : g F = some f) (vs : List Value) (w : W) :
    ∃ k, k ≤ vs.length ∧ calls (each f.run vs w).1 = calls w ++ (vs.take k).map (fun v => (F, [v])) ∧
      ∀ rs, (each f.run vs w).2 = .ok rs → k = vs.length ∧ rs.length = vs.length := by
  induction vs generalizing w with
  | nil => exact ⟨0, Nat.le_refl _, by simp [each], fun rs h => by cases h; exact ⟨rfl, rfl⟩⟩
  | cons v vs ih =>
    have hc := hg F f hf [v] w
    unfold each
    revert hc
    rcases f.run [v] w with ⟨w1, r⟩
    intro hc
    cases r with
    | error e => exact ⟨1, by simp, by simpa using hc, fun rs h => by cases h⟩
    | ok r =>
      obtain ⟨k, h1, h2, h3⟩ := ih w1
      dsimp only at hc ⊢
      rw [hc] at h2
      revert h2 h3
      rcases each f.run vs w1 with ⟨w2, rs⟩
      intro h2 h3
      refine ⟨k + 1, by simpa using h1, ?_, ?_⟩
      · cases rs <;> simpa using h2
      · intro rs' h
        cases rs with
        | error e => cases h
        | ok rs =>
          cases h
          have := h3 rs rfl
          simp [this.1, this.2]

theorem map_each (X : Ext) (F : Str) (f : Fn W) (hF : F ≠ c!"__TERNARY__") (hf : g (X.upper F) = some f) (h1 : f.minArgs ≤ 1) (h2 : ∀ m, f.maxArgs = some m → 1 ≤ m) (env : Env) (vs : List Value) :
    Loop.map (Legacy.eval X g (pass F)) c!"x" env vs = each f.run vs := by
  induction vs generalizing env with
  | nil => rfl
  | cons v vs ih =>
    funext w
    show (Legacy.eval X g (pass F) (env.insert c!"x" v) >>= fun r => _) w = _
    rw [pass_run X F f hF hf h1 h2]
    simp only [ih, each]
    rw [bind_run]
    rcases f.run [v] w with ⟨w1, r⟩
    cases r with
    | error e => rfl
    | ok r =>
      dsimp only
      rw [bind_run]
      rcases each f.run vs w1 with ⟨w2, rs⟩
      cases rs <;> rfl

theorem filter_each (X : Ext) (F : Str) (f : Fn W) (hF : F ≠ c!"__TERNARY__") (hf : g (X.upper F) = some f) (h1 : f.minArgs ≤ 1) (h2 : ∀ m, f.maxArgs = some m → 1 ≤ m) (env : Env) (vs : List Value) (w : W) :
    Loop.filter (Legacy.eval X g (pass F)) c!"x" env vs w = match each f.run vs w with
      | (w, .error e) => (w, .error e)
      | (w, .ok rs) => (w, .ok (((vs.zip rs).filter fun p => isTrue p.2).map Prod.fst)) := by
  induction vs generalizing env w with
  | nil => rfl
  | cons v vs ih =>
    show (Legacy.eval X g (pass F) (env.insert c!"x" v) >>= fun r => _) w = _
    rw [pass_run X F f hF hf h1 h2]
    rw [bind_run]
    unfold each
    rcases f.run [v] w with ⟨w1, r⟩
    cases r with
    | error e => rfl
    | ok r =>
      dsimp only
      rw [bind_run, ih]
      rcases each f.run vs w1 with ⟨w2, rs⟩
      cases rs with
      | error e => rfl
      | ok rs =>
        dsimp only
        rw [List.zip_cons_cons, List.filter_cons]
        dsimp only
        split <;> rfl

theorem find_calls (hg : Recorded g calls) (X : Ext) (F : Str) (f : Fn W) (hF : F ≠ c!"__TERNARY__") (hf : g (X.upper F) = some f) (h1 : f.minArgs ≤ 1) (h2 : ∀ m, f.maxArgs = some m → 1 ≤ m) (env : Env)
    (vs : List Value) (w : W) :
    ∃ k, k ≤ vs.length ∧ calls (Loop.find (Legacy.eval X g (pass F)) c!"x" env vs w).1 = calls w ++ (vs.take k).map (fun v => (X.upper F, [v])) ∧
      ∀ r, (Loop.find (Legacy.eval X g (pass F)) c!"x" env vs w).2 = .ok r → (0 < k ∧ vs[k - 1]? = some r) ∨ (k = vs.length ∧ r = .null) := by
  induction vs generalizing env w with
  | nil => exact ⟨0, Nat.le_refl _, by simp [Loop.find, lift], fun r h => by cases h; exact .inr ⟨rfl, rfl⟩⟩
  | cons v vs ih =>
    have hc := hg _ f hf [v] w
    have hl : Loop.find (Legacy.eval X g (pass F)) c!"x" env (v :: vs) w =
        match f.run [v] w with | (w, .ok r) => (if isTrue r then lift (.ok v) else Loop.find (Legacy.eval X g (pass F)) c!"x" (env.insert c!"x" v) vs) w | (w, .error e) => (w, .error e) := by
      show (Legacy.eval X g (pass F) (env.insert c!"x" v) >>= fun r => _) w = _
      rw [pass_run X F f hF hf h1 h2, bind_run]
      rcases f.run [v] w with ⟨w1, r⟩
      cases r <;> rfl
    rw [hl]
    revert hc
    rcases f.run [v] w with ⟨w1, r⟩
    intro hc
    cases r with
    | error e => exact ⟨1, by simp, by simpa using hc, fun r h => by cases h⟩
    | ok r =>
      dsimp only at hc ⊢
      by_cases hr : isTrue r
      · rw [if_pos hr]
        exact ⟨1, by simp, by simpa [lift] using hc, fun r h => by cases h; exact .inl ⟨Nat.zero_lt_one, rfl⟩⟩
      · rw [if_neg hr]
        obtain ⟨k, h3, h4, h5⟩ := ih (env.insert c!"x" v) w1
        refine ⟨k + 1, by simpa using h3, by rw [h4, hc]; simp, fun r h => ?_⟩
        rcases h5 r h with ⟨h6, h7⟩ | ⟨h6, h7⟩
        · refine .inl ⟨Nat.succ_pos _, ?_⟩
          obtain ⟨k, rfl⟩ : ∃ j, k = j + 1 := ⟨k - 1, by omega⟩
          simpa using h7
        · exact .inr ⟨by simp [h6], h7⟩

/-- The receiver of a method gives an array. -/
theorem method_run (X : Ext) (t : Expr) (n : Str) (es : List Expr) (vars : Env) (w w1 : W) (items : List Value) (ht : evalEffects X g t vars w = (w1, .ok (.arr items))) :
    evalEffects X g (.method t n es false) vars w = Method.exec X vars n false (.arr items) (Legacy.argsOf X g es) w1 := by
  unfold evalEffects at ht ⊢
  simp only [eval]
  rw [bind_run, ht]

/-- C121. `t.map(F(:x))` runs `F` once on each element, from the first to the last, up to the first failure, and gives the results.
Partial: this lambda. -/
theorem C121_map_partial (hg : Recorded g calls) (X : Ext) (n F : Str) (f : Fn W) (hn : X.lower n = c!"map") (hF : F ≠ c!"__TERNARY__") (hf : g (X.upper F) = some f) (h1 : f.minArgs ≤ 1)
    (h2 : ∀ m, f.maxArgs = some m → 1 ≤ m) (t : Expr) (vars : Env) (w w1 : W) (items : List Value) (ht : evalEffects X g t vars w = (w1, .ok (.arr items))) :
    let out := evalEffects X g (.method t n [pass F] false) vars w
    (∃ k, k ≤ items.length ∧ calls out.1 = calls w1 ++ (items.take k).map (fun v => (X.upper F, [v])) ∧ (∀ r, out.2 = .ok r → k = items.length)) ∧
    out = (match each f.run items w1 with | (w, .error e) => (w, .error e) | (w, .ok rs) => (w, .ok (.arr rs))) := by
  intro out
  have ho : out = (match each f.run items w1 with | (w, .error e) => (w, .error e) | (w, .ok rs) => (w, .ok (.arr rs))) := by
    show evalEffects X g (.method t n [pass F] false) vars w = _
    rw [method_run X t n _ vars w w1 items ht]
    have : Method.exec X vars n false (.arr items) (Legacy.argsOf X g [pass F]) = (Loop.map (Legacy.eval X g (pass F)) c!"x" vars items >>= fun out => pure (Value.arr out)) := by
      unfold Method.exec
      rw [hn]
      rfl
    rw [this, map_each X F f hF hf h1 h2]
    rw [bind_run]
    rcases each f.run items w1 with ⟨w2, rs⟩
    cases rs <;> rfl
  refine ⟨?_, ho⟩
  obtain ⟨k, h3, h4, h5⟩ := each_calls hg hf items w1
  rw [ho]
  revert h4 h5
  rcases each f.run items w1 with ⟨w2, rs⟩
  intro h4 h5
  cases rs with
  | error e => exact ⟨k, h3, h4, fun r h => by cases h⟩
  | ok rs => exact ⟨k, h3, h4, fun r h => (h5 rs rfl).1⟩

/-- C121. `t.filter(F(:x))` runs `F` once on each element, from the first to the last, up to the first failure, and keeps those for which it gave `TRUE`.
Partial: this lambda. -/
theorem C121_filter_partial (hg : Recorded g calls) (X : Ext) (n F : Str) (f : Fn W) (hn : X.lower n = c!"filter") (hF : F ≠ c!"__TERNARY__") (hf : g (X.upper F) = some f) (h1 : f.minArgs ≤ 1)
    (h2 : ∀ m, f.maxArgs = some m → 1 ≤ m) (t : Expr) (vars : Env) (w w1 : W) (items : List Value) (ht : evalEffects X g t vars w = (w1, .ok (.arr items))) :
    let out := evalEffects X g (.method t n [pass F] false) vars w
    (∃ k, k ≤ items.length ∧ calls out.1 = calls w1 ++ (items.take k).map (fun v => (X.upper F, [v])) ∧ (∀ r, out.2 = .ok r → k = items.length)) ∧
    out = (match each f.run items w1 with
      | (w, .error e) => (w, .error e)
      | (w, .ok rs) => (w, .ok (.arr (((items.zip rs).filter fun p => isTrue p.2).map Prod.fst)))) := by
  intro out
  have ho : out = (match each f.run items w1 with
      | (w, .error e) => (w, .error e)
      | (w, .ok rs) => (w, .ok (.arr (((items.zip rs).filter fun p => isTrue p.2).map Prod.fst)))) := by
    show evalEffects X g (.method t n [pass F] false) vars w = _
    rw [method_run X t n _ vars w w1 items ht]
    have : Method.exec X vars n false (.arr items) (Legacy.argsOf X g [pass F]) = (Loop.filter (Legacy.eval X g (pass F)) c!"x" vars items >>= fun out => pure (Value.arr out)) := by
      unfold Method.exec
      rw [hn]
      rfl
    rw [this]
    rw [bind_run, filter_each X F f hF hf h1 h2]
    rcases each f.run items w1 with ⟨w2, rs⟩
    cases rs <;> rfl
  refine ⟨?_, ho⟩
  obtain ⟨k, h3, h4, h5⟩ := each_calls hg hf items w1
  rw [ho]
  revert h4 h5
  rcases each f.run items w1 with ⟨w2, rs⟩
  intro h4 h5
  cases rs with
  | error e => exact ⟨k, h3, h4, fun r h => by cases h⟩
  | ok rs => exact ⟨k, h3, h4, fun r h => (h5 rs rfl).1⟩

/-- C121. `t.find(F(:x))` runs `F` on the elements from the first on, once each. When it succeeds, the element last tried is the result, or all were tried and the result is null: no
element behind the one found is tried.
Partial: this lambda. -/
theorem C121_find_partial (hg : Recorded g calls) (X : Ext) (n F : Str) (f : Fn W) (hn : X.lower n = c!"find") (hF : F ≠ c!"__TERNARY__") (hf : g (X.upper F) = some f) (h1 : f.minArgs ≤ 1)
    (h2 : ∀ m, f.maxArgs = some m → 1 ≤ m) (t : Expr) (vars : Env) (w w1 : W) (items : List Value) (ht : evalEffects X g t vars w = (w1, .ok (.arr items))) :
    let out := evalEffects X g (.method t n [pass F] false) vars w
    ∃ k, k ≤ items.length ∧ calls out.1 = calls w1 ++ (items.take k).map (fun v => (X.upper F, [v])) ∧
      ∀ r, out.2 = .ok r → (0 < k ∧ items[k - 1]? = some r) ∨ (k = items.length ∧ r = .null) := by
  intro out
  have ho : out = Loop.find (Legacy.eval X g (pass F)) c!"x" vars items w1 := by
    show evalEffects X g (.method t n [pass F] false) vars w = _
    rw [method_run X t n _ vars w w1 items ht]
    unfold Method.exec
    rw [hn]
    rfl
  rw [ho]
  exact find_calls hg X F f hF hf h1 h2 vars items w1

/-- `[1, 2].map(F(:x))` leaves two notes. -/
example (X : Ext) (h1 : X.upper c!"F" = c!"F") (h2 : X.lower c!"map" = c!"map") :
    evalEffects X noting (.method (.array [.number (F64.ofNat 1), .number (F64.ofNat 2)]) c!"map" [pass c!"F"] false) (fun _ => none) [] =
      ([(c!"F", [.num (F64.ofNat 1)]), (c!"F", [.num (F64.ofNat 2)])], .ok (.arr [.num (F64.ofNat 1), .num (F64.ofNat 2)])) := by
  have ht : evalEffects X noting (.array [.number (F64.ofNat 1), .number (F64.ofNat 2)]) (fun _ => none) [] = ([], .ok (.arr [.num (F64.ofNat 1), .num (F64.ofNat 2)])) := by
    simp only [evalEffects, eval]
    kernel_rfl
  rw [(C121_map_partial noting_recorded X c!"map" c!"F" _ h2 (by decide) (by rw [h1]; rfl) (Nat.le_refl _) (by intro m h; cases h; exact Nat.le_refl _) _ _ _ _ _ ht).2]
  rfl

theorem argsOf_cons (X : Ext) (e : Expr) (es : List Expr) : ∃ a, Legacy.argsOf X g (e :: es) = a :: Legacy.argsOf X g es ∧ Legacy.argsOf X g [e] = [a] := by
  cases e <;> simp only [Legacy.argsOf] <;> exact ⟨_, rfl, rfl⟩

theorem head_tr (hg : Recorded g calls) (X : Ext) (e : Expr) (es : List Expr) (he : straightArg X g true e = true) :
    ∃ a, Legacy.argsOf X g (e :: es) = a :: Legacy.argsOf X g es ∧ TrOp calls true a (sites X g e) := by
  obtain ⟨a, h1, h2⟩ := argsOf_cons (g := g) X e es
  have := Legacy.args_tr (st := true) hg X [e] (by simp only [straightArgs, he, Bool.and_self])
  rw [h2] at this
  simp only [sitesEach] at this
  cases this with
  | cons h _ => exact ⟨a, h1, h⟩

/-- C121. `t.map(...)` and `t.filter(...)` make the calls of their lambda once for each element, one element after the other; a failure ends them.
Partial: lambdas without conditionals and without functions or methods that take a lambda with custom functions in it. -/
theorem C121_lambda_partial (hg : Recorded g calls) (X : Ext) (n : Str) (hn : X.lower n = c!"map" ∨ X.lower n = c!"filter") (t lam : Expr) (rest : List Expr) (hl : straightArg X g true lam = true)
    (vars : Env) (w w1 : W) (items : List Value) (ht : evalEffects X g t vars w = (w1, .ok (.arr items))) :
    let out := evalEffects X g (.method t n (lam :: rest) false) vars w
    ∃ made, calls out.1 = calls w1 ++ made ∧ made.map Prod.fst <+: (List.replicate items.length (sites X g lam)).flatten ∧
      (∀ r, out.2 = .ok r → made.map Prod.fst = (List.replicate items.length (sites X g lam)).flatten) := by
  obtain ⟨a, ha, htr⟩ := head_tr hg X lam rest hl
  intro out
  have key : Tr calls true (List.replicate items.length (sites X g lam)).flatten (Method.exec X vars n false (.arr items) (Legacy.argsOf X g (lam :: rest))) := by
    rw [ha]
    unfold Method.exec
    rcases hn with hn | hn
    · rw [hn]
      exact tr_last (tr_map htr.run _ _ _) fun _ => tr_ok _
    · rw [hn]
      exact tr_last (tr_filter htr.run _ _ _) fun _ => tr_ok _
  have ho : out = Method.exec X vars n false (.arr items) (Legacy.argsOf X g (lam :: rest)) w1 := method_run X t n _ vars w w1 items ht
  rw [ho]
  obtain ⟨D, h1, _, h3⟩ := key w1
  exact ⟨D, h1, (h3 rfl).1, fun r hr => (h3 rfl).2 ⟨r, hr⟩⟩

/-- C121. `t.reduce(..., start)` makes the calls of the start value, then those of the lambda once for each element.
Partial: as before. -/
theorem C121_reduce_partial (hg : Recorded g calls) (X : Ext) (n : Str) (hn : X.lower n = c!"reduce") (t lam start : Expr) (rest : List Expr) (hl : straightArg X g true lam = true)
    (hi : straightArg X g true start = true) (vars : Env) (w w1 : W) (items : List Value) (ht : evalEffects X g t vars w = (w1, .ok (.arr items))) :
    let out := evalEffects X g (.method t n (lam :: start :: rest) false) vars w
    ∃ made, calls out.1 = calls w1 ++ made ∧ made.map Prod.fst <+: sites X g start ++ (List.replicate items.length (sites X g lam)).flatten ∧
      (∀ r, out.2 = .ok r → made.map Prod.fst = sites X g start ++ (List.replicate items.length (sites X g lam)).flatten) := by
  obtain ⟨a, ha, htr⟩ := head_tr hg X lam (start :: rest) hl
  obtain ⟨b, hb, hbr⟩ := head_tr hg X start rest hi
  intro out
  have key : Tr calls true (sites X g start ++ (List.replicate items.length (sites X g lam)).flatten) (Method.exec X vars n false (.arr items) (Legacy.argsOf X g (lam :: start :: rest))) := by
    rw [ha, hb]
    unfold Method.exec
    rw [hn]
    exact tr_bind (hbr.run _) fun _ => tr_reduce htr.run _ _ _ _ _
  have ho : out = Method.exec X vars n false (.arr items) (Legacy.argsOf X g (lam :: start :: rest)) w1 := method_run X t n _ vars w w1 items ht
  rw [ho]
  obtain ⟨D, h1, _, h3⟩ := key w1
  exact ⟨D, h1, (h3 rfl).1, fun r hr => (h3 rfl).2 ⟨r, hr⟩⟩

/-- A lambda with two calls. -/
example (X : Ext) (h1 : X.upper c!"F" = c!"F") : straightArg X noting true (.binary (pass c!"F") .add (pass c!"F")) = true ∧ sites X noting (.binary (pass c!"F") .add (pass c!"F")) = [c!"F", c!"F"] := by
  constructor
  · simp [straightArg, straightArgs, pass, runsCustom, isConditional, isConstant, Reg.has, h1, noting]
  · simp [sites, sitesEach, pass, runsCustom, isConditional, isConstant, Reg.has, h1, noting]

/-! ### Conditionals -/

theorem argsOf_three (X : Ext) (c a b : Expr) : ∃ c' a' b', argsOf X g [c, a, b] = [c', a', b'] ∧ c'.run = eval X g c ∧ a'.run = eval X g a ∧ b'.run = eval X g b := by
  have key : ∀ e es, ∃ a, argsOf X g (e :: es) = a :: argsOf X g es ∧ a.run = eval X g e := by
    intro e es
    cases e <;> simp only [argsOf] <;> refine ⟨_, rfl, ?_⟩ <;> first | rfl | (simp only [eval])
  obtain ⟨c', h1, h2⟩ := key c [a, b]
  obtain ⟨a', h3, h4⟩ := key a [b]
  obtain ⟨b', h5, h6⟩ := key b []
  refine ⟨c', a', b', ?_, h2, h4, h6⟩
  rw [h1, h3, h5]
  simp only [argsOf]

/-- C121. `c ? a : b` evaluates the condition, then the branch taken and not the other one. -/
theorem C121_conditional (X : Ext) (c a b : Expr) (vars : Env) (w : W) :
    evalEffects X g (.call c!"__TERNARY__" [c, a, b]) vars w = match evalEffects X g c vars w with
      | (w, .error e) => (w, .error e)
      | (w, .ok v) => match v.asBool with
        | some true => evalEffects X g a vars w
        | some false => evalEffects X g b vars w
        | none => (w, fail "Ternary condition must be boolean") := by
  obtain ⟨c', a', b', h1, h2, h3, h4⟩ := argsOf_three (g := g) X c a b
  unfold evalEffects
  simp only [eval, call, h1, if_true]
  rw [← h2, ← h3, ← h4]
  simp only [ternary]
  rw [bind_run]
  rcases c'.run vars w with ⟨w1, r⟩
  cases r with
  | error e => rfl
  | ok v =>
    dsimp only
    cases v.asBool with
    | none => rfl
    | some b => cases b <;> rfl

/-- C121. So the branch not taken calls nothing: whatever it is, the world afterwards is the same. -/
theorem C121_not_taken (X : Ext) (c a b b' : Expr) (vars : Env) (w w1 : W) (v : Value) (hc : evalEffects X g c vars w = (w1, .ok v)) (hv : v.asBool = some true) :
    evalEffects X g (.call c!"__TERNARY__" [c, a, b]) vars w = evalEffects X g (.call c!"__TERNARY__" [c, a, b']) vars w := by
  rw [C121_conditional, C121_conditional, hc]
  simp only [hv]

example (X : Ext) : evalEffects X noting (.call c!"__CONST_TRUE__" []) (fun _ => none) [] = ([], .ok (.bool true)) := by
  simp only [evalEffects, eval]
  rfl

/-! ### `SUMIF` -/

/-- C121, finding. `SUMIF([], G())` runs `G` although there is no element to test, and drops its failure: the result is 0, and what `G` did stays done. -/
theorem C121_sumif (X : Ext) (h : X.upper c!"G" = c!"G") (h' : X.upper c!"SUMIF" = c!"SUMIF") :
    evalEffects X noting (.call c!"SUMIF" [.array [], .call c!"G" []]) (fun _ => none) [] = ([(c!"G", [])], .ok (.num (.zero false))) := by
  simp only [evalEffects, eval, argsOf, call, Reg.has, Reg.execute, h, h']
  kernel_rfl

/-- C121, finding. `FALSE && G()` runs `G`, and fails as it does. -/
theorem C121_and (X : Ext) (h : X.upper c!"G" = c!"G") :
    evalEffects X noting (.binary (.call c!"__CONST_FALSE__" []) .and (.call c!"G" [])) (fun _ => none) [] = ([(c!"G", [])], fail "no") := by
  simp only [evalEffects, eval, argsOf, call, Reg.has, Reg.execute, h]
  kernel_rfl

end Fx
