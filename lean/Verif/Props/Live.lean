import Verif.Lemmas.Live
/-! C141: an evaluation while other threads register and unregister functions. `evaluateLive X sched` is an evaluation that finds the registry `sched k` when it looks for the `k`-th time; any sequence of
registries is allowed. -/

open Spec Lib Live Live.Spec

theorem evalLive_rel (X : Ext) (sched : Nat → Registry) (r : Registry) (ns : List Str) (e : Expr) (env : Env) :
    (∀ p ∈ (evalLive X sched e env).1.seen, p.at < (evalLive X sched e env).1.reads) ∧
    (places X ns e ≤ 1 → ((evalLive X sched e env).1.seen.filter (concerns X ns)).length ≤ places X ns e) ∧
    ((∀ p ∈ (evalLive X sched e env).1.seen, Agrees X sched r p) → (evalLive X sched e env).2 = evalCustom X r e env) := by
  obtain ⟨new, a1, a0, a2, a3⟩ := Live.eval_rel ⟨X, sched, r, ns⟩ e env ⟨0, []⟩
  rw [List.nil_append] at a1
  unfold evalLive
  rw [a1]
  exact ⟨a0.2, a2, a3⟩

mutual
theorem Live.places_zero (X : Ext) (ns : List Str) (e : Expr) (h : ∀ m ∈ calls e, X.upper m ∉ ns) : places X ns e = 0 := by
  cases e
  case number | strLit | null | var => simp only [places]
  all_goals simp only [calls, List.mem_append, List.mem_cons] at h
  all_goals try simp only [places]
  case unary | prop | safeProp | spread | cast | assign => exact Live.places_zero X ns _ h
  case binary a _ b | index a b =>
    rw [Live.places_zero X ns a fun m hm => h m (.inl hm), Live.places_zero X ns b fun m hm => h m (.inr hm)]
  case array es => exact Live.placesList_zero X ns es h
  case seq es => exact Live.placesList_zero X ns es h
  case object ms => exact Live.placesMembers_zero X ns ms h
  case safeCall t _ es => rw [Live.places_zero X ns t fun m hm => h m (.inl hm), Live.placesList_zero X ns es fun m hm => h m (.inr hm)]
  case method t _ es _ => rw [Live.places_zero X ns t fun m hm => h m (.inl hm), Live.placesList_zero X ns es fun m hm => h m (.inr hm)]
  case slice t a b =>
    rw [Live.places_zero X ns t fun m hm => h m (.inl (.inl hm)), Live.placesOpt_zero X ns a fun m hm => h m (.inl (.inr hm)), Live.placesOpt_zero X ns b fun m hm => h m (.inr hm)]
  case call n es =>
    have hc : ns.contains (X.upper n) = false := by simpa using h n (.inl rfl)
    have := Live.placesList_zero X ns es fun m hm => h m (.inr hm)
    cases es with
    | nil => simp only [places, hc, Bool.false_eq_true, if_false]
    | cons e es =>
      simp only [placesList] at this
      simp only [places, hc, Bool.false_eq_true, if_false]
      cases loops.contains n <;> simp only [Bool.false_eq_true, if_true, if_false] <;> omega
theorem Live.placesList_zero (X : Ext) (ns : List Str) (es : List Expr) (h : ∀ m ∈ callsList es, X.upper m ∉ ns) : placesList X ns es = 0 := by
  cases es with
  | nil => rfl
  | cons e es =>
    simp only [callsList, List.mem_append] at h
    simp only [placesList]
    rw [Live.places_zero X ns e fun m hm => h m (.inl hm), Live.placesList_zero X ns es fun m hm => h m (.inr hm)]
theorem Live.placesMembers_zero (X : Ext) (ns : List Str) (ms : List (Str × Expr)) (h : ∀ m ∈ callsMembers ms, X.upper m ∉ ns) : placesMembers X ns ms = 0 := by
  cases ms with
  | nil => rfl
  | cons p ms =>
    obtain ⟨k, e⟩ := p
    simp only [callsMembers, List.mem_append] at h
    simp only [placesMembers]
    rw [Live.places_zero X ns e fun m hm => h m (.inl hm), Live.placesMembers_zero X ns ms fun m hm => h m (.inr hm)]
theorem Live.placesOpt_zero (X : Ext) (ns : List Str) (o : Option Expr) (h : ∀ m ∈ callsOpt o, X.upper m ∉ ns) : placesOpt X ns o = 0 := by
  cases o with
  | none => rfl
  | some e => exact Live.places_zero X ns e h
end

/-- The functions that an evaluation looks for are among those that the expression calls. -/
theorem seen_called (X : Ext) (sched : Nat → Registry) (e : Expr) (env : Env) (p : Seen) (hp : p ∈ (evalLive X sched e env).1.seen) (m : Str) (hm : concerns X [m] p = true) : m ∈ called X e := by
  by_contra hc
  have hz : places X [m] e = 0 := Live.places_zero X [m] e fun n hn h => hc (by
    rw [List.mem_singleton] at h
    exact List.mem_map.2 ⟨n, hn, h⟩)
  have := (evalLive_rel X sched Registry.empty [m] e env).2.1 (by omega)
  rw [hz, Nat.le_zero, List.length_eq_zero_iff, List.filter_eq_nil_iff] at this
  exact this p hp hm

/-- C141: if every registry that the evaluation may find agrees with `r` on the functions that the text calls, the result is that of an evaluation with `r` alone: functions that are registered or unregistered in
the meantime, but not called, do not matter. -/
theorem C141_unaffected (X : Ext) (sched : Nat → Registry) (r : Registry) (input : Str) (e : Expr) (hp : parse input = .ok e) (h : ∀ k, ∀ m ∈ called X e, sched k m = r m) (env : Env) :
    evaluateLive X sched input env = evaluateWithCustom X r input env := by
  unfold evaluateLive evaluateWithCustom
  rw [hp]
  refine (evalLive_rel X sched r [] e env).2.2 fun p hp => ?_
  have hn := seen_called X sched e env p hp
  cases p with
  | absent k n => exact h k _ (hn _ (by simp [concerns]))
  | held k n es =>
    intro m hm
    exact h k m (hn m (by simpa [concerns] using hm))

/-- C141: if only the functions `ns` change, and at most one place of the text, outside lambdas, calls one of them, the result is that of an evaluation with one of the registries that were found. -/
theorem C141_one_place (X : Ext) (sched : Nat → Registry) (ns : List Str) (input : Str) (e : Expr) (hp : parse input = .ok e) (h : ∀ k l, ∀ m, m ∉ ns → sched k m = sched l m) (h1 : places X ns e ≤ 1) (env : Env) :
    ∃ k, (k = 0 ∨ k < (evalLive X sched e env).1.reads) ∧ evaluateLive X sched input env = evaluateWithCustom X (sched k) input env := by
  unfold evaluateLive evaluateWithCustom
  rw [hp]
  obtain ⟨h2, h3, -⟩ := evalLive_rel X sched Registry.empty ns e env
  have h3 := h3 h1
  -- the entries about `ns` agree with `sched k`, the others with any
  have key : ∀ k, (∀ p ∈ (evalLive X sched e env).1.seen, concerns X ns p = true → p.at = k) → (evalLive X sched e env).2 = evalCustom X (sched k) e env := by
    intro k hk
    refine (evalLive_rel X sched (sched k) ns e env).2.2 fun p hp => ?_
    have hk := hk p hp
    cases p with
    | absent l n =>
      simp only [Agrees]
      by_cases hn : X.upper n ∈ ns
      · rw [show l = k from hk (by simpa [concerns] using hn)]
      · exact h _ _ _ hn
    | held l n es =>
      intro m hm
      by_cases hn : m ∈ ns
      · rw [show l = k from hk (by simp only [concerns, List.any_eq_true]; exact ⟨m, hm, by simpa using hn⟩)]
      · exact h _ _ _ hn
  rcases hf : (evalLive X sched e env).1.seen.filter (concerns X ns) with _ | ⟨p, _ | ⟨q, l⟩⟩
  · refine ⟨0, .inl rfl, key 0 fun p hp hc => ?_⟩
    have : p ∈ (evalLive X sched e env).1.seen.filter (concerns X ns) := List.mem_filter.2 ⟨hp, hc⟩
    rw [hf] at this
    cases this
  · have hp : p ∈ (evalLive X sched e env).1.seen := (List.mem_filter.1 (by rw [hf]; exact List.mem_singleton_self _)).1
    refine ⟨p.at, .inr (h2 p hp), key _ fun q hq hc => ?_⟩
    have : q ∈ (evalLive X sched e env).1.seen.filter (concerns X ns) := List.mem_filter.2 ⟨hq, hc⟩
    rw [hf, List.mem_singleton] at this
    rw [this]
  · rw [hf, List.length_cons, List.length_cons] at h3
    omega

/-- C141: wherever a call stands, if the function is registered when the call looks for it, this one look decides: the call, with its arguments and the calls in them, does what it does with the registry found. -/
theorem C141_call (X : Ext) (sched : Nat → Registry) (n : Str) (es : List Expr) (hn : n ∉ [c!"__TERNARY__", c!"__CONST_TRUE__", c!"__CONST_FALSE__"]) (env : Env) (s : Run)
    (h : (sched s.reads).has X n = true) :
    (Live.eval X sched (.call n es) env s).2 = evalCustom X (sched s.reads) (.call n es) env ∧ (Live.eval X sched (.call n es) env s).1.reads = s.reads + 1 := by
  simp only [List.mem_cons, List.not_mem_nil, or_false, not_or] at hn
  obtain ⟨h1, h2, h3⟩ := hn
  have key := Live.execute_rel (C := ⟨X, sched, sched s.reads, []⟩) n es env (Live.args_rel ⟨X, sched, sched s.reads, []⟩ es).1 h1 h2 h3 s.reads h fun _ _ => rfl
  simp only [Live.eval, Live.call, if_neg h1, if_neg h2, if_neg h3, Live.look, h, if_true]
  refine ⟨?_, trivial⟩
  rw [key]
  simp only [evalCustom, Eval.eval]

/-- The registry with `F`, of no arguments, that gives `s`. -/
def Spec.constantF (s : Str) : Registry := fun n => if n = c!"F" then some ⟨c!"F", 0, some 0, fun _ => .ok (.str s)⟩ else none

/-- C141, what fails: an evaluation is not atomic. While `F` is being registered anew, `[F(), F()]` may give a result that no registry gives. -/
theorem C141_not_atomic (X : Ext) : ∃ sched : Nat → Registry, ∀ env,
    evaluateLive X sched c!"[F(), F()]" env = .ok (.arr [.str c!"old", .str c!"new"]) ∧ ∀ r, evaluateWithCustom X r c!"[F(), F()]" env ≠ .ok (.arr [.str c!"old", .str c!"new"]) := by
  refine ⟨fun k => if k = 0 then constantF c!"old" else constantF c!"new", fun env => ⟨by kernel_rfl, fun r h => ?_⟩⟩
  have hp : parse c!"[F(), F()]" = .ok (.array [.call c!"F" [], .call c!"F" []]) := by kernel_rfl
  unfold evaluateWithCustom at h
  rw [hp] at h
  have he : evalCustom X r (.array [.call c!"F" [], .call c!"F" []]) env = (do
      let v ← evalCustom X r (.call c!"F" []) env
      let w ← evalCustom X r (.call c!"F" []) env
      return .arr [v, w]) := by
    simp only [evalCustom, Eval.eval, Eval.argsOf, elements, bind_assoc, pure_bind]
    cases Eval.call X c!"F" [] (some r) env <;> rfl
  have h : evalCustom X r (.array [.call c!"F" [], .call c!"F" []]) env = .ok (.arr [.str c!"old", .str c!"new"]) := h
  rw [he] at h
  cases hf : evalCustom X r (.call c!"F" []) env with
  | error f => rw [hf] at h; cases h
  | ok v =>
    rw [hf] at h
    have h : (Except.ok (.arr [v, v]) : Res Value) = .ok (.arr [.str c!"old", .str c!"new"]) := h
    injection h with h
    injection h with h
    injection h with h1 h2
    injection h2 with h2 _
    rw [h1] at h2
    injection h2 with h2
    exact absurd h2 (by decide)

/-- C141, what fails: with one place in a lambda too, so C141_one_place does not extend to lambdas. -/
theorem C141_lambda (X : Ext) : ∃ sched : Nat → Registry, ∀ env,
    evaluateLive X sched c!"[1, 2].map(F())" env = .ok (.arr [.str c!"old", .str c!"new"]) ∧ ∀ r, evaluateWithCustom X r c!"[1, 2].map(F())" env ≠ .ok (.arr [.str c!"old", .str c!"new"]) := by
  refine ⟨fun k => if k = 0 then constantF c!"old" else constantF c!"new", fun env => ⟨by kernel_rfl, fun r h => ?_⟩⟩
  have hp : parse c!"[1, 2].map(F())" = .ok (.method (.array [.number (.fin 1), .number (.fin 2)]) c!"map" [.call c!"F" []] false) := by kernel_rfl
  unfold evaluateWithCustom at h
  rw [hp] at h
  have hc : ∀ env env', Legacy.call X c!"F" [] (some r) env = Legacy.call X c!"F" [] (some r) env' := fun env env' => by
    unfold Legacy.call
    simp only [show Legacy.higherOrder c!"F" = none by kernel_rfl, evalArgs]
    simp only [show (c!"F" = c!"__TERNARY__") = False from eq_false (by decide), if_false]
  have he : evalCustom X r (.method (.array [.number (.fin 1), .number (.fin 2)]) c!"map" [.call c!"F" []] false) env = (do
      let v ← Legacy.call X c!"F" [] (some r) env
      let w ← Legacy.call X c!"F" [] (some r) env
      return .arr [v, w]) := by
    have h1 : Legacy.argsOf X [.call c!"F" []] = [⟨fun r env => Legacy.call X c!"F" [] r env, none, none⟩] := by
      simp only [Legacy.argsOf, Legacy.eval]
    have h2 : evalCustom X r (.method (.array [.number (.fin 1), .number (.fin 2)]) c!"map" [.call c!"F" []] false) env =
        Method.map (some r) env [.num (.fin 1), .num (.fin 2)] (Legacy.argsOf X [.call c!"F" []]) := by
      simp only [evalCustom, Eval.eval]
      rfl
    rw [h2, h1]
    simp only [Method.map, Loop.map]
    rw [hc (env.insert _ (.num (.fin 1))) env, hc ((env.insert _ (.num (.fin 1))).insert _ (.num (.fin 2))) env]
    cases Legacy.call X c!"F" [] (some r) env <;> rfl
  have h : evalCustom X r (.method (.array [.number (.fin 1), .number (.fin 2)]) c!"map" [.call c!"F" []] false) env = .ok (.arr [.str c!"old", .str c!"new"]) := h
  rw [he] at h
  cases hf : Legacy.call X c!"F" [] (some r) env with
  | error f => rw [hf] at h; cases h
  | ok v =>
    rw [hf] at h
    have h : (Except.ok (.arr [v, v]) : Res Value) = .ok (.arr [.str c!"old", .str c!"new"]) := h
    injection h with h
    injection h with h
    injection h with h1 h2
    injection h2 with h2 _
    rw [h1] at h2
    injection h2 with h2
    exact absurd h2 (by decide)

/-- The hypotheses of C141_unaffected are met: `G` comes and goes while `[F(), F()]` is evaluated. -/
example (X : Ext) (env : Env) : ∃ (sched : Nat → Registry) (e : Expr), parse c!"[F(), F()]" = .ok e ∧ sched 0 c!"G" ≠ none ∧ sched 1 c!"G" = none ∧ (∀ k, ∀ m ∈ called X e, sched k m = constantF c!"old" m) ∧
    evaluateLive X sched c!"[F(), F()]" env = .ok (.arr [.str c!"old", .str c!"old"]) := by
  refine ⟨fun k n => if n = c!"G" ∧ k % 2 = 0 then some ⟨c!"G", 0, none, fun _ => .ok .null⟩ else constantF c!"old" n, .array [.call c!"F" [], .call c!"F" []],
    by kernel_rfl, by simp, by simp; decide, fun k m hm => ?_, by kernel_rfl⟩
  rw [show called X (.array [.call c!"F" [], .call c!"F" []]) = [c!"F", c!"F"] by kernel_rfl] at hm
  have : m = c!"F" := by simpa using hm
  subst this
  simp

/-- Those of C141_one_place: `F` is registered anew, and called once. -/
example (X : Ext) : ∃ (sched : Nat → Registry) (e : Expr), parse c!"LEN(CONCAT(G(), F()))" = .ok e ∧ sched 0 c!"F" ≠ sched 1 c!"F" ∧ (∀ k l, ∀ m, m ∉ [c!"F"] → sched k m = sched l m) ∧ places X [c!"F"] e = 1 := by
  refine ⟨fun k => if k = 0 then constantF c!"old" else Registry.empty, .call c!"LEN" [.call c!"CONCAT" [.call c!"G" [], .call c!"F" []]], by kernel_rfl, ?_, fun k l m hm => ?_, by kernel_rfl⟩
  · intro h; cases h
  · have : m ≠ c!"F" := by simpa using hm
    have hc : ∀ s, constantF s m = none := fun s => if_neg this
    dsimp only
    split <;> split <;> simp [hc, Registry.empty]

/-- Those of C141_call: `F` is found, and the call of `F` in its argument finds the same one. -/
example (X : Ext) : c!"F" ∉ [c!"__TERNARY__", c!"__CONST_TRUE__", c!"__CONST_FALSE__"] ∧ (constantF c!"old").has X c!"F" = true := ⟨by decide, by kernel_rfl⟩
