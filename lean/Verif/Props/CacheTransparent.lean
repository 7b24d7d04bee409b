import Verif.Props.CacheKeys
import Verif.Props.Independence
import Mathlib.Data.List.Induction
/-! C50: is the cache transparent? -/

open HttpCache

namespace Spec

/-- An answer that an earlier request got by evaluation: in the history `h` from `s0` there is a request with this key for which, in the world at that
time, evaluation gives this answer. -/
def EarlierAnswer (s0 : Server) (h : List Event) (k : Str) (a : Value × Option Env) : Prop :=
  ∃ h1 r h2, h = h1 ++ .request r :: h2 ∧ r.key s0.X = k ∧ fresh (s0.after h1).X (s0.after h1).reg r = .ok a

end Spec

open Spec

theorem Spec.EarlierAnswer.later {s0 : Server} {h : List Event} {k : Str} {a : Value × Option Env} (ev : List Event) (ho : EarlierAnswer s0 h k a) :
    EarlierAnswer s0 (h ++ ev) k a := by
  obtain ⟨h1, r, h2, rfl, hk, hf⟩ := ho
  exact ⟨h1, r, h2 ++ ev, by simp, hk, hf⟩

theorem cacheFind_mem {k : Str} {e : Entry} : ∀ {items : List (Str × Entry)}, find k items = some e → (k, e) ∈ items
  | [], h => by simp [find] at h
  | (k', e') :: rest, h => by
    simp only [find] at h
    split at h
    · rename_i hk; simp at h; simp [hk, h]
    · exact List.mem_cons_of_mem _ (cacheFind_mem h)

theorem HttpCache.Server.after_snoc (s0 : Server) (h : List Event) (ev : Event) : s0.after (h ++ [ev]) = (s0.after h).step ev := by
  simp [Server.after]

theorem HttpCache.Server.ask_X (s : Server) (r : Request) : (s.ask r).2.X = s.X ∧ (s.ask r).2.reg = s.reg := by
  simp only [Server.ask]
  split
  · exact ⟨rfl, rfl⟩
  · split <;> exact ⟨rfl, rfl⟩

theorem HttpCache.Server.step_X (s : Server) (ev : Event) : ∃ n t c, (s.step ev).X = s.X.atInstant n t c := by
  cases ev with
  | request r => exact ⟨s.X.now, s.X.today, s.X.secsOfDay, (s.ask_X r).1⟩
  | store i =>
    refine ⟨s.X.now, s.X.today, s.X.secsOfDay, ?_⟩
    simp only [Server.step]
    split <;> rfl
  | clock n t c => exact ⟨n, t, c, rfl⟩
  | registry reg => exact ⟨s.X.now, s.X.today, s.X.secsOfDay, rfl⟩
  | clear => exact ⟨s.X.now, s.X.today, s.X.secsOfDay, rfl⟩

theorem HttpCache.Server.after_X (s0 : Server) (h : List Event) : ∃ n t c, (s0.after h).X = s0.X.atInstant n t c := by
  induction h using List.reverseRecOn with
  | nil => exact ⟨s0.X.now, s0.X.today, s0.X.secsOfDay, rfl⟩
  | append_singleton h ev ih =>
    obtain ⟨n, t, c, e⟩ := ih
    obtain ⟨n', t', c', e'⟩ := (s0.after h).step_X ev
    exact ⟨n', t', c', by rw [Server.after_snoc, e', e]; rfl⟩

theorem HttpCache.Server.key_same (s0 : Server) (h : List Event) (r : Request) : r.key (s0.after h).X = r.key s0.X := by
  obtain ⟨n, t, c, e⟩ := s0.after_X h
  rw [e]
  simp only [Request.key, HttpCache.key, dbg_congr (X := s0.X.atInstant n t c) (Y := s0.X) rfl rfl]

/-- What is in the cache or waiting to be stored there are earlier answers. -/
def AllEarlier (s0 : Server) (h : List Event) (items : List (Str × Entry)) : Prop :=
  ∀ p ∈ items, EarlierAnswer s0 h p.1 (p.2.result, p.2.context)

theorem AllEarlier.later {s0 : Server} {h : List Event} {items : List (Str × Entry)} (ev : List Event) (ha : AllEarlier s0 h items) :
    AllEarlier s0 (h ++ ev) items := fun p hp => (ha p hp).later ev

theorem cache_get_earlier {s0 : Server} {h : List Event} {c : Cache} (ha : AllEarlier s0 h c.items) (k : Str) : AllEarlier s0 h (c.get k).2.items := by
  unfold Cache.get
  cases hf : find k c.items with
  | none => exact ha
  | some e =>
    intro p hp
    rcases List.mem_cons.1 hp with rfl | hp
    · exact ha (k, e) (cacheFind_mem hf)
    · exact ha p (List.mem_of_mem_filter hp)

theorem cache_put_earlier {s0 : Server} {h : List Event} {c : Cache} (ha : AllEarlier s0 h c.items) {k : Str} {e : Entry}
    (he : EarlierAnswer s0 h k (e.result, e.context)) : AllEarlier s0 h (c.put k e).items := by
  intro p hp
  simp only [Cache.put, lruPut] at hp
  split at hp
  · rcases List.mem_cons.1 hp with rfl | hp
    · exact he
    · exact ha p (List.mem_of_mem_filter hp)
  · rcases List.mem_cons.1 hp with rfl | hp
    · exact he
    · split at hp
      · exact ha p (List.dropLast_subset _ hp)
      · exact ha p hp

theorem all_earlier (s0 : Server) (h0 : s0.cache.items = []) (h1 : s0.pending = []) (h : List Event) :
    AllEarlier s0 h (s0.after h).cache.items ∧ AllEarlier s0 h (s0.after h).pending := by
  induction h using List.reverseRecOn with
  | nil => exact ⟨by intro p hp; rw [show (s0.after []).cache.items = [] from h0] at hp; simp at hp,
      by intro p hp; rw [show (s0.after []).pending = [] from h1] at hp; simp at hp⟩
  | append_singleton h ev ih =>
    obtain ⟨ic, ip⟩ := ih
    have ic' := ic.later [ev]
    have ip' := ip.later [ev]
    rw [Server.after_snoc]
    cases ev with
    | request r =>
      simp only [Server.step, Server.ask]
      have hg := cache_get_earlier ic' (r.key (s0.after h).X)
      split
      · rename_i e c hc
        rw [hc] at hg
        exact ⟨hg, ip'⟩
      · rename_i c hc
        rw [hc] at hg
        split
        · rename_i v ctx hf
          refine ⟨hg, fun p hp => ?_⟩
          rcases List.mem_append.1 hp with hp | hp
          · exact ip' p hp
          · simp only [List.mem_cons, List.not_mem_nil, or_false] at hp
            subst hp
            exact ⟨h, r, [], by simp, (s0.key_same h r).symm, hf⟩
        · exact ⟨hg, ip'⟩
    | store i =>
      simp only [Server.step]
      split
      · rename_i k e hi
        exact ⟨cache_put_earlier ic' (ip' (k, e) (List.mem_of_getElem? hi)), fun p hp => ip' p (List.mem_of_mem_eraseIdx hp)⟩
      · exact ⟨ic', ip'⟩
    | clock n t c => exact ⟨ic', ip'⟩
    | registry reg => exact ⟨ic', ip'⟩
    | clear => exact ⟨by intro p hp; simp [Server.step, Cache.clear, Cache.new] at hp, ip'⟩

/-- **C50 (where answers come from).** Starting from an empty cache with no evaluation under way, after any history every request is answered either by evaluating it now, or by what
evaluation gave an earlier request of that history with the same key, at its time. In particular a failure is never answered from the cache. -/
theorem C50_provenance (s0 : Server) (h0 : s0.cache.items = []) (h1 : s0.pending = []) (h : List Event) (r : Request) :
    ((s0.after h).ask r).1 = fresh (s0.after h).X (s0.after h).reg r ∨
    ∃ a, ((s0.after h).ask r).1 = .ok a ∧ EarlierAnswer s0 h (r.key s0.X) a := by
  obtain ⟨ic, _⟩ := all_earlier s0 h0 h1 h
  simp only [Server.ask]
  split
  · rename_i e c hc
    right
    refine ⟨_, rfl, ?_⟩
    unfold Cache.get at hc
    cases hf : find (r.key (s0.after h).X) (s0.after h).cache.items with
    | none => rw [hf] at hc; simp at hc
    | some e' =>
      rw [hf] at hc
      simp only [Prod.mk.injEq, Option.some.injEq] at hc
      rw [← hc.1]
      have := ic _ (cacheFind_mem hf)
      rw [s0.key_same] at this
      exact this
  · left
    split
    · rename_i hf; exact hf.symm
    · rename_i hf; exact hf.symm

/-! When nothing an evaluation depends on has changed. -/

mutual
theorem assignments_clock (X : Ext) (now today : Int) (secs : Nat) : (e : Expr) → (∀ f ∈ calls e, f ∉ clockFunctions) → (env : Env) →
    Eval.assignments (X.atInstant now today secs) e env = Eval.assignments X e env
  | .assign x e, h, env => by
    simp only [Eval.assignments]
    rw [C66_clock_independent X e h]
  | .seq es, h, env => by
    simp only [Eval.assignments]
    exact assignmentsSeq_clock X now today secs es h .null env
  | e, h, env => by
    have p := C66_clock_independent X e h none env now today secs
    cases e with
    | assign x e => simp only [Eval.assignments]; rw [C66_clock_independent X e h]
    | seq es => simp only [Eval.assignments]; exact assignmentsSeq_clock X now today secs es h .null env
    | _ => simp only [Eval.assignments]; rw [p]
theorem assignmentsSeq_clock (X : Ext) (now today : Int) (secs : Nat) : (es : List Expr) → (∀ f ∈ callsList es, f ∉ clockFunctions) → (last : Value) → (env : Env) →
    Eval.assignmentsSeq (X.atInstant now today secs) es last env = Eval.assignmentsSeq X es last env
  | [], h, last, env => by simp only [Eval.assignmentsSeq]
  | e :: es, h, last, env => by
    simp only [callsList, List.mem_append] at h
    simp only [Eval.assignmentsSeq]
    rw [assignments_clock X now today secs e (fun f hf => h f (.inl hf)) env]
    congr 1
    funext p
    exact assignmentsSeq_clock X now today secs es (fun f hf => h f (.inr hf)) p.1 p.2
end

namespace Spec

/-- The text of the request is an expression that calls no function that reads the clock (or no expression at all). -/
def NoClock (text : Str) : Prop := ∀ e, Lib.parse text = .ok e → ∀ f ∈ calls e, f ∉ clockFunctions

/-- The request is treated as an assignment program, which cannot call custom functions. -/
def IsProgram (text : Str) : Prop := Str.contains text c!";" = true ∨ Str.contains text c!":=" = true

end Spec

theorem withCustom_clock (X : Ext) (reg : Registry) (text : Str) (env : Env) (h : NoClock text) (now today : Int) (secs : Nat) :
    Lib.evaluateWithCustom (X.atInstant now today secs) reg text env = Lib.evaluateWithCustom X reg text env := by
  unfold Lib.evaluateWithCustom evalCustom
  cases hp : Lib.parse text with
  | error f => exact (rfl : (Except.error f : Res Value) = Except.error f)
  | ok e => exact C66_clock_independent X e (h e hp) (some reg) env now today secs

theorem withAssignmentsCtx_clock (X : Ext) (text : Str) (env : Env) (h : NoClock text) (now today : Int) (secs : Nat) :
    Lib.evaluateWithAssignmentsCtx (X.atInstant now today secs) text env = Lib.evaluateWithAssignmentsCtx X text env := by
  unfold Lib.evaluateWithAssignmentsCtx evalAssignCtx
  cases hp : Lib.parse text with
  | error f => exact (rfl : (Except.error f : Res (Value × Env)) = Except.error f)
  | ok e => exact assignments_clock X now today secs e (h e hp) env

theorem withAssignments_ctx (X : Ext) (text : Str) (env : Env) :
    Lib.evaluateWithAssignments X text env = (do return (← Lib.evaluateWithAssignmentsCtx X text env).1) := by
  unfold Lib.evaluateWithAssignments Lib.evaluateWithAssignmentsCtx evalAssignCtx evalAssign
  cases Lib.parse text <;> rfl

theorem fresh_clock (X : Ext) (reg : Registry) (r : Request) (h : NoClock r.expr) (now today : Int) (secs : Nat) :
    fresh (X.atInstant now today secs) reg r = fresh X reg r := by
  unfold fresh
  rw [withCustom_clock X reg _ _ h, withAssignments_ctx, withAssignments_ctx, withAssignmentsCtx_clock X _ _ h]

theorem fresh_program (X : Ext) (reg reg' : Registry) (r : Request) (h : IsProgram r.expr) : fresh X reg r = fresh X reg' r := by
  unfold fresh
  have : (Str.contains r.expr c!";" || Str.contains r.expr c!":=") = true := by simpa [IsProgram] using h
  rw [this]
  rfl

theorem HttpCache.Server.after_reg (s0 : Server) (h : List Event) (hr : ∀ reg, Event.registry reg ∈ h → reg = s0.reg) : (s0.after h).reg = s0.reg := by
  induction h using List.reverseRecOn with
  | nil => rfl
  | append_singleton h ev ih =>
    have ih := ih fun reg hreg => hr reg (by simp [hreg])
    rw [Server.after_snoc]
    cases ev with
    | request r => rw [← ih]; exact ((s0.after h).ask_X r).2
    | store i => rw [← ih]; simp only [Server.step]; split <;> rfl
    | clock n t c => exact ih
    | registry reg => exact hr reg (by simp)
    | clear => exact ih

/-- **C50 (partial).** After any history, of requests in any interleaving, with time passing, registrations and clearing of the cache, a request gets what a fresh evaluation gives it, if
earlier requests with the same key asked for the same thing; it calls no function that reads the clock; and the registry has not changed, or the request is an assignment program. -/
theorem C50_transparent_partial (s0 : Server) (h0 : s0.cache.items = []) (h1 : s0.pending = []) (h : List Event) (r : Request)
    (hsame : ∀ r', Event.request r' ∈ h → r'.key s0.X = r.key s0.X → r'.expr = r.expr ∧ envOf r'.vars = envOf r.vars ∧ r'.includeVars = r.includeVars)
    (hclock : NoClock r.expr) (hreg : (∀ reg, Event.registry reg ∈ h → reg = s0.reg) ∨ IsProgram r.expr) :
    ((s0.after h).ask r).1 = fresh (s0.after h).X (s0.after h).reg r := by
  rcases C50_provenance s0 h0 h1 h r with hc | ⟨a, ha, g1, r', g2, rfl, hk, hf⟩
  · exact hc
  · rw [ha, ← hf]
    obtain ⟨e1, e2, e3⟩ := hsame r' (by simp) hk
    have er : ∀ X reg, fresh X reg r' = fresh X reg r := by
      intro X reg
      unfold fresh
      rw [e1, e2, e3]
    rw [er]
    obtain ⟨n, t, c, e⟩ := s0.after_X g1
    obtain ⟨n', t', c', e'⟩ := s0.after_X (g1 ++ .request r' :: g2)
    rw [e, e', fresh_clock _ _ _ hclock, fresh_clock _ _ _ hclock]
    rcases hreg with hreg | hreg
    · rw [s0.after_reg _ hreg, s0.after_reg g1 fun reg hr => hreg reg (by simp [hr])]
    · exact fresh_program _ _ _ _ hreg

/-- **C50 (partial), by the form of the requests.** It is enough that no expression contains `|`, no variable name contains `:`, and requests for the same expression agree
on whether variables are to be reported. -/
theorem C50_transparent_by_form_partial (s0 : Server) (h0 : s0.cache.items = []) (h1 : s0.pending = []) (h : List Event) (r : Request)
    (hX : NumbersApart s0.X)
    (hform : ∀ r', Event.request r' ∈ .request r :: h → '|' ∉ r'.expr ∧ (∀ p ∈ r'.vars, ':' ∉ p.1) ∧ (r'.vars.map (·.1)).Nodup)
    (hincl : ∀ r', Event.request r' ∈ h → r'.expr = r.expr → r'.includeVars = r.includeVars)
    (hclock : NoClock r.expr) (hreg : (∀ reg, Event.registry reg ∈ h → reg = s0.reg) ∨ IsProgram r.expr) :
    ((s0.after h).ask r).1 = fresh (s0.after h).X (s0.after h).reg r := by
  refine C50_transparent_partial s0 h0 h1 h r (fun r' hr' hk => ?_) hclock hreg
  obtain ⟨a1, a2, a3⟩ := hform r' (by simp [hr'])
  obtain ⟨b1, b2, b3⟩ := hform r (by simp)
  obtain ⟨c1, c2⟩ := C53_injective_partial s0.X hX r'.expr r.expr r'.vars r.vars a1 b1 a2 b2 a3 hk
  exact ⟨c1, c2, hincl r' hr' c1⟩

/-! Each condition is needed. -/

/-- **C50 fails.** Asked without and then with variables, `:x := 1; :x` does not report them. -/
theorem C50_variables_lost (X : Ext) (reg : Registry) :
    let r : Request := ⟨c!":x := 1; :x", [], false⟩
    let s := (Server.start X reg 1000).after [.request r, .store 0]
    (s.ask { r with includeVars := true }).1 = .ok (.num (.fin 1), none) ∧
    ∃ ctx : Env, fresh s.X s.reg { r with includeVars := true } = .ok (.num (.fin 1), some ctx) ∧ ctx c!"x" = some (.num (.fin 1)) := by
  refine ⟨by kernel_rfl, Env.empty.insert c!"x" (.num (.fin 1)), by kernel_rfl, by kernel_rfl⟩

/-- **C50 fails.** `NOW()` asked again at another instant gives the first instant. -/
theorem C50_clock_stale (X : Ext) (now today : Int) (secs : Nat) :
    let r : Request := ⟨c!"NOW()", [], false⟩
    let s := (Server.start X Registry.empty 1000).after [.request r, .store 0, .clock now today secs]
    (s.ask r).1 = .ok (.dt X.now, none) ∧ fresh s.X s.reg r = .ok (.dt now, none) := by
  exact ⟨by kernel_rfl, by kernel_rfl⟩

/-- A registry with one function, of no arguments, that gives `v`. -/
def constRegistry (v : Value) : Registry := fun n => if n = c!"FOO" then some ⟨n, 0, none, fun _ => .ok v⟩ else none

/-- **C50 fails.** After a custom function is registered anew, its old result is still given. -/
theorem C50_registry_stale (X : Ext) :
    let r : Request := ⟨c!"FOO()", [], false⟩
    let s := (Server.start X (constRegistry (.bool true)) 1000).after [.request r, .store 0, .registry (constRegistry (.bool false))]
    (s.ask r).1 = .ok (.bool true, none) ∧ fresh s.X s.reg r = .ok (.bool false, none) := by
  exact ⟨by kernel_rfl, by kernel_rfl⟩

/-- **C50 fails.** The answer to another request with the same key is given: `false|`, which is not an expression, gets the answer of `false||TRUE:Null`. -/
theorem C50_collision (X : Ext) (reg : Registry) :
    let r : Request := ⟨c!"false||TRUE:Null", [], false⟩
    let r' : Request := ⟨c!"false|", [(c!"TRUE", .null)], false⟩
    let s := (Server.start X reg 1000).after [.request r, .store 0]
    (s.ask r').1 = .ok (.bool true, none) ∧ ∃ f, fresh s.X s.reg r' = .error f := by
  intro r r' s
  have hk : r'.key s.X = c!"false||TRUE:Null" := (C53_collision X).1.symm
  have hg : (s.cache.get c!"false||TRUE:Null").1 = some ⟨.bool true, none, 1⟩ := by kernel_rfl
  refine ⟨?_, ?_⟩
  · simp only [Server.ask, hk]
    cases hc : s.cache.get c!"false||TRUE:Null" with
    | mk o c =>
      rw [hc] at hg
      simp only at hg
      rw [hg]
  · have hp : Lib.parse c!"false|" = .error (.err "Unexpected '|'" [] (some 5)) := by kernel_rfl
    exact ⟨.err "Unexpected '|'" [] (some 5), by simp [fresh, r', hp, Lib.evaluateWithCustom, bind, Except.bind, Str.contains, Str.startsWith]⟩

/-- The hypotheses of `C50_transparent_by_form_partial` are met by this history: two requests, a clock tick and an evaluation stored between them. -/
example (X : Ext) (reg : Registry) (hX : NumbersApart X) (now today : Int) (secs : Nat) :
    let r : Request := ⟨c!"1", [(c!"x", .null)], false⟩
    let h := [.request r, .store 0, .clock now today secs]
    (((Server.start X reg 1000).after h).ask r).1 = .ok (.num (.fin 1), none) := by
  intro r h
  rw [C50_transparent_by_form_partial (Server.start X reg 1000) rfl rfl h r hX]
  · kernel_rfl
  · intro r' hr'
    simp only [h, List.mem_cons, Event.request.injEq, List.not_mem_nil, or_false, reduceCtorEq, or_self] at hr'
    subst hr'
    decide
  · intro r' hr' _
    simp only [h, List.mem_cons, Event.request.injEq, List.not_mem_nil, or_false, reduceCtorEq, or_self] at hr'
    rw [hr']
  · intro e he
    have : Lib.parse c!"1" = .ok (.number (.fin 1)) := by kernel_rfl
    rw [show r.expr = c!"1" from rfl, this] at he
    simp only [Except.ok.injEq] at he
    rw [← he]
    simp [calls]
  · left
    intro reg' hr'
    simp [h] at hr'
