import Verif.Model.HttpReplies
import Verif.Props.HttpRoutes
import Verif.Props.HttpWrite
import Verif.Props.HttpList
import Verif.Props.HttpVars
import Verif.Props.HttpRead
import Verif.Props.Health
import Verif.Props.TokenSecrecy
/-! C126: every reply says what happened. -/

namespace HttpReply
open Http

/-! ### Specification -/
namespace Spec

/-- A member of a document. -/
def member : Json → Str → Option Json
  | .obj ms, n => (ms.find? fun p => p.1 = n).map (·.2)
  | _, _ => none

/-- A document that says it worked: `success` is true and there is no error. -/
def SaysYes (doc : Json) : Prop := member doc c!"success" = some (.bool true) ∧ (member doc c!"error" = none ∨ member doc c!"error" = some .null)

/-- A document that says it did not work: `success` is false and there is the text of an error. -/
def SaysNo (doc : Json) : Prop := member doc c!"success" = some (.bool false) ∧ ∃ text, member doc c!"error" = some (.str text)

/-- The document of a message agrees with its status. -/
def Truthful (m : Message) : Prop := ∀ doc, m.body = .json doc → (m.status = 200 → SaysYes doc) ∧ (m.status ≠ 200 → SaysNo doc)

/-- The entries of a map, each once. -/
def Lists (env : Env) (l : List (Str × Value)) : Prop := (l.map (·.1)).Nodup ∧ ∀ n v, (n, v) ∈ l ↔ env n = some v

/-- The server can go through its maps. -/
def WorldOk (W : World) : Prop := ∀ env, (∃ l, Lists env l) → Lists env (W.entries env)

/-- The variables of the results kept are finitely many. -/
def FiniteCache (s : Site) : Prop := ∀ p ∈ s.cache.items, ∀ ctx, p.2.context = some ctx → ∃ l, Lists ctx l

/-- A variable in the document of an evaluation. -/
def varOf (doc : Json) (n : Str) : Option Json := (member doc c!"variables").bind fun vs => member vs n

/-- The number of the request, in the document of an evaluation. -/
def idOf (m : Message) : Option Int :=
  match m.body with
  | .json doc => match member doc c!"request_id" with
    | some (.num (.int i)) => some i
    | _ => none
  | _ => none

/-- The document says how the evaluation went. -/
structure Says (X : Ext) (W : World) (e : EvalResponse) (doc : Json) : Prop where
  success : member doc c!"success" = some (.bool e.success)
  result : ∀ v, e.result = some v → member doc c!"result" = some (simpleOutput X v) ∨
    member doc c!"result" = some (.obj [(c!"execution_time", .str (W.msText ++ c!" ms")), (c!"result", structuredValue X v), (c!"type", .str (Tcp.typeName v))])
  noResult : e.result = none → member doc c!"result" = some .null
  error : ∀ f, e.error = some f → member doc c!"error" = some (.str (display f))
  noError : e.error = none → member doc c!"error" = some .null
  id : member doc c!"request_id" = some (.num (.int e.requestId))
  vars : ∀ n j, varOf doc n = some j ↔ e.variables n = some j

end Spec

open HttpReply.Spec

/-! ### The statuses and the server are those of `Http.handle` -/

/-- What is said is what happens. -/
def Fits (X : Ext) (W : World) (s : Site) (o : Out) (o' : Outcome) : Prop :=
  o.2 = o'.2 ∧ ((o.1 = none ∧ o'.1 = none) ∨ ∃ m r, o.1 = some m ∧ o'.1 = some r ∧ m.status = r.status ∧ Truthful m ∧
    idOf m = r.eval.map (fun e => (e.requestId : Int)) ∧ ∀ e, r.eval = some e → WorldOk W → FiniteCache s → ∃ doc, m.body = .json doc ∧ Says X W e doc)

theorem fits_none {X : Ext} {W : World} {s s' : Site} : Fits X W s (none, s') (none, s') := ⟨rfl, .inl ⟨rfl, rfl⟩⟩

theorem fits_send {X : Ext} {W : World} {s s' : Site} {n : Nat} {doc : Json} (h : Truthful ⟨n, .json doc⟩) (hi : idOf ⟨n, .json doc⟩ = none) :
    Fits X W s (send s' n doc) (reply s' n) :=
  ⟨rfl, .inr ⟨_, _, rfl, rfl, rfl, h, hi, fun _ he => by cases he⟩⟩

theorem truthful_yes {doc : Json} (h : SaysYes doc) : Truthful ⟨200, .json doc⟩ := by
  intro doc hd
  cases hd
  exact ⟨fun _ => h, fun h' => absurd rfl h'⟩

theorem truthful_no {n : Nat} {doc : Json} (hn : n ≠ 200) (h : SaysNo doc) : Truthful ⟨n, .json doc⟩ := by
  intro doc hd
  cases hd
  exact ⟨fun h' => absurd h' hn, fun _ => h⟩

theorem error_no (t : Str) : SaysNo (errorDoc t) := ⟨rfl, t, rfl⟩

theorem fits_error {X : Ext} {W : World} {s s' : Site} {n : Nat} {t : Str} (hn : n ≠ 200) : Fits X W s (sendError s' n t) (reply s' n) :=
  fits_send (truthful_no hn (error_no t)) rfl

theorem fits_guarded {α : Type} {X : Ext} {W : World} {s : Site} {r : Res α} {e : Str → Out} {e' : Outcome} {k : α → Out} {k' : α → Outcome}
    (he : ∀ t, Fits X W s (e t) e') (hk : ∀ a, Fits X W s (k a) (k' a)) : Fits X W s (guarded s r e k) (Http.guarded s r e' k') := by
  unfold guarded Http.guarded
  cases r with
  | ok a => exact hk a
  | error f => cases f with
    | err m as p => exact he _
    | panic p => exact fits_none

theorem fits_ite {X : Ext} {W : World} {s : Site} {p : Prop} [Decidable p] {a b : Out} {a' b' : Outcome} (ha : p → Fits X W s a a') (hb : ¬ p → Fits X W s b b') :
    Fits X W s (if p then a else b) (if p then a' else b') := by
  by_cases h : p
  · rw [if_pos h, if_pos h]; exact ha h
  · rw [if_neg h, if_neg h]; exact hb h

theorem fits_token {X : Ext} {W : World} {s : Site} {request : Str} {token : Option Str} {t : Str} {k : Out} {k' : Outcome} (hk : Fits X W s k k') :
    Fits X W s (withToken X request token t s k) (Http.withToken X request token s k') :=
  fits_guarded (fun _ => fits_error (by decide)) fun ok => by
    cases ok
    · exact fits_error (by decide)
    · exact hk

/-! ### Evaluation -/

theorem find_filterMap_fst (f : Str → Option Json) (n : Str) (j : Json) : ∀ l : List (Str × Value),
    ((l.filterMap fun p => (f p.1).map fun j => (p.1, j)).find? fun p => p.1 = n).map (·.2) = some j ↔ (∃ v, (n, v) ∈ l) ∧ f n = some j
  | [] => by simp
  | (m, v) :: l => by
    have ih := find_filterMap_fst f n j l
    cases hm : f m with
    | none =>
      simp only [List.filterMap_cons, hm, Option.map_none]
      rw [ih]
      constructor
      · rintro ⟨⟨w, hw⟩, hj⟩; exact ⟨⟨w, .tail _ hw⟩, hj⟩
      · rintro ⟨⟨w, hw⟩, hj⟩
        refine ⟨?_, hj⟩
        cases hw with
        | head => rw [hm] at hj; cases hj
        | tail _ h => exact ⟨w, h⟩
    | some i =>
      simp only [List.filterMap_cons, hm, Option.map_some]
      by_cases h : m = n
      · subst h
        simp only [List.find?_cons, decide_true, Option.map_some, hm, Option.some.injEq]
        exact ⟨fun e => ⟨⟨v, .head _⟩, e⟩, fun e => e.2⟩
      · simp only [List.find?_cons, h, decide_false]
        rw [ih]
        constructor
        · rintro ⟨⟨w, hw⟩, hj⟩; exact ⟨⟨w, .tail _ hw⟩, hj⟩
        · rintro ⟨⟨w, hw⟩, hj⟩
          refine ⟨?_, hj⟩
          cases hw with
          | head => exact absurd rfl h
          | tail _ h => exact ⟨w, h⟩

theorem evalDoc_variable (b : Bool) (r : Json) (vs : List (Str × Json)) (e : Option Str) (ms : F64) (id : Nat) (n : Str) :
    varOf (evalDoc b r vs e ms id) n = (vs.find? fun p => p.1 = n).map (·.2) := by
  cases vs with
  | nil => rfl
  | cons p ps => rfl

theorem evalDoc_success (b : Bool) (r : Json) (vs : List (Str × Json)) (e : Option Str) (ms : F64) (id : Nat) : member (evalDoc b r vs e ms id) c!"success" = some (.bool b) := by
  cases vs <;> rfl

theorem evalDoc_result (b : Bool) (r : Json) (vs : List (Str × Json)) (e : Option Str) (ms : F64) (id : Nat) : member (evalDoc b r vs e ms id) c!"result" = some r := by
  cases vs <;> rfl

theorem evalDoc_error (b : Bool) (r : Json) (vs : List (Str × Json)) (e : Option Str) (ms : F64) (id : Nat) : member (evalDoc b r vs e ms id) c!"error" = some (optStr e) := by
  cases vs <;> rfl

theorem evalDoc_id (b : Bool) (r : Json) (vs : List (Str × Json)) (e : Option Str) (ms : F64) (id : Nat) :
    member (evalDoc b r vs e ms id) c!"request_id" = some (.num (.int id)) := by
  cases vs <;> rfl

theorem evalDoc_idOf (n : Nat) (b : Bool) (r : Json) (vs : List (Str × Json)) (e : Option Str) (ms : F64) (id : Nat) : idOf ⟨n, .json (evalDoc b r vs e ms id)⟩ = some (id : Int) := by
  cases vs <;> rfl

theorem insert_lists {env : Env} {l : List (Str × Value)} (h : Lists env l) (n : Str) (v : Value) : ∃ l, Lists (env.insert n v) l := by
  refine ⟨(n, v) :: l.filter fun p => p.1 ≠ n, ?_, ?_⟩
  · simp only [List.map_cons, List.nodup_cons]
    refine ⟨by simp, ?_⟩
    have : ((l.filter fun p => p.1 ≠ n).map (·.1)).Sublist (l.map (·.1)) := List.Sublist.map _ List.filter_sublist
    exact this.nodup h.1
  · intro m w
    simp only [List.mem_cons, Prod.mk.injEq, List.mem_filter, Env.insert]
    by_cases hm : m = n
    · subst hm
      simp
      exact ⟨fun e => e.symm, fun e => e.symm⟩
    · simp [hm, h.2]

theorem envOf_lists : ∀ vs : HttpCache.Vars, ∃ l, Lists (HttpCache.envOf vs) l
  | [] => ⟨[], by simp, fun n v => by simp [HttpCache.envOf]⟩
  | (n, v) :: vs => by
    obtain ⟨l, h⟩ := envOf_lists vs
    have e : HttpCache.envOf ((n, v) :: vs) = (HttpCache.envOf vs).insert n v := by
      funext m
      simp only [HttpCache.envOf, Env.insert, List.find?_cons]
      by_cases hm : n = m
      · simp [hm]
      · simp [hm, Ne.symm hm]
    rw [e]
    exact insert_lists h n v

theorem lists_of_outside {env env' : Env} (ns : List Str) (h : ∀ n, n ∉ ns → env' n = env n) (hl : ∃ l, Lists env l) : ∃ l, Lists env' l := by
  classical
  induction ns generalizing env with
  | nil =>
    have : env' = env := funext fun n => h n (by simp)
    rw [this]; exact hl
  | cons x ns ih =>
    cases hx : env' x with
    | some w =>
      obtain ⟨l, hl⟩ := hl
      refine ih (env := env.insert x w) ?_ (insert_lists hl x w)
      intro n hn
      by_cases e : n = x
      · subst e; simp [Env.insert, hx]
      · simp [Env.insert, e, h n (by simp [e, hn])]
    | none =>
      obtain ⟨l, hl⟩ := hl
      refine ih (env := fun n => if n = x then none else env n) ?_ ⟨l.filter fun p => p.1 ≠ x, ?_, ?_⟩
      · intro n hn
        by_cases e : n = x
        · subst e; simp [hx]
        · simp [e, h n (by simp [e, hn])]
      · exact (List.Sublist.map _ List.filter_sublist : ((l.filter fun p => p.1 ≠ x).map (·.1)).Sublist (l.map (·.1))).nodup hl.1
      · intro n v
        simp only [List.mem_filter]
        by_cases e : n = x
        · subst e; simp
        · simp [e, hl.2]

theorem fresh_lists {X : Ext} {reg : Registry} {r : HttpCache.Request} {v : Value} {ctx : Env} (h : HttpCache.fresh X reg r = .ok (v, some ctx)) : ∃ l, Lists ctx l := by
  unfold HttpCache.fresh at h
  split at h
  · split at h
    · unfold Lib.evaluateWithAssignmentsCtx at h
      cases hp : Lib.parse r.expr with
      | error f => rw [hp] at h; simp [bind, Except.bind] at h
      | ok e =>
        rw [hp] at h
        simp only [bind, Except.bind] at h
        cases ha : evalAssignCtx X e (HttpCache.envOf r.vars) with
        | error f => rw [ha] at h; simp at h
        | ok p =>
          obtain ⟨w, env'⟩ := p
          rw [ha] at h
          simp only [pure, Except.pure, Except.ok.injEq, Prod.mk.injEq, Option.some.injEq] at h
          obtain ⟨_, rfl⟩ := h
          exact lists_of_outside _ (assigned_only X e _ _ _ ha).1 (envOf_lists r.vars)
    · cases hp : Lib.evaluateWithAssignments X r.expr (HttpCache.envOf r.vars) with
      | error f => rw [hp] at h; simp [bind, Except.bind] at h
      | ok e => rw [hp] at h; simp [bind, Except.bind, pure, Except.pure] at h
  · cases hp : Lib.evaluateWithCustom X reg r.expr (HttpCache.envOf r.vars) with
    | error f => rw [hp] at h; simp [bind, Except.bind] at h
    | ok e => rw [hp] at h; simp [bind, Except.bind, pure, Except.pure] at h

theorem find_mem {k : Str} {e : HttpCache.Entry} : ∀ {l : List (Str × HttpCache.Entry)}, HttpCache.find k l = some e → (k, e) ∈ l
  | [], h => by cases h
  | (k', e') :: l, h => by
    unfold HttpCache.find at h
    by_cases hk : k' = k
    · rw [if_pos hk] at h; cases h; subst hk; exact .head _
    · rw [if_neg hk] at h; exact .tail _ (find_mem h)

theorem get_context {c : HttpCache.Cache} {k : Str} {e : HttpCache.Entry} {c' : HttpCache.Cache} (h : c.get k = (some e, c')) :
    ∃ e', (k, e') ∈ c.items ∧ e'.context = e.context := by
  unfold HttpCache.Cache.get at h
  cases hf : HttpCache.find k c.items with
  | none => rw [hf] at h; simp at h
  | some e' =>
    rw [hf] at h
    simp only [Prod.mk.injEq, Option.some.injEq] at h
    refine ⟨e', find_mem hf, ?_⟩
    rw [← h.1]

theorem evaluateCached_lists {X : Ext} {s s' : Site} {r : HttpCache.Request} {v : Value} {ctx : Env} (hc : FiniteCache s)
    (h : evaluateCached X s r = (.ok (v, some ctx), s')) : ∃ l, Lists ctx l := by
  unfold evaluateCached at h
  simp only at h
  cases hg : s.cache.get (r.key X) with
  | mk o c =>
    rw [hg] at h
    cases o with
    | some e =>
      simp only [Prod.mk.injEq, Except.ok.injEq] at h
      obtain ⟨e', hm, he⟩ := get_context hg
      exact hc _ hm ctx (by rw [he, h.1.2])
    | none =>
      simp only at h
      cases hf : HttpCache.fresh X s.reg r with
      | error f => rw [hf] at h; simp at h
      | ok p =>
        obtain ⟨w, ctx'⟩ := p
        rw [hf] at h
        simp only [Prod.mk.injEq, Except.ok.injEq] at h
        obtain ⟨⟨rfl, rfl⟩, _⟩ := h
        exact fresh_lists hf

theorem fits_eval (X : Ext) (W : World) (s : Site) (q : EvalRequest) : Fits X W s (sendEval X W s q) (Http.sendEval X s q) := by
  unfold sendEval Http.sendEval evalRequest
  simp only
  cases hc : evaluateCached X { s with counter := s.counter + 1 } ⟨q.expression, varsOf X q.arguments, wantsVariables q.includeVariables⟩ with
  | mk r s' =>
    cases r with
    | error f =>
      cases f with
      | err m as p =>
        refine ⟨rfl, .inr ⟨_, _, rfl, rfl, rfl, truthful_no (by decide) ⟨evalDoc_success .., _, evalDoc_error ..⟩, evalDoc_idOf .., ?_⟩⟩
        intro e he _ _
        simp only [Option.some.injEq] at he
        subst he
        refine ⟨_, rfl, ⟨evalDoc_success .., fun v hv => (by cases hv), fun _ => evalDoc_result .., fun f hf => ?_, fun h => (by cases h), evalDoc_id .., fun n j => ?_⟩⟩
        · cases hf; exact evalDoc_error ..
        · rw [evalDoc_variable]; simp
      | panic p => exact fits_none
    | ok p =>
      obtain ⟨v, ctx⟩ := p
      refine ⟨rfl, .inr ⟨_, _, rfl, rfl, rfl, truthful_yes ⟨evalDoc_success .., .inr (evalDoc_error ..)⟩, evalDoc_idOf .., ?_⟩⟩
      intro e he hW hF
      simp only [Option.some.injEq] at he
      subst he
      refine ⟨_, rfl, ⟨evalDoc_success .., fun w hw => ?_, fun h => (by cases h), fun f hf => (by cases hf), fun _ => evalDoc_error .., evalDoc_id .., fun n j => ?_⟩⟩
      · cases hw
        rw [evalDoc_result]
        cases q.outputJson.getD false
        · exact .inl rfl
        · exact .inr rfl
      · rw [evalDoc_variable]
        cases ctx with
        | none => simp [sentVariables, reported]
        | some ctx =>
          have hl := hW ctx (evaluateCached_lists (s := { s with counter := s.counter + 1 }) hF hc)
          unfold sentVariables
          rw [find_filterMap_fst]
          constructor
          · exact fun h => h.2
          · intro h
            refine ⟨?_, h⟩
            simp only [reported] at h
            cases hn : ctx n with
            | none => rw [hn] at h; cases h
            | some w => exact ⟨w, (hl.2 n w).2 hn⟩

/-! ### Function files -/

theorem testExample_holds (X : Ext) (H : HttpExt) (f : JsFunction) (e : Str) :
    exampleHolds X H f e = (testExample X H f e).map fun r => match r with
      | .ok _ => true
      | .error _ => false := by
  unfold exampleHolds testExample
  cases Str.splitOnce c!" returns " e with
  | none => rfl
  | some p =>
    obtain ⟨call, expected⟩ := p
    simp only
    cases Str.stripPrefix (Str.strip call) (f.name ++ c!"(") with
    | none => rfl
    | some rest =>
      simp only
      by_cases hr : Str.endsWith rest c!")" = true
      · rw [if_pos hr, if_pos hr]
        generalize (if (Str.strip rest.dropLast).isEmpty then (.ok [] : Res (List Value)) else exampleArgs (Str.split rest.dropLast c!",")) = args
        cases args with
        | error g => cases g <;> rfl
        | ok vs =>
          simp only
          cases H.runJs f.code vs with
          | error g => cases g <;> rfl
          | ok v =>
            simp only
            by_cases h : comparable X v = Str.strip expected ∨ c!"\"" ++ comparable X v ++ c!"\"" = Str.strip expected
            · rw [if_pos h]
              simp only [Except.map, Except.ok.injEq, Bool.or_eq_true, beq_iff_eq]
              exact h
            · rw [if_neg h]
              simp only [Except.map, Except.ok.injEq]
              rw [Bool.eq_false_iff]
              simpa only [ne_eq, Bool.or_eq_true, beq_iff_eq] using h
      · rw [if_neg hr, if_neg hr]
        rfl

theorem jsMeta_plain : ∀ (ls : List Str) (m : JsMeta) (msg : String) (as : List Str) (p : Option Int), jsMeta ls m = .error (.err msg as p) → as = [] ∧ p = none ∧ ∀ bs, fill msg.toList bs = msg.toList
  | [], m, msg, as, p, h => by cases h
  | l :: ls, m, msg, as, p, h => by
    have ih := jsMeta_plain ls
    unfold jsMeta at h
    simp only at h
    repeat' split at h
    all_goals first
      | exact ih _ _ _ _ h
      | (cases h; exact ⟨rfl, rfl, fun bs => by cases bs <;> rfl⟩)

theorem parse_plain {code : Str} {msg : String} {as : List Str} {p : Option Int} (h : parseJs code = .error (.err msg as p)) : display (.err msg as p) = msg.toList := by
  unfold parseJs at h
  cases hm : jsMeta (Str.lines code) {} with
  | error f =>
    rw [hm] at h
    cases h
    obtain ⟨rfl, rfl, h⟩ := jsMeta_plain _ _ _ _ _ hm
    exact h []
  | ok m =>
    rw [hm] at h
    simp only [bind, Except.bind] at h
    split at h
    · cases h
    · cases h; rfl

/-- The validation is the one of `Http.validateJs`. -/
theorem validate_same (X : Ext) (H : HttpExt) (code : Str) : validateJs X H code = (validate X H code).map fun p => (p.1, p.2.passed) := by
  unfold validateJs validate
  cases hp : parseJs code with
  | error f =>
    cases f with
    | err m as p => simp only [parse_plain hp]; rfl
    | panic p => rfl
  | ok f =>
    simp only
    cases f.example_ with
    | none => rfl
    | some e =>
      simp only
      rw [testExample_holds]
      cases testExample X H f e with
      | error g => rfl
      | ok r => cases r <;> rfl

theorem fits_store (X : Ext) (H : HttpExt) (W : World) (w : Wording) (cfg : Config) (s : Site) (filename : Str) (code : Option Str) :
    Fits X W s (storeJs X H W w cfg s filename code) (Http.storeJs X H cfg s filename code) := by
  unfold storeJs Http.storeJs
  cases code with
  | none => exact fits_send (truthful_no (by decide) ⟨rfl, _, rfl⟩) rfl
  | some code =>
    simp only
    rw [validate_same]
    cases validate X H code with
    | error f =>
      cases f with
      | err m as p => exact fits_send (truthful_no (by decide) ⟨rfl, _, rfl⟩) rfl
      | panic p => exact fits_none
    | ok p =>
      obtain ⟨f, r⟩ := p
      simp only [guarded, Http.guarded, Except.map]
      cases saveJs H cfg s.fs filename code with
      | mk fs b => cases b
                   · exact fits_send (truthful_no (by decide) ⟨rfl, _, rfl⟩) rfl
                   · exact fits_send (truthful_yes ⟨rfl, .inr rfl⟩) rfl

theorem fits_badName {X : Ext} {W : World} {s s' : Site} : Fits X W s (badName s') (reply s' 400) := fits_send (truthful_no (by decide) ⟨rfl, _, rfl⟩) rfl

theorem fits_upload (X : Ext) (H : HttpExt) (W : World) (cfg : Config) (request : Str) (s : Site) : Fits X W s (uploadJs X H W cfg request s) (Http.uploadJs X H cfg request s) :=
  fits_token <| fits_guarded (fun _ => fits_error (by decide)) fun _ => fits_ite (fun _ => fits_store ..) fun _ => fits_badName

theorem fits_update (X : Ext) (H : HttpExt) (W : World) (cfg : Config) (request : Str) (s : Site) : Fits X W s (updateJs X H W cfg request s) (Http.updateJs X H cfg request s) :=
  fits_token <| fits_guarded (fun _ => fits_error (by decide)) fun _ => fits_ite (fun _ => fits_badName) fun _ =>
    fits_ite (fun _ => fits_send (truthful_no (by decide) ⟨rfl, _, rfl⟩) rfl) fun _ => fits_store ..

theorem fits_delete (X : Ext) (H : HttpExt) (W : World) (cfg : Config) (request : Str) (s : Site) :
    Fits X W s (deleteJsRequest X H W cfg request s) (Http.deleteJsRequest X H cfg request s) :=
  fits_token <| fits_guarded (fun _ => fits_error (by decide)) fun filename =>
    fits_ite (fun _ => fits_send (truthful_no (by decide) ⟨rfl, _, rfl⟩) rfl) fun _ => by
      cases deleteJs H cfg s.fs filename with
      | mk fs b => cases b
                   · exact fits_send (truthful_no (by decide) ⟨rfl, _, rfl⟩) rfl
                   · exact fits_send (truthful_yes ⟨rfl, .inr rfl⟩) rfl

theorem exists_resolve {fs : Fs} {cwd : Path} {t : Str} (h : fs.exists cwd t = true) : ∃ p, fs.resolve cwd t = some p := by
  unfold Fs.exists at h
  cases hr : fs.resolve cwd t with
  | none => rw [hr] at h; cases h
  | some p => exact ⟨p, rfl⟩

theorem fits_list (X : Ext) (H : HttpExt) (W : World) (cfg : Config) (request : Str) (s : Site) : Fits X W s (listJs X H W cfg request s) (Http.listJs X cfg request s) := by
  refine fits_token ?_
  unfold entries hooksReadable
  by_cases he : s.fs.exists cfg.cwd cfg.hooksDir = true
  · obtain ⟨dir, hd⟩ := exists_resolve he
    simp only [he, if_true, hd, Bool.true_and]
    by_cases hdir : s.fs.isDir dir = true
    · simp only [hdir, if_true, Bool.not_true, Bool.false_eq_true, if_false]
      exact fits_send (truthful_yes ⟨rfl, .inr rfl⟩) rfl
    · simp only [hdir, Bool.not_false, if_true]
      exact fits_send (truthful_no (by decide) ⟨rfl, _, rfl⟩) rfl
  · simp only [he, Bool.false_and, Bool.false_eq_true, if_false]
    exact fits_send (truthful_yes ⟨rfl, .inr rfl⟩) rfl

theorem registerEach_all (X : Ext) (H : HttpExt) : ∀ (fs : List JsFunction) (reg : Registry),
    registerAll X H reg fs = ((registerEach X H reg fs).1, (registerEach X H reg fs).2.isNone)
  | [], reg => rfl
  | f :: fs, reg => by
    unfold registerAll registerEach
    cases reg.register X (f.custom H) with
    | ok reg => exact registerEach_all X H fs reg
    | error e => rfl

theorem fits_reload (X : Ext) (H : HttpExt) (W : World) (cfg : Config) (request : Str) (s : Site) : Fits X W s (reloadHooks X H W cfg request s) (Http.reloadHooks X H cfg request s) := by
  refine fits_token (fits_ite (fun _ => fits_ite (fun _ => ?_) fun _ => fits_send (truthful_no (by decide) ⟨rfl, _, rfl⟩) rfl) fun _ => ?_)
  · rw [registerEach_all]
    cases registerEach X H s.reg (loadJs H cfg s.fs) with
    | mk reg o => cases o with
      | none => exact fits_send (truthful_yes ⟨rfl, .inr rfl⟩) rfl
      | some e => exact fits_send (truthful_no (by decide) ⟨rfl, _, rfl⟩) rfl
  · cases s.fs.createDirs cfg.cwd cfg.hooksDir with
    | mk fs b => cases b
                 · exact fits_send (truthful_no (by decide) ⟨rfl, _, rfl⟩) rfl
                 · exact fits_send (truthful_yes ⟨rfl, .inr rfl⟩) rfl

theorem fits_clear (X : Ext) (W : World) (cfg : Config) (request : Str) (s : Site) : Fits X W s (clearCache X cfg request s) (Http.clearCache X cfg request s) :=
  fits_token (fits_send (truthful_yes ⟨rfl, .inl rfl⟩) rfl)

theorem fits_post (X : Ext) (H : HttpExt) (W : World) (cfg : Config) (request : Str) (s : Site) : Fits X W s (evalPost X H W cfg request s) (Http.evalPost X H cfg request s) :=
  fits_token <| fits_guarded (fun _ => fits_error (by decide)) fun _ => fits_eval ..

theorem fits_get (X : Ext) (W : World) (cfg : Config) (request : Str) (s : Site) : Fits X W s (evalGet X W cfg request s) (Http.evalGet X cfg request s) := by
  refine fits_token ?_
  rcases Str.splitWs ((Str.lines request).headD []) with _ | ⟨a, _ | ⟨path, rest⟩⟩
  · exact fits_error (by decide)
  · exact fits_error (by decide)
  · exact fits_ite (fun _ => fits_error (by decide)) fun _ => fits_eval ..

/-! ### Any request -/

theorem fits_page {X : Ext} {W : World} {s s' : Site} {t text : Str} : Fits X W s (sendPage s' t text) (reply s' 200) :=
  ⟨rfl, .inr ⟨_, _, rfl, rfl, rfl, fun _ h => (by cases h), rfl, fun _ he => (by cases he)⟩⟩

theorem fits_preflight {X : Ext} {W : World} {s s' : Site} : Fits X W s (some ⟨200, .preflight⟩, s') (reply s' 200) :=
  ⟨rfl, .inr ⟨_, _, rfl, rfl, rfl, fun _ h => (by cases h), rfl, fun _ he => (by cases he)⟩⟩

theorem fits_route (X : Ext) (H : HttpExt) (W : World) (cfg : Config) (report : Health.Report) (method path request : Str) (s : Site)
    (h : ¬ (method = c!"GET" ∧ path = c!"/health")) : Fits X W s (route X H W cfg report method path request s) (Http.route X H cfg method path request s) := by
  unfold route Http.route
  rw [if_neg h, if_neg h]
  refine fits_ite (fun _ => fits_page) fun _ => fits_ite (fun _ => fits_page) fun _ => fits_ite (fun _ => fits_page) fun _ => fits_ite (fun _ => fits_post ..) fun _ =>
    fits_ite (fun _ => fits_get ..) fun _ => fits_ite (fun _ => fits_upload ..) fun _ => fits_ite (fun _ => fits_update ..) fun _ => fits_ite (fun _ => fits_delete ..) fun _ =>
    fits_ite (fun _ => fits_list ..) fun _ => fits_ite (fun _ => fits_reload ..) fun _ => fits_ite (fun _ => fits_clear ..) fun _ => fits_ite (fun _ => fits_preflight) fun _ =>
    fits_error (by decide)

theorem health_route (X : Ext) (H : HttpExt) (W : World) (cfg : Config) (report : Health.Report) (request : Str) (s : Site) (h : Health.asksHealth request = true) :
    handle X H W cfg report request s = send s 200 (healthDoc W report) ∧ Http.handle X H cfg request s = reply s 200 := by
  unfold Health.asksHealth at h
  unfold handle Http.handle
  cases hl : Str.lines request with
  | nil => rw [hl] at h; cases h
  | cons first rest =>
    rw [hl] at h
    simp only at h ⊢
    generalize Str.splitWs first = words at h ⊢
    rcases words with _ | ⟨a, _ | ⟨b, _ | ⟨c, d⟩⟩⟩
    · cases h
    · cases h
    · cases h
    · simp only [decide_eq_true_eq] at h
      simp only [route, Http.route, if_pos h, and_self]

theorem fits_handle (X : Ext) (H : HttpExt) (W : World) (cfg : Config) (report : Health.Report) (request : Str) (s : Site) (h : Health.asksHealth request = false) :
    Fits X W s (handle X H W cfg report request s) (Http.handle X H cfg request s) := by
  unfold Health.asksHealth at h
  unfold handle Http.handle
  cases hl : Str.lines request with
  | nil => exact fits_none
  | cons first rest =>
    rw [hl] at h
    simp only at h ⊢
    generalize Str.splitWs first = words at h ⊢
    rcases words with _ | ⟨a, _ | ⟨b, _ | ⟨c, d⟩⟩⟩
    · exact fits_error (by decide)
    · exact fits_error (by decide)
    · exact fits_error (by decide)
    · simp only [decide_eq_false_iff_not] at h
      exact fits_route X H W cfg report _ _ _ _ h

/-- **C126.** The status that is sent and what happens to the server are those of `Http.handle`, of which the other properties of the HTTP server speak. -/
theorem C126_same (X : Ext) (H : HttpExt) (W : World) (cfg : Config) (report : Health.Report) (request : Str) (s : Site) :
    (handle X H W cfg report request s).1.map (·.status) = (Http.handle X H cfg request s).1.map (·.status) ∧
    (handle X H W cfg report request s).2 = (Http.handle X H cfg request s).2 := by
  cases h : Health.asksHealth request with
  | true =>
    obtain ⟨h1, h2⟩ := health_route X H W cfg report request s h
    rw [h1, h2]
    exact ⟨rfl, rfl⟩
  | false =>
    obtain ⟨h1, ⟨h2, h3⟩ | ⟨m, r, h2, h3, h4, _⟩⟩ := fits_handle X H W cfg report request s h
    · rw [h2, h3]; exact ⟨rfl, h1⟩
    · rw [h2, h3]; exact ⟨congrArg some h4, h1⟩

/-- **C126.** Whatever the request and the state of the server: a document that is sent, other than the health report, says `success: true` without an error if the status is 200, and
`success: false` with the text of an error otherwise. -/
theorem C126_truthful (X : Ext) (H : HttpExt) (W : World) (cfg : Config) (report : Health.Report) (request : Str) (s : Site) (m : Message)
    (h : (handle X H W cfg report request s).1 = some m) (hh : Health.asksHealth request = false) : Truthful m := by
  obtain ⟨_, ⟨h2, _⟩ | ⟨m', r, h2, _, _, ht, _⟩⟩ := fits_handle X H W cfg report request s hh
  · rw [h2] at h; cases h
  · rw [h2] at h; cases h; exact ht

/-! ### Histories -/

namespace Spec

/-- A request of a history, with the world outside at that time and how long its evaluation takes. -/
structure Turn where
  X : Ext
  W : World
  request : Str
  micros : Nat

/-- The messages sent to a history of requests, and the server afterwards. -/
def serve (H : HttpExt) (cfg : Config) : Health.Live → List Turn → List (Option Message) × Health.Live
  | l, [] => ([], l)
  | l, t :: ts =>
    let m := (handle t.X H t.W cfg l.report t.request l.site).1
    let (ms, l) := serve H cfg (l.visit t.X H cfg t.request t.micros).2 ts
    (m :: ms, l)

end Spec

theorem finite_get {c c' : HttpCache.Cache} {k : Str} {o : Option HttpCache.Entry} (h : c.get k = (o, c'))
    (hf : ∀ p ∈ c.items, ∀ ctx, p.2.context = some ctx → ∃ l, Lists ctx l) : ∀ p ∈ c'.items, ∀ ctx, p.2.context = some ctx → ∃ l, Lists ctx l := by
  unfold HttpCache.Cache.get at h
  cases hk : HttpCache.find k c.items with
  | none =>
    rw [hk] at h
    cases h
    exact hf
  | some e =>
    rw [hk] at h
    cases h
    intro p hp
    rcases List.mem_cons.1 hp with rfl | hp
    · exact hf (k, e) (find_mem hk)
    · exact hf p (List.mem_filter.1 hp).1

theorem finite_put {c : HttpCache.Cache} {k : Str} {e : HttpCache.Entry} (he : ∀ ctx, e.context = some ctx → ∃ l, Lists ctx l)
    (hf : ∀ p ∈ c.items, ∀ ctx, p.2.context = some ctx → ∃ l, Lists ctx l) : ∀ p ∈ (c.put k e).items, ∀ ctx, p.2.context = some ctx → ∃ l, Lists ctx l := by
  intro p hp
  unfold HttpCache.Cache.put HttpCache.lruPut at hp
  simp only at hp
  cases hk : HttpCache.find k c.items with
  | none =>
    rw [hk] at hp
    simp only at hp
    rcases List.mem_cons.1 hp with rfl | hp
    · exact he
    · split at hp
      · exact hf p (List.dropLast_subset _ hp)
      · exact hf p hp
  | some e' =>
    rw [hk] at hp
    simp only at hp
    rcases List.mem_cons.1 hp with rfl | hp
    · exact he
    · exact hf p (List.mem_filter.1 hp).1

theorem finite_eval {X : Ext} {s : Site} (h : FiniteCache s) (q : EvalRequest) : FiniteCache (Http.sendEval X s q).2 := by
  have key : ∀ r, FiniteCache (evaluateCached X { s with counter := s.counter + 1 } r).2 := by
    intro r
    unfold evaluateCached
    simp only
    cases hg : s.cache.get (r.key X) with
    | mk o c =>
      cases o with
      | some e => exact finite_get hg h
      | none =>
        simp only
        cases hf : HttpCache.fresh X s.reg r with
        | error f => exact finite_get hg h
        | ok p =>
          obtain ⟨v, ctx⟩ := p
          refine finite_put ?_ (finite_get hg h)
          rintro ctx' rfl
          exact fresh_lists hf
  unfold Http.sendEval evalRequest
  simp only
  have := key ⟨q.expression, varsOf X q.arguments, wantsVariables q.includeVariables⟩
  cases hc : evaluateCached X { s with counter := s.counter + 1 } ⟨q.expression, varsOf X q.arguments, wantsVariables q.includeVariables⟩ with
  | mk r s' =>
    rw [hc] at this
    cases r with
    | ok p => exact this
    | error f => cases f <;> exact this

theorem handle_does (X : Ext) (H : HttpExt) (cfg : Config) (request : Str) (s : Site) : ∃ e, Health.Does X s e (Http.handle X H cfg request s) := by
  unfold Http.handle
  cases Str.lines request with
  | nil => exact ⟨([], []), .inl ⟨rfl, rfl⟩⟩
  | cons first rest =>
    simp only
    split
    · exact ⟨_, Health.route_does ..⟩
    · exact ⟨([], []), .reply _ rfl⟩

theorem finite_handle {X : Ext} {H : HttpExt} {cfg : Config} {request : Str} {s : Site} (h : FiniteCache s) : FiniteCache (Http.handle X H cfg request s).2 := by
  obtain ⟨e, ⟨h1, _⟩ | ⟨_, h1⟩ | ⟨q, h1⟩⟩ := handle_does X H cfg request s
  · unfold FiniteCache at h ⊢; rw [h1]; exact h
  · rw [h1]; intro p hp; cases hp
  · rw [h1]; exact finite_eval h q

theorem visit_site (X : Ext) (H : HttpExt) (cfg : Config) (l : Health.Live) (request : Str) (micros : Nat) :
    (l.visit X H cfg request micros).2.site = (Http.handle X H cfg request l.site).2 := rfl

theorem serve_finite (H : HttpExt) (cfg : Config) : ∀ (ts : List Turn) (l : Health.Live), FiniteCache l.site → FiniteCache (serve H cfg l ts).2.site
  | [], _, h => h
  | t :: ts, l, h => serve_finite H cfg ts _ (by rw [visit_site]; exact finite_handle h)

/-- **C126.** After any history of requests: when a request is answered by an evaluation, the document says how it went: whether it worked, the result (alone, or with its type and the time), the text of
the error, the number of the request, and exactly the variables that are to be reported, each with its value. -/
theorem C126_evaluation (H : HttpExt) (cfg : Config) (fs : Fs) (reg : Registry) (ts : List Turn) (t : Turn) (hW : WorldOk t.W) :
    let l := (serve H cfg (.start fs reg) ts).2
    ∀ r e, (Http.handle t.X H cfg t.request l.site).1 = some r → r.eval = some e →
      ∃ doc, (handle t.X H t.W cfg l.report t.request l.site).1 = some ⟨r.status, .json doc⟩ ∧ Says t.X t.W e doc := by
  intro l r e hr he
  have hf : FiniteCache l.site := serve_finite H cfg ts _ fun p hp => (by cases hp)
  cases h : Health.asksHealth t.request with
  | true =>
    rw [(health_route t.X H t.W cfg l.report t.request l.site h).2] at hr
    cases hr
    cases he
  | false =>
    obtain ⟨_, ⟨_, h3⟩ | ⟨m, r', h2, h3, h4, _, _, h5⟩⟩ := fits_handle t.X H t.W cfg l.report t.request l.site h
    · rw [h3] at hr; cases hr
    · rw [h3] at hr
      cases hr
      obtain ⟨doc, hd, hs⟩ := h5 e he hW hf
      refine ⟨doc, ?_, hs⟩
      rw [h2]
      obtain ⟨st, b⟩ := m
      simp only at h4 hd
      rw [h4, hd]

theorem sendEval_id (X : Ext) (s : Site) (q : EvalRequest) {r : Reply} {e : EvalResponse} (h : (Http.sendEval X s q).1 = some r) (he : r.eval = some e) : e.requestId = s.counter := by
  unfold Http.sendEval evalRequest at h
  simp only at h
  cases hc : evaluateCached X { s with counter := s.counter + 1 } ⟨q.expression, varsOf X q.arguments, wantsVariables q.includeVariables⟩ with
  | mk o s' =>
    rw [hc] at h
    cases o with
    | ok p => cases h; cases he; rfl
    | error f => cases f with
      | err m as p => cases h; cases he; rfl
      | panic p => cases h

theorem handle_counter (X : Ext) (H : HttpExt) (cfg : Config) (request : Str) (s : Site) :
    s.counter ≤ (Http.handle X H cfg request s).2.counter ∧
    ∀ r e, (Http.handle X H cfg request s).1 = some r → r.eval = some e → e.requestId = s.counter ∧ (Http.handle X H cfg request s).2.counter = s.counter + 1 := by
  have h1 : s.counter ≤ (Http.handle X H cfg request s).2.counter := by
    unfold Http.handle
    cases Str.lines request with
    | nil => exact le_refl _
    | cons first rest =>
      simp only
      split
      · rcases (route_leaves X H cfg _ _ request s).one with h | h <;> rw [h] <;> omega
      · exact le_refl _
  refine ⟨h1, fun r e hr he => ?_⟩
  obtain ⟨en, ⟨_, h2⟩ | ⟨_, h2⟩ | ⟨q, h2⟩⟩ := handle_does X H cfg request s
  · rw [hr] at h2
    simp [Health.recorded, he] at h2
  · rw [h2] at hr; cases hr; cases he
  · rw [h2] at hr ⊢
    exact ⟨sendEval_id X s q hr he, sendEval_counter X s q⟩

theorem id_handle (X : Ext) (H : HttpExt) (W : World) (cfg : Config) (report : Health.Report) (request : Str) (s : Site) (m : Message) (i : Int)
    (h : (handle X H W cfg report request s).1 = some m) (hi : idOf m = some i) : i = s.counter ∧ (Http.handle X H cfg request s).2.counter = s.counter + 1 := by
  cases hh : Health.asksHealth request with
  | true =>
    rw [(health_route X H W cfg report request s hh).1] at h
    cases h
    cases hi
  | false =>
    obtain ⟨_, ⟨h2, _⟩ | ⟨m', r, h2, h3, _, _, h4, _⟩⟩ := fits_handle X H W cfg report request s hh
    · rw [h2] at h; cases h
    · rw [h2] at h
      cases h
      rw [hi] at h4
      cases he : r.eval with
      | none => rw [he] at h4; cases h4
      | some e =>
        rw [he] at h4
        simp only [Option.map_some, Option.some.injEq] at h4
        obtain ⟨h5, h6⟩ := (handle_counter X H cfg request s).2 r e h3 he
        exact ⟨by rw [h4, h5], h6⟩

/-- **C126.** The numbers in the answers to evaluations grow with every answer: no two answers of a server have the same `request_id`, and a later one has a greater one. -/
theorem C126_ids (H : HttpExt) (cfg : Config) (l : Health.Live) (ts : List Turn) :
    ((serve H cfg l ts).1.filterMap fun m => m.bind idOf).Pairwise (· < ·) := by
  have key : ∀ (ts : List Turn) (l : Health.Live), ((serve H cfg l ts).1.filterMap fun m => m.bind idOf).Pairwise (· < ·) ∧
      ∀ i ∈ (serve H cfg l ts).1.filterMap fun m => m.bind idOf, (l.site.counter : Int) ≤ i := by
    intro ts
    induction ts with
    | nil => intro l; exact ⟨.nil, fun i hi => by cases hi⟩
    | cons t ts ih =>
      intro l
      obtain ⟨h1, h2⟩ := ih (l.visit t.X H cfg t.request t.micros).2
      rw [visit_site] at h2
      have hc := (handle_counter t.X H cfg t.request l.site).1
      simp only [serve, List.filterMap_cons]
      cases hm : (handle t.X H t.W cfg l.report t.request l.site).1 with
      | none => exact ⟨h1, fun i hi => by have := h2 i hi; omega⟩
      | some m =>
        simp only [Option.bind_some]
        cases hi : idOf m with
        | none => exact ⟨h1, fun i hi => by have := h2 i hi; omega⟩
        | some i =>
          obtain ⟨h3, h4⟩ := id_handle t.X H t.W cfg l.report t.request l.site m i hm hi
          refine ⟨List.pairwise_cons.2 ⟨fun j hj => ?_, h1⟩, fun j hj => ?_⟩
          · have := h2 j hj; omega
          · rcases List.mem_cons.1 hj with rfl | hj
            · omega
            · have := h2 j hj; omega
  exact (key ts l).1

end HttpReply
