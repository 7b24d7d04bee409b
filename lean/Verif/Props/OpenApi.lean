import Verif.Spec.OpenApi
import Verif.Props.HttpReplyDocs
import Verif.Props.FileStore
import Verif.Props.HttpWire
import Verif.Props.Monotone
import Verif.Props.RoundDecimals
/-! C145: the HTTP server and its published description, `openapi.yml`. -/

namespace OpenApi
open Http HttpReply OpenApi.Spec

namespace Spec

/-- The times and rates the server has measured are numbers, and its maps have every name once. -/
structure Measured (W : World) (report : Health.Report) : Prop where
  maps : ∀ env, ((W.entries env).map (·.1)).Nodup
  ms : W.ms.isFinite = true
  saved : W.saved.isFinite = true
  average : report.average.isFinite = true
  hitRate : report.hitRate.isFinite = true

end Spec

/-! ### Documents -/

/-- A member is as the schema says. -/
def Fine (lenient : Bool) (properties : List (Str × Schema)) (required : List Str) (p : Str × Json) : Prop :=
  ∀ s, schemaOf properties p.1 = some s → ¬ (lenient = true ∧ p.2 = .null ∧ p.1 ∉ required) → Conforms lenient s p.2

theorem fine {l : Bool} {ps : List (Str × Schema)} {rs : List Str} {n : Str} {j : Json} {s : Schema} (h : schemaOf ps n = some s) (c : Conforms l s j) : Fine l ps rs (n, j) := by
  intro s' h' _
  rw [h] at h'
  cases h'
  exact c

theorem fine_null {ps : List (Str × Schema)} {rs : List Str} {n : Str} (h : n ∉ rs) : Fine true ps rs (n, .null) := fun _ _ h' => absurd ⟨rfl, rfl, h⟩ h'

theorem fine_other {l : Bool} {ps : List (Str × Schema)} {rs : List Str} {n : Str} {j : Json} (h : schemaOf ps n = none) : Fine l ps rs (n, j) := by
  intro s' h' _
  rw [h] at h'
  cases h'

theorem fine_text {ps : List (Str × Schema)} {rs : List Str} {n : Str} {o : Option Str} (h : schemaOf ps n = some .string) (hr : n ∉ rs) : Fine true ps rs (n, optStr o) := by
  cases o with
  | none => exact fine_null hr
  | some t => exact fine h (.string t)

theorem fine_nat {ps : List (Str × Schema)} {rs : List Str} {n : Str} {o : Option Nat} (h : schemaOf ps n = some .integer) (hr : n ∉ rs) : Fine true ps rs (n, optNat o) := by
  cases o with
  | none => exact fine_null hr
  | some t => exact fine h (.integer t)

theorem object {l : Bool} {ps : List (Str × Schema)} {rs : List Str} {ms : List (Str × Json)} (h1 : ∀ n ∈ rs, n ∈ ms.map (·.1)) (h2 : (ms.map (·.1)).Nodup)
    (h3 : ∀ p ∈ ms, Fine l ps rs p) : Conforms l (.object ps rs) (.obj ms) := by
  refine .object (fun n hn => ?_) h2 fun n j s hm => h3 (n, j) hm s
  obtain ⟨p, hp, rfl⟩ := List.mem_map.1 (h1 n hn)
  exact ⟨p.2, hp⟩

theorem number {l : Bool} {x : F64} (h : x.isFinite = true) : Conforms l .number (Json.ofF64 x) := by
  unfold Json.ofF64
  rw [if_pos h]
  exact .number x h

theorem error_conforms (l : Bool) (t : Str) : Conforms l errorResponse (errorDoc t) := by
  refine object (by simp only [List.map_cons, List.map_nil]; decide) (by simp only [List.map_cons, List.map_nil]; decide) ?_
  simp only [List.forall_mem_cons, List.not_mem_nil, false_imp_iff, implies_true, and_true]
  exact ⟨fine rfl (.string _), fine rfl (.oneOf (.head _))⟩

/-- The names of the variables are different: they come from a map. -/
theorem eval_conforms {b : Bool} {r : Json} {vs : List (Str × Json)} {e : Option Str} {ms : F64} {id : Nat} (hm : ms.isFinite = true) (hv : (vs.map (·.1)).Nodup) :
    Conforms true evalResponse (evalDoc b r vs e ms id) := by
  cases vs with
  | nil =>
    refine object (ms := [(c!"success", .bool b), (c!"result", r), (c!"error", optStr e), (c!"execution_time_ms", Json.ofF64 ms), (c!"request_id", .num (.int id))])
      (by simp only [List.map_cons, List.map_nil]; decide) (by simp only [List.map_cons, List.map_nil]; decide) ?_
    simp only [List.forall_mem_cons, List.not_mem_nil, false_imp_iff, implies_true, and_true]
    exact ⟨fine rfl (.boolean _), fine rfl (.any _), fine_text rfl (by decide), fine rfl (number hm), fine rfl (.integer _)⟩
  | cons v vs =>
    refine object (ms := [(c!"success", .bool b), (c!"result", r), (c!"variables", .obj (v :: vs)), (c!"error", optStr e), (c!"execution_time_ms", Json.ofF64 ms), (c!"request_id", .num (.int id))])
      (by simp only [List.map_cons, List.map_nil]; decide) (by simp only [List.map_cons, List.map_nil]; decide) ?_
    simp only [List.forall_mem_cons, List.not_mem_nil, false_imp_iff, implies_true, and_true]
    refine ⟨fine rfl (.boolean _), fine rfl (.any _), fine rfl (object (by simp) hv fun p _ => fine_other rfl), fine_text rfl (by decide), fine rfl (number hm), fine rfl (.integer _)⟩

theorem eval_no_conforms (t : Str) (l : Bool) (ms : F64) (id : Nat) : Conforms l errorResponse (evalDoc false .null [] (some t) ms id) := by
  refine object (ms := [(c!"success", .bool false), (c!"result", .null), (c!"error", .str t), (c!"execution_time_ms", Json.ofF64 ms), (c!"request_id", .num (.int id))])
      (by simp only [List.map_cons, List.map_nil]; decide) (by simp only [List.map_cons, List.map_nil]; decide) ?_
  simp only [List.forall_mem_cons, List.not_mem_nil, false_imp_iff, implies_true, and_true]
  exact ⟨fine rfl (.oneOf (.head _)), fine_other rfl, fine rfl (.string _), fine_other rfl, fine_other rfl⟩

theorem health_conforms {W : World} {r : Health.Report} (h : Measured W r) (l : Bool) : Conforms l healthResponse (healthDoc W r) := by
  refine object (by simp only [List.map_cons, List.map_nil]; decide) (by simp only [List.map_cons, List.map_nil]; decide) ?_
  simp only [List.forall_mem_cons, List.not_mem_nil, false_imp_iff, implies_true, and_true]
  refine ⟨fine rfl (.oneOf (.head _)), fine rfl (.string _), fine rfl (.integer _), fine rfl (number h.average), fine rfl (object (by simp only [List.map_cons, List.map_nil]; decide) (by simp only [List.map_cons, List.map_nil]; decide) ?_)⟩
  simp only [List.forall_mem_cons, List.not_mem_nil, false_imp_iff, implies_true, and_true]
  exact ⟨fine rfl (.integer _), fine rfl (.integer _), fine rfl (number h.hitRate), fine rfl (.integer _), fine rfl (.integer _), fine rfl (number h.saved)⟩

theorem store_conforms (b : Bool) (t : Str) (n : Option Str) (r : Option Results) (e : Option Str) : Conforms true storeResponse (storeDoc b t n r e) := by
  refine object (by simp only [List.map_cons, List.map_nil]; decide) (by simp only [List.map_cons, List.map_nil]; decide) ?_
  simp only [List.forall_mem_cons, List.not_mem_nil, false_imp_iff, implies_true, and_true]
  refine ⟨fine rfl (.boolean _), fine rfl (.string _), fine_text rfl (by decide), ?_, fine_text rfl (by decide)⟩
  cases r with
  | none => exact fine_null (by decide)
  | some r =>
    refine fine rfl (object (by simp only [List.map_cons, List.map_nil]; decide) (by simp only [List.map_cons, List.map_nil]; decide) ?_)
    simp only [List.forall_mem_cons, List.not_mem_nil, false_imp_iff, implies_true, and_true]
    exact ⟨fine rfl (.boolean _), fine rfl (.boolean _), fine rfl (.boolean _), fine_text rfl (by decide), fine_text rfl (by decide)⟩

theorem delete_conforms (b : Bool) (t : Str) (e : Option Str) : Conforms true deleteResponse (deleteDoc b t e) := by
  refine object (by simp only [List.map_cons, List.map_nil]; decide) (by simp only [List.map_cons, List.map_nil]; decide) ?_
  simp only [List.forall_mem_cons, List.not_mem_nil, false_imp_iff, implies_true, and_true]
  exact ⟨fine rfl (.boolean _), fine rfl (.string _), fine_text rfl (by decide)⟩

theorem entry_conforms (e : Entry) : Conforms true functionInfo e.doc := by
  refine object (by simp only [List.map_cons, List.map_nil]; decide) (by simp only [List.map_cons, List.map_nil]; decide) ?_
  simp only [List.forall_mem_cons, List.not_mem_nil, false_imp_iff, implies_true, and_true]
  exact ⟨fine rfl (.string _), fine_text rfl (by decide), fine_text rfl (by decide), fine_text rfl (by decide), fine_nat rfl (by decide), fine_nat rfl (by decide),
    fine rfl (.integer _), fine rfl (.string _), fine rfl (.boolean _), fine_text rfl (by decide)⟩

theorem list_conforms (b : Bool) (es : List Entry) (e : Option Str) : Conforms true listResponse (listDoc b es e) := by
  refine object (by simp only [List.map_cons, List.map_nil]; decide) (by simp only [List.map_cons, List.map_nil]; decide) ?_
  simp only [List.forall_mem_cons, List.not_mem_nil, false_imp_iff, implies_true, and_true]
  refine ⟨fine rfl (.boolean _), fine rfl (.array fun j hj => ?_), fine rfl (.integer _), fine_text rfl (by decide)⟩
  obtain ⟨e, _, rfl⟩ := List.mem_map.1 hj
  exact entry_conforms e

theorem reload_conforms (b : Bool) (t : Str) (n : Nat) (e : Option Str) : Conforms true reloadResponse (reloadDoc b t n e) := by
  refine object (by simp only [List.map_cons, List.map_nil]; decide) (by simp only [List.map_cons, List.map_nil]; decide) ?_
  simp only [List.forall_mem_cons, List.not_mem_nil, false_imp_iff, implies_true, and_true]
  exact ⟨fine rfl (.boolean _), fine rfl (.string _), fine rfl (.integer _), fine_text rfl (by decide)⟩

theorem clear_conforms (t : Str) (b l : Bool) : Conforms l clearResponse (.obj [(c!"message", .str t), (c!"success", .bool b)]) := by
  refine object (by simp only [List.map_cons, List.map_nil]; decide) (by simp only [List.map_cons, List.map_nil]; decide) ?_
  simp only [List.forall_mem_cons, List.not_mem_nil, false_imp_iff, implies_true, and_true]
  exact ⟨fine rfl (.string _), fine rfl (.boolean _)⟩

/-! ### Answers -/

/-- What may be answered. -/
def Ok (op : Str × Str) (o : Out) : Prop := ∀ m, o.1 = some m → Among true (answers operations op) m ∨ Among true (answers departures op) m

theorem ok_none {op : Str × Str} {s : Site} : Ok op (none, s) := fun m h => by cases h

theorem ok_yes {op : Str × Str} {s : Site} {n : Nat} {doc : Json} {c : Schema} (h : (n, .json c) ∈ answers operations op) (hc : Conforms true c doc) : Ok op (send s n doc) := by
  intro m hm
  cases hm
  exact .inl ⟨_, h, rfl, _, rfl, hc⟩

theorem ok_more {op : Str × Str} {s : Site} {n : Nat} {doc : Json} {c : Schema} (h : (n, .json c) ∈ answers departures op) (hc : Conforms true c doc) : Ok op (send s n doc) := by
  intro m hm
  cases hm
  exact .inr ⟨_, h, rfl, _, rfl, hc⟩

theorem ok_error {op : Str × Str} {s : Site} {n : Nat} {t : Str} (h : (n, .json errorResponse) ∈ answers operations op ∨ (n, .json errorResponse) ∈ answers departures op) :
    Ok op (sendError s n t) := by
  rcases h with h | h
  · exact ok_yes h (error_conforms true t)
  · exact ok_more h (error_conforms true t)

theorem ok_guarded {α : Type} {op : Str × Str} {s : Site} {r : Res α} {e : Str → Out} {k : α → Out} (he : ∀ t, Ok op (e t)) (hk : ∀ a, Ok op (k a)) : Ok op (guarded s r e k) := by
  unfold HttpReply.guarded
  split
  · exact hk _
  · exact he _
  · exact ok_none

theorem ok_token {op : Str × Str} {X : Ext} (hX : _root_.Spec.LowersWords X) {request : Str} {token : Option Str} {t : Str} {s : Site} {k : Out}
    (h : (401, .json errorResponse) ∈ answers operations op ∨ (401, .json errorResponse) ∈ answers departures op) (hk : Ok op k) : Ok op (withToken X request token t s k) := by
  obtain ⟨b, hb⟩ := passes_ok X hX request token
  unfold HttpReply.withToken HttpReply.guarded
  rw [hb]
  cases b with
  | true => exact hk
  | false => exact ok_error h

theorem ok_eval {op : Str × Str} {X : Ext} {W : World} {report : Health.Report} (hW : Measured W report) {s : Site} {q : EvalRequest} (h2 : (200, .json evalResponse) ∈ answers operations op)
    (h4 : (400, .json errorResponse) ∈ answers operations op) : Ok op (sendEval X W s q) := by
  unfold HttpReply.sendEval
  simp only
  split
  · refine ok_yes h2 (eval_conforms hW.ms ?_)
    rename_i v ctx _ _
    cases ctx with
    | none => exact .nil
    | some ctx =>
      have : (((W.entries ctx).filterMap fun p => (reported X (HttpCache.envOf (varsOf X q.arguments)) q.includeVariables (some ctx) p.1).map fun j => (p.1, j)).map (·.1)).Sublist
          ((W.entries ctx).map (·.1)) := by
        generalize W.entries ctx = l
        induction l with
        | nil => exact .slnil
        | cons p l ih =>
          cases hp : reported X (HttpCache.envOf (varsOf X q.arguments)) q.includeVariables (some ctx) p.1 with
          | none => simp only [List.filterMap_cons, hp, Option.map_none, List.map_cons]; exact ih.cons _
          | some j => simp only [List.filterMap_cons, hp, Option.map_some, List.map_cons]; exact ih.cons₂ _
      exact this.nodup (hW.maps ctx)
  · exact ok_yes h4 (eval_no_conforms _ _ _ _)
  · exact ok_none

theorem ok_store {op : Str × Str} {X : Ext} {H : HttpExt} {W : World} {w : Wording} {cfg : Config} {s : Site} {filename : Str} {code : Option Str}
    (h2 : (200, .json storeResponse) ∈ answers operations op) (h4 : (400, .json storeResponse) ∈ answers operations op) (h5 : (500, .json storeResponse) ∈ answers departures op) :
    Ok op (storeJs X H W w cfg s filename code) := by
  unfold HttpReply.storeJs
  split
  · exact ok_yes h4 (store_conforms ..)
  · refine ok_guarded (fun _ => ok_yes h4 (store_conforms ..)) fun p => ?_
    obtain ⟨f, r⟩ := p
    simp only
    split
    · exact ok_yes h2 (store_conforms ..)
    · exact ok_more h5 (store_conforms ..)

theorem route_ok {X : Ext} (hX : _root_.Spec.LowersWords X) (H : HttpExt) {W : World} (cfg : Config) {report : Health.Report} (hW : Measured W report) (method path request : Str) (s : Site)
    (hop : (method, path) ∈ operations.map (·.1)) : Ok (method, path) (route X H W cfg report method path request s) := by
  simp only [operations, List.map_cons, List.map_nil, List.mem_cons, Prod.mk.injEq, List.not_mem_nil, or_false] at hop
  rcases hop with h | h | h | h | h | h | h | h | h | h <;> obtain ⟨rfl, rfl⟩ := h
  · intro m hm
    cases hm
    exact .inl ⟨_, .head _, rfl, _, rfl⟩
  · exact ok_yes (.head _) (health_conforms hW true)
  · exact ok_token hX (.inl (.tail _ (.tail _ (.head _)))) (ok_guarded (fun _ => ok_error (.inl (.tail _ (.head _)))) fun q => ok_eval hW (.head _) (.tail _ (.head _)))
  · refine ok_token hX (.inr (.head _)) ?_
    split
    · extract_lets query q
      split
      · exact ok_error (op := (c!"GET", c!"/eval")) (.inl (.tail _ (.head _)))
      · exact ok_eval (op := (c!"GET", c!"/eval")) hW (.head _) (.tail _ (.head _))
    · exact ok_error (op := (c!"GET", c!"/eval")) (.inl (.tail _ (.head _)))
  · refine ok_token hX (.inl (.tail _ (.tail _ (.head _)))) (ok_guarded (fun _ => ok_error (.inr (.head _))) fun q => ?_)
    split
    · exact ok_store (.head _) (.tail _ (.head _)) (.tail _ (.head _))
    · exact ok_yes (.tail _ (.head _)) (store_conforms ..)
  · refine ok_token hX (.inr (.tail _ (.head _))) (ok_guarded (fun _ => ok_error (.inr (.head _))) fun q => ?_)
    split
    · exact ok_yes (.tail _ (.head _)) (store_conforms ..)
    · split
      · exact ok_yes (.tail _ (.tail _ (.head _))) (store_conforms ..)
      · exact ok_store (.head _) (.tail _ (.head _)) (.tail _ (.tail _ (.head _)))
  · refine ok_token hX (.inr (.tail _ (.head _))) (ok_guarded (fun _ => ok_error (.inr (.head _))) fun q => ?_)
    split
    · exact ok_yes (.tail _ (.head _)) (delete_conforms ..)
    · split
      · exact ok_yes (.head _) (delete_conforms ..)
      · exact ok_more (.tail _ (.tail _ (.head _))) (delete_conforms ..)
  · refine ok_token hX (.inl (.tail _ (.head _))) ?_
    split
    · exact ok_yes (.head _) (list_conforms ..)
    · exact ok_more (.head _) (list_conforms ..)
  · refine ok_token hX (.inr (.head _)) ?_
    have yes : ∀ s' n, Ok (c!"POST", c!"/reload-hooks") (reloaded s' n) := fun s' n => ok_yes (.head _) (reload_conforms ..)
    have no : ∀ s' t, Ok (c!"POST", c!"/reload-hooks") (notReloaded s' t) := fun s' t => ok_more (.tail _ (.head _)) (reload_conforms ..)
    split
    · split
      · split
        · exact yes _ _
        · exact no _ _
      · exact no _ _
    · split
      · exact yes _ _
      · exact no _ _
  · exact ok_token hX (.inr (.head _)) (ok_yes (.head _) (clear_conforms ..))

/-- **C145, in part.** Whatever the query, headers, body, tokens and state of the server: an answer of a described operation has one of its described statuses with a document that is as described there,
except for the answers of `departures`. Missing: the departures, and the documents have `null` for members that are absent, which the description does not allow (`C145_nulls`). -/
theorem C145_answers_partial (X : Ext) (hX : _root_.Spec.LowersWords X) (H : HttpExt) (W : World) (cfg : Config) (report : Health.Report) (hW : Measured W report) (s : Site)
    {method path version : Str} {query : Option Str} (hl : Http.Spec.Line method path query version) (rest : Str) (hop : (method, path) ∈ operations.map (·.1)) (m : Message)
    (h : (handle X H W cfg report (Http.Spec.requestText method path query version rest) s).1 = some m) :
    Among true (answers operations (method, path)) m ∨ Among true (answers departures (method, path)) m := by
  rw [handle_text X H W cfg report s hl rest] at h
  exact route_ok hX H cfg hW method path _ s hop m h

/-- A case: an evaluation that works, with its document. -/
example (X : Ext) (H : HttpExt) (W : World) (report : Health.Report) : (c!"GET", c!"/eval") ∈ operations.map (·.1) ∧
    (handle X H W _root_.Spec.open_ report (Http.Spec.requestText c!"GET" c!"/eval" (some c!"expr=2%2B3") c!"HTTP/1.1" c!"\r\n") _root_.Spec.site).1 =
      some ⟨200, .json (evalDoc true (simpleOutput X (.num (.fin 5))) [] none W.ms 0)⟩ := by
  refine ⟨by decide, ?_⟩
  kernel_rfl

/-! ### Departures -/

theorem not_among {op : Str × Str} {n : Nat} {b : Body} {l : Bool} (h : ∀ a ∈ answers operations op, a.1 ≠ n) : ¬ Among l (answers operations op) ⟨n, b⟩ := by
  rintro ⟨a, ha, hn, _⟩
  exact h a ha hn.symm

theorem no_message {l : Bool} {t : Str} {ps : List (Str × Schema)} {rs : List Str} (h : c!"message" ∈ rs) : ¬ Conforms l (.object ps rs) (errorDoc t) := by
  intro hc
  cases hc with
  | object h1 _ _ =>
    obtain ⟨j, hj⟩ := h1 _ h
    simp at hj

namespace Spec

/-- A server that cannot write files, and cannot read bodies. -/
def failing (H : HttpExt) : HttpExt := { H with decodeJs := fun _ => .error c!"expected value", decodeDelete := fun _ => .error c!"expected value" }

/-- A server whose disk is full, and a body that has been read: a function to be stored or deleted as `x.js`. -/
def full (H : HttpExt) : HttpExt :=
  { H with decodeJs := fun _ => .ok ⟨c!"x.js", some _root_.Spec.aFunction, none⟩, decodeDelete := fun _ => .ok c!"x.js", ioError := fun _ => true, listing := id }

/-- The same server with tokens. -/
def closed : Config := { _root_.Spec.open_ with authToken := some c!"eval", adminToken := some c!"admin" }

/-- A site where `hooks` is a file. -/
def broken : Site := { _root_.Spec.site with fs := ⟨[[c!"srv"]], [([c!"srv", c!"hooks"], c!"")]⟩ }

/-- A site with the file `x.js`. -/
def stored : Site := { _root_.Spec.site with fs := ⟨[[c!"srv"], [c!"srv", c!"hooks"]], [([c!"srv", c!"hooks", c!"x.js"], _root_.Spec.aFunction)]⟩ }

/-- A request without headers. -/
def bare (op : Str × Str) : Str := Http.Spec.requestText op.1 op.2 none c!"HTTP/1.1" c!"\r\n"

end Spec

/-- **C145 fails: the departures happen.** For each of them there is a server and a request without headers that is answered so, though the description has no such answer for the operation: the status is not there,
or the document is not as it says. -/
theorem C145_departures (X : Ext) (H : HttpExt) (W : World) (report : Health.Report) : ∀ p ∈ departures, ∀ a ∈ p.2, ∃ H' ∈ [failing H, full H], ∃ cfg ∈ [_root_.Spec.open_, closed],
    ∃ s ∈ [_root_.Spec.site, broken, stored], ∃ m, (handle X H' W cfg report (bare p.1) s).1 = some m ∧ Among true [a] m ∧ ¬ Among true (answers operations p.1) m := by
  have one : ∀ {n : Nat} {c : Schema} {doc : Json}, Conforms true c doc → Among true [(n, .json c)] ⟨n, .json doc⟩ := fun h => ⟨_, .head _, rfl, _, rfl, h⟩
  have at400 : ∀ {op : Str × Str} {l : Bool} {t : Str}, (∀ a ∈ answers operations op, a.1 = 400 → ∃ ps rs, a.2 = .json (.object ps rs) ∧ c!"message" ∈ rs) →
      ¬ Among l (answers operations op) ⟨400, .json (errorDoc t)⟩ := by
    rintro op l t h ⟨a, ha, hn, hb⟩
    obtain ⟨ps, rs, e, hm⟩ := h a ha hn.symm
    rw [e] at hb
    obtain ⟨doc, hd, hc⟩ := hb
    cases hd
    exact no_message hm hc
  simp only [departures, List.forall_mem_cons, List.not_mem_nil, false_imp_iff, implies_true, and_true, true_and]
  refine ⟨?_, ⟨?_, ?_⟩, ⟨?_, ?_, ?_⟩, ⟨?_, ?_, ?_⟩, ?_, ⟨?_, ?_⟩, ?_⟩
  · refine ⟨failing H, by simp, closed, by simp, _root_.Spec.site, by simp, ⟨401, .json (errorDoc unauthorized)⟩, by kernel_rfl, one (error_conforms ..), not_among (by decide)⟩
  · exact ⟨failing H, by simp, _root_.Spec.open_, by simp, _root_.Spec.site, by simp, ⟨400, .json (errorDoc c!"Invalid JSON: expected value")⟩, by kernel_rfl, one (error_conforms ..), (at400 (by simp [answers, operations, storeResponse, deleteResponse]))⟩
  · exact ⟨full H, by simp, _root_.Spec.open_, by simp, _root_.Spec.site, by simp, ⟨500, .json (storeDoc false HttpReply.uploading.unsaved (some c!"F") (some ⟨true, some c!"No example provided to test", none⟩) (some (c!"Failed to write JS file: " ++ W.osError c!"write" c!"hooks/x.js")))⟩, by kernel_rfl, one (store_conforms ..), not_among (by decide)⟩
  · exact ⟨failing H, by simp, _root_.Spec.open_, by simp, _root_.Spec.site, by simp, ⟨400, .json (errorDoc c!"Invalid JSON: expected value")⟩, by kernel_rfl, one (error_conforms ..), (at400 (by simp [answers, operations, storeResponse, deleteResponse]))⟩
  · exact ⟨failing H, by simp, closed, by simp, _root_.Spec.site, by simp, ⟨401, .json (errorDoc unauthorizedAdmin)⟩, by kernel_rfl, one (error_conforms ..), not_among (by decide)⟩
  · exact ⟨full H, by simp, _root_.Spec.open_, by simp, stored, by simp, ⟨500, .json (storeDoc false updating.unsaved (some c!"F") (some ⟨true, some c!"No example provided to test", none⟩) (some (c!"Failed to write JS file: " ++ W.osError c!"write" c!"hooks/x.js")))⟩, by kernel_rfl, one (store_conforms ..), not_among (by decide)⟩
  · exact ⟨failing H, by simp, _root_.Spec.open_, by simp, _root_.Spec.site, by simp, ⟨400, .json (errorDoc c!"Invalid JSON: expected value")⟩, by kernel_rfl, one (error_conforms ..), (at400 (by simp [answers, operations, storeResponse, deleteResponse]))⟩
  · exact ⟨failing H, by simp, closed, by simp, _root_.Spec.site, by simp, ⟨401, .json (errorDoc unauthorizedAdmin)⟩, by kernel_rfl, one (error_conforms ..), not_among (by decide)⟩
  · exact ⟨full H, by simp, _root_.Spec.open_, by simp, _root_.Spec.site, by simp, ⟨500, .json (deleteDoc false c!"Failed to delete file 'x.js'" (some c!"File 'x.js' does not exist"))⟩, by kernel_rfl, one (delete_conforms ..), not_among (by decide)⟩
  · exact ⟨full H, by simp, _root_.Spec.open_, by simp, broken, by simp, ⟨500, .json (listDoc false [] (some (c!"Failed to read directory: " ++ W.osError c!"readdir" c!"hooks")))⟩, by kernel_rfl, one (list_conforms ..), not_among (by decide)⟩
  · exact ⟨failing H, by simp, closed, by simp, _root_.Spec.site, by simp, ⟨401, .json (errorDoc unauthorizedAdmin)⟩, by kernel_rfl, one (error_conforms ..), not_among (by decide)⟩
  · exact ⟨full H, by simp, _root_.Spec.open_, by simp, broken, by simp, ⟨500, .json (reloadDoc false c!"Failed to reload JavaScript functions" 0 (some (c!"Failed to read directory: " ++ W.osError c!"readdir" c!"hooks")))⟩, by kernel_rfl, one (reload_conforms ..), not_among (by decide)⟩
  · exact ⟨failing H, by simp, closed, by simp, _root_.Spec.site, by simp, ⟨401, .json (errorDoc unauthorized)⟩, by kernel_rfl, one (error_conforms ..), not_among (by decide)⟩

/-- **C145 fails: described, but never answered.** Whatever the request and the state of the server, no answer has the status 413, and none to a deletion has 404. -/
theorem C145_never (X : Ext) (hX : _root_.Spec.LowersWords X) (H : HttpExt) (W : World) (cfg : Config) (report : Health.Report) (s : Site) :
    (∀ want c m, (connection X H W cfg report want c s).1 = some m → m.status ≠ 413) ∧
    ∀ {version : Str} {query : Option Str}, Http.Spec.Line c!"DELETE" c!"/delete-js" query version → ∀ rest m,
      (handle X H W cfg report (Http.Spec.requestText c!"DELETE" c!"/delete-js" query version rest) s).1 = some m → m.status ≠ 404 := by
  refine ⟨fun want c m h => ?_, fun {version query} hl rest m h => ?_⟩
  · unfold connection at h
    split at h
    · rename_i request _
      have h1 := (C126_same X H W cfg report request s).1
      rw [h] at h1
      cases hr : (Http.handle X H cfg request s).1 with
      | none => rw [hr] at h1; cases h1
      | some r =>
        rw [hr] at h1
        simp only [Option.map_some, Option.some.injEq] at h1
        have h2 := (HttpWrite.C93_statuses X H cfg request s r hr).1
        rw [← h1] at h2
        intro h3
        rw [h3] at h2
        revert h2
        decide
    · cases h
      exact (by decide : (400 : Nat) ≠ 413)
  · have h1 := (C126_same X H W cfg report (Http.Spec.requestText c!"DELETE" c!"/delete-js" query version rest) s).1
    rw [h] at h1
    rcases C110_statuses X hX H cfg s hl rest (l := [200, 400, 401, 500]) (by decide) with ⟨r, hr, hm⟩ | ⟨hr, _⟩
    · rw [hr] at h1
      simp only [Option.map_some, Option.some.injEq] at h1
      rw [← h1] at hm
      intro h3
      rw [h3] at hm
      revert hm
      decide
    · exact absurd hr (by decide)

/-- **C145 fails: deleting what is not there.** The description says 404; whoever may delete gets 500 for every name that ends in `.js`. -/
theorem C145_missing_file (X : Ext) (H : HttpExt) (W : World) (cfg : Config) (report : Health.Report) (s : Site) {version : Str} {query : Option Str}
    (hl : Http.Spec.Line c!"DELETE" c!"/delete-js" query version) (rest name : Str)
    (hp : passes X (Http.Spec.requestText c!"DELETE" c!"/delete-js" query version rest) cfg.adminToken = .ok true)
    (hb : jsonBody H.decodeDelete (Http.Spec.requestText c!"DELETE" c!"/delete-js" query version rest) = .ok name)
    (hn : Str.endsWith name c!".js" = true) (hf : s.fs.exists cfg.cwd (joinPath cfg.hooksDir name) = false) :
    ∃ doc, handle X H W cfg report (Http.Spec.requestText c!"DELETE" c!"/delete-js" query version rest) s = (some ⟨500, .json doc⟩, s) := by
  rw [handle_text X H W cfg report s hl rest]
  have : ∀ r, route X H W cfg report c!"DELETE" c!"/delete-js" r s = HttpReply.deleteJsRequest X H W cfg r s := fun _ => rfl
  rw [this]
  unfold HttpReply.deleteJsRequest HttpReply.withToken
  rw [hp, hb]
  simp only [HttpReply.guarded, if_true, hn, Bool.not_true, Bool.false_eq_true, if_false]
  have hd : deleteJs H cfg s.fs name = (s.fs, false) := by
    unfold deleteJs
    cases hr : s.fs.resolve cfg.cwd (joinPath cfg.hooksDir name) with
    | none => simp [hr]
    | some p =>
      have : s.fs.isDir p = false ∧ s.fs.read p = none := by simpa [Fs.exists, hr] using hf
      simp [hr, this.2]
  rw [hd]
  exact ⟨_, rfl⟩

/-! ### Members that are null -/

theorem null_error {ps : List (Str × Schema)} {rs : List Str} {ms : List (Str × Json)} (hs : schemaOf ps c!"error" = some .string) (h : (c!"error", Json.null) ∈ ms) :
    ¬ Conforms false (.object ps rs) (.obj ms) := by
  intro hc
  cases hc with
  | object _ _ h3 => cases h3 _ _ _ h hs (by simp)

/-- The operations whose answers have a member `error`. -/
def Spec.withError : List (Str × Str) := [(c!"POST", c!"/eval"), (c!"GET", c!"/eval"), (c!"POST", c!"/upload-js"), (c!"PUT", c!"/update-js"), (c!"DELETE", c!"/delete-js"),
  (c!"GET", c!"/list-js"), (c!"POST", c!"/reload-hooks")]

/-- An answer that says 200 has a member `error` that is null. -/
def Nulls (o : Out) : Prop := ∀ b, o.1 = some ⟨200, b⟩ → ∃ ms, b = .json (.obj ms) ∧ (c!"error", Json.null) ∈ ms

theorem nulls_none {s : Site} : Nulls (none, s) := fun b h => by cases h

theorem nulls_other {s : Site} {n : Nat} {doc : Json} (h : n ≠ 200) : Nulls (send s n doc) := fun b hb => by
  cases hb
  exact absurd rfl h

theorem nulls_yes {s : Site} {n : Nat} {ms : List (Str × Json)} (h : (c!"error", Json.null) ∈ ms) : Nulls (send s n (.obj ms)) := fun b hb => by
  cases hb
  exact ⟨ms, rfl, h⟩

theorem nulls_guarded {α : Type} {s : Site} {r : Res α} {e : Str → Out} {k : α → Out} (he : ∀ t, Nulls (e t)) (hk : ∀ a, Nulls (k a)) : Nulls (HttpReply.guarded s r e k) := by
  unfold HttpReply.guarded
  split
  · exact hk _
  · exact he _
  · exact nulls_none

theorem nulls_token {X : Ext} {request : Str} {token : Option Str} {t : Str} {s : Site} {k : Out} (hk : Nulls k) : Nulls (HttpReply.withToken X request token t s k) :=
  nulls_guarded (fun _ => nulls_other (by decide)) fun b => by
    cases b
    · exact nulls_other (by decide)
    · exact hk

theorem nulls_eval {X : Ext} {W : World} {s : Site} {q : EvalRequest} : Nulls (HttpReply.sendEval X W s q) := by
  unfold HttpReply.sendEval
  simp only
  split
  · refine nulls_yes ?_
    simp [optStr]
  · exact nulls_other (by decide)
  · exact nulls_none

theorem nulls_store {X : Ext} {H : HttpExt} {W : World} {w : Wording} {cfg : Config} {s : Site} {filename : Str} {code : Option Str} : Nulls (HttpReply.storeJs X H W w cfg s filename code) := by
  unfold HttpReply.storeJs
  split
  · exact nulls_other (by decide)
  · refine nulls_guarded (fun _ => nulls_other (by decide)) fun p => ?_
    obtain ⟨f, r⟩ := p
    simp only
    split
    · exact nulls_yes (by simp [optStr])
    · exact nulls_other (by decide)

theorem route_nulls (X : Ext) (H : HttpExt) (W : World) (cfg : Config) (report : Health.Report) (method path request : Str) (s : Site)
    (hop : (method, path) ∈ withError) : Nulls (route X H W cfg report method path request s) := by
  simp only [withError, List.mem_cons, Prod.mk.injEq, List.not_mem_nil, or_false] at hop
  rcases hop with h | h | h | h | h | h | h <;> obtain ⟨rfl, rfl⟩ := h
  · exact nulls_token (nulls_guarded (fun _ => nulls_other (by decide)) fun q => nulls_eval)
  · refine nulls_token ?_
    split
    · extract_lets query q
      split
      · exact nulls_other (by decide)
      · exact nulls_eval
    · exact nulls_other (by decide)
  · refine nulls_token (nulls_guarded (fun _ => nulls_other (by decide)) fun q => ?_)
    split
    · exact nulls_store
    · exact nulls_other (by decide)
  · refine nulls_token (nulls_guarded (fun _ => nulls_other (by decide)) fun q => ?_)
    split
    · exact nulls_other (by decide)
    · split
      · exact nulls_other (by decide)
      · exact nulls_store
  · refine nulls_token (nulls_guarded (fun _ => nulls_other (by decide)) fun q => ?_)
    split
    · exact nulls_other (by decide)
    · split
      · exact nulls_yes (by simp [optStr])
      · exact nulls_other (by decide)
  · refine nulls_token ?_
    split
    · exact nulls_yes (by simp [optStr])
    · exact nulls_other (by decide)
  · refine nulls_token ?_
    have yes : ∀ s' n, Nulls (reloaded s' n) := fun s' n => nulls_yes (by simp [optStr])
    have no : ∀ s' t, Nulls (notReloaded s' t) := fun s' t => nulls_other (by decide)
    split
    · split
      · split
        · exact yes _ _
        · exact no _ _
      · exact no _ _
    · split
      · exact yes _ _
      · exact no _ _

/-- **C145 fails: null.** Every answer with status 200 of these operations has `"error": null`, where the description has a text, which may be absent but not null: no such answer is, to the letter, as described. -/
theorem C145_nulls (X : Ext) (H : HttpExt) (W : World) (cfg : Config) (report : Health.Report) (s : Site) {method path version : Str} {query : Option Str}
    (hl : Http.Spec.Line method path query version) (rest : Str) (hop : (method, path) ∈ withError) (m : Message)
    (h : (handle X H W cfg report (Http.Spec.requestText method path query version rest) s).1 = some m) (h2 : m.status = 200) :
    ¬ Among false (answers operations (method, path)) m := by
  rw [handle_text X H W cfg report s hl rest] at h
  obtain ⟨n, b⟩ := m
  simp only at h2
  subst h2
  obtain ⟨ms, rfl, hm⟩ := route_nulls X H W cfg report method path _ s hop b h
  have key : ∀ a ∈ answers operations (method, path), a.1 = 200 → ∃ ps rs, a.2 = .json (.object ps rs) ∧ schemaOf ps c!"error" = some .string := by
    simp only [withError, List.mem_cons, Prod.mk.injEq, List.not_mem_nil, or_false] at hop
    rcases hop with h | h | h | h | h | h | h <;> obtain ⟨rfl, rfl⟩ := h <;>
      simp [answers, operations, evalResponse, storeResponse, deleteResponse, listResponse, reloadResponse, errorResponse, schemaOf]
  rintro ⟨a, ha, hn, hb⟩
  obtain ⟨ps, rs, e, hs⟩ := key a ha hn.symm
  rw [e] at hb
  obtain ⟨doc, hd, hc⟩ := hb
  cases hd
  exact null_error hs hm hc

/-- A case of it: `=2+3*4`. -/
example (X : Ext) (H : HttpExt) (W : World) (report : Health.Report) : (c!"GET", c!"/eval") ∈ withError ∧
    (handle X H W _root_.Spec.open_ report (Http.Spec.requestText c!"GET" c!"/eval" (some c!"expr=%3D2%2B3*4") c!"HTTP/1.1" c!"\r\n") _root_.Spec.site).1 =
      some ⟨200, .json (evalDoc true (simpleOutput X (.num (.fin 14))) [] none W.ms 0)⟩ := by
  refine ⟨by decide, ?_⟩
  kernel_rfl

/-! ### The numbers of the health report -/

theorem near {p : ℚ} {z : F64} (h : _root_.Spec.RoundsTo p z) (h0 : 0 ≤ p) (h1 : p ≤ 2 ^ 64) : ∃ v, _root_.Spec.HasValue z v ∧ 0 ≤ v ∧ v ≤ 2 ^ 64 ∧ (1 ≤ p → 1 ≤ v) := by
  obtain ⟨v, hv⟩ := F64.roundsTo_below h (by rw [abs_of_nonneg h0]; exact lt_of_le_of_lt h1 (by decide +kernel))
  have hn := (F64.roundsTo_near h hv).2
  have b0 := hn 0 ⟨0, 0, by norm_num, by norm_num, by norm_num, by norm_num⟩
  have b1 := hn 1 ⟨1, 0, by norm_num, by norm_num, by norm_num, by norm_num⟩
  have b2 := hn (2 ^ 64) ⟨1, 64, by norm_num, by norm_num, by norm_num, by norm_num⟩
  refine ⟨v, hv, ?_, ?_, fun h => ?_⟩
  · rw [sub_zero, abs_of_nonneg h0] at b0
    linarith [le_abs_self (p - v)]
  · rw [abs_of_nonpos (by linarith : p - 2 ^ 64 ≤ 0)] at b2
    linarith [neg_abs_le (p - v)]
  · rw [abs_of_nonneg (by linarith : 0 ≤ p - 1)] at b1
    linarith [le_abs_self (p - v)]

theorem ofNat_near {n : ℕ} (h : n < 2 ^ 64) : ∃ v, _root_.Spec.HasValue (F64.ofNat n) v ∧ 0 ≤ v ∧ v ≤ 2 ^ 64 ∧ (0 < n → 1 ≤ v) := by
  have hb : ((n : ℤ) : ℚ) ≤ 2 ^ 64 := by exact_mod_cast h.le
  obtain ⟨v, h1, h2, h3, h4⟩ := near (F64.roundsTo_round ((n : ℤ) : ℚ) false) (by exact_mod_cast n.zero_le) hb
  exact ⟨v, h1, h2, h3, fun h => h4 (by exact_mod_cast h)⟩

theorem div_near {x y : F64} {p q : ℚ} (hx : _root_.Spec.HasValue x p) (hy : _root_.Spec.HasValue y q) (hp : 0 ≤ p ∧ p ≤ 2 ^ 64) (hq : 1 ≤ q) : ∃ v, _root_.Spec.HasValue (F64.div x y) v ∧ 0 ≤ v ∧ v ≤ 2 ^ 64 := by
  have h0 : 0 ≤ p / q := div_nonneg hp.1 (by linarith)
  have h1 : p / q ≤ 2 ^ 64 := le_trans (div_le_self hp.1 hq) hp.2
  obtain ⟨v, h1, h2, h3, _⟩ := near (F64.div_roundsTo hx hy (by linarith : q ≠ 0)) h0 h1
  exact ⟨v, h1, h2, h3⟩

theorem finite_value {x : F64} {v : ℚ} (h : _root_.Spec.HasValue x v) : x.isFinite = true := by
  cases x <;> first | exact h.elim | rfl

/-- **C145.** The average and the hit rate of the health report are always numbers, as the description says: the counters of the server are below 2^64. -/
theorem C145_report (W : World) (l : Health.Live) (hm : ∀ env, ((W.entries env).map (·.1)).Nodup) (hW : W.ms.isFinite = true ∧ W.saved.isFinite = true) (hc : l.counters.count < 2 ^ 64)
    (ht : l.counters.total < 2 ^ 64) (hh : l.site.cache.stats.hits + l.site.cache.stats.misses < 2 ^ 64) : Measured W l.report := by
  refine ⟨hm, hW.1, hW.2, ?_, ?_⟩
  · show (Stats.average _ _).isFinite = true
    unfold Stats.average
    split
    · rename_i h0
      obtain ⟨t, t1, t2, t3, _⟩ := ofNat_near ht
      obtain ⟨c, c1, _, _, c4⟩ := ofNat_near hc
      obtain ⟨v, v1, v2, v3⟩ := div_near t1 c1 ⟨t2, t3⟩ (c4 h0)
      obtain ⟨w, w1, _⟩ := div_near v1 (show _root_.Spec.HasValue (.fin 1000) 1000 from rfl) ⟨v2, v3⟩ (by norm_num)
      exact finite_value w1
    · rfl
  · show (Health.hitRate _ _).isFinite = true
    unfold Health.hitRate
    split
    · rfl
    · obtain ⟨t, t1, t2, t3, _⟩ := ofNat_near (n := l.site.cache.stats.hits) (by omega)
      obtain ⟨c, c1, _, _, c4⟩ := ofNat_near hh
      obtain ⟨v, v1, _⟩ := div_near t1 c1 ⟨t2, t3⟩ (c4 (by omega))
      exact finite_value v1

/-! ### Requests that are as described -/

/-- An answer with a document of this kind. -/
def Gives (c : Schema) (o : Out) : Prop := ∀ m, o.1 = some m → Has true (.json c) m.body

theorem gives_send {c : Schema} {s : Site} {n : Nat} {doc : Json} (h : Conforms true c doc) : Gives c (send s n doc) := fun m hm => by
  cases hm
  exact ⟨_, rfl, h⟩

theorem gives_eval {X : Ext} {W : World} {report : Health.Report} (hW : Measured W report) {s : Site} {q : EvalRequest} : Gives evalResponse (HttpReply.sendEval X W s q) := by
  intro m hm
  rcases ok_eval (op := (c!"GET", c!"/eval")) (X := X) hW (s := s) (q := q) (.head _) (.tail _ (.head _)) m hm with ⟨a, ha, h1, h2⟩ | ⟨a, ha, h1, h2⟩
  all_goals revert hm; unfold HttpReply.sendEval; simp only
  all_goals split
  all_goals intro hm; cases hm
  · rcases ha with _ | ⟨_, _ | ⟨_, ⟨⟩⟩⟩
    · exact h2
    · cases h1
  · exact ⟨_, rfl, eval_conforms hW.ms .nil⟩
  · rcases ha with _ | ⟨_, ⟨⟩⟩
    cases h1
  · exact ⟨_, rfl, eval_conforms hW.ms .nil⟩

theorem gives_store {X : Ext} {H : HttpExt} {W : World} {w : Wording} {cfg : Config} {s : Site} {filename : Str} {code : Option Str} :
    Gives storeResponse (HttpReply.storeJs X H W w cfg s filename code) := by
  unfold HttpReply.storeJs
  split
  · exact gives_send (store_conforms ..)
  · unfold HttpReply.guarded
    split
    · simp only
      split <;> exact gives_send (store_conforms ..)
    · exact gives_send (store_conforms ..)
    · intro m hm; cases hm

theorem filter_nodup {k : Str} : ∀ {ms : List (Str × Json)}, (ms.map (·.1)).Nodup → (ms.filter fun m => m.1 = k).length ≤ 1
  | [], _ => by simp
  | (n, j) :: ms, h => by
    rw [List.map_cons, List.nodup_cons] at h
    by_cases e : n = k
    · subst e
      have : ms.filter (fun m => m.1 = n) = [] := by
        rw [List.filter_eq_nil_iff]
        intro m hm he
        exact h.1 (List.mem_map.2 ⟨m, hm, by simpa using he⟩)
      simp [this]
    · rw [List.filter_cons_of_neg (by simpa using e)]
      exact filter_nodup h.2

theorem objGet_of {k : Str} {j : Json} : ∀ {ms : List (Str × Json)}, (ms.map (·.1)).Nodup → (k, j) ∈ ms → objGet k ms = some j
  | (n, i) :: ms, h, hm => by
    rw [List.map_cons, List.nodup_cons] at h
    rcases List.mem_cons.1 hm with e | hm
    · cases e
      simp [objGet]
    · have : k ≠ n := fun e => h.1 (e ▸ List.mem_map.2 ⟨_, hm, rfl⟩)
      rw [objGet, if_neg this]
      exact objGet_of h.2 hm

theorem mem_objGet {k : Str} {j : Json} : ∀ {ms : List (Str × Json)}, objGet k ms = some j → (k, j) ∈ ms
  | (n, i) :: ms, h => by
    rw [objGet] at h
    split at h
    · rename_i e
      cases h
      rw [e]
      exact .head _
    · exact .tail _ (mem_objGet h)

/-- **C145.** A body that is as `EvalRequest` says is never refused: whoever may evaluate gets the document `EvalResponse`, with the status 200 or 400. -/
theorem C145_evaluated (X : Ext) (H : HttpExt) (tree : Str → Option Json) (map : List (Str × Json) → List (Str × Json)) (hr : HttpBody.Spec.Reads H tree map) (W : World) (cfg : Config)
    (report : Health.Report) (hW : Measured W report) (s : Site) (headers : List Str) (body : Str) (hh : ∀ l ∈ headers, HttpQuery.Spec.HeaderLine l)
    (hp : passes X (HttpQuery.Spec.postRequest headers body) cfg.authToken = .ok true) (ms : List (Str × Json)) (ht : tree body = some (.obj ms)) (he : EvalBody ms) (m : Message)
    (h : (handle X H W cfg report (HttpQuery.Spec.postRequest headers body) s).1 = some m) :
    (m.status = 200 ∨ m.status = 400) ∧ Has true (.json evalResponse) m.body := by
  have hq : ∃ q, bodyTree map (.obj ms) = some q := by
    rcases HttpBody.C104_complete map ms with hw | ⟨_, e, _, q, hq, _⟩
    · exfalso
      cases hw with
      | missing h =>
        obtain ⟨e, hm⟩ := he.expression
        rw [objGet_of he.once hm] at h
        cases h
      | expression j h hn =>
        obtain ⟨e, hm⟩ := he.expression
        rw [objGet_of he.once hm] at h
        cases h
        exact hn e (.whole e)
      | arguments j h _ hn =>
        obtain ⟨as, rfl⟩ := he.arguments j (mem_objGet h)
        exact hn as rfl
      | outputJson j h _ hn =>
        obtain ⟨b, rfl⟩ := he.outputJson j (mem_objGet h)
        exact hn b rfl
      | includeVariables j h _ hn hn' =>
        rcases he.includeVariables j (mem_objGet h) with ⟨b, rfl⟩ | ⟨b, rfl⟩
        · exact hn b rfl
        · exact hn' b rfl
      | twice h => exact h fun k _ => filter_nodup he.once
    · exact ⟨q, hq⟩
  obtain ⟨q, hq⟩ := hq
  rw [HttpWire.reply_post_eq X H W cfg report s headers body hh hp, hr.good body _ q ht hq] at h
  refine ⟨?_, gives_eval hW m h⟩
  revert h
  unfold HttpReply.sendEval
  simp only
  split <;> intro h <;> cases h
  · exact .inl rfl
  · exact .inr rfl

/-- The kind of document that answers to a file operation are. -/
def Spec.fileResponse (op : Str × Str) : Schema := if op.1 = c!"DELETE" then deleteResponse else storeResponse

/-- The kind of document that a file operation takes. -/
def Spec.fileRequest (op : Str × Str) : Schema := if op.1 = c!"DELETE" then deleteRequest else storeRequest

/-- **C145.** If the body of an upload, update or deletion is JSON and as described, then whoever may store gets an answer with a document of the kind that is described for the operation. -/
theorem C145_described (X : Ext) (hX : _root_.Spec.LowersWords X) (H : HttpExt) (tree : Str → Option Json) (hr : HttpJsBody.Spec.Reads H tree) (W : World) (cfg : Config)
    (report : Health.Report) (s : Site) {method path version : Str} {query : Option Str} (hl : Http.Spec.Line method path query version) (hop : (method, path) ∈ Http.Spec.fileRoutes)
    (before after : List Str) (body : Str) (hb : ∀ l ∈ before, _root_.Spec.OtherHeader l) (ha : ∀ l ∈ after, HttpQuery.Spec.HeaderLine l)
    (hp : passes X (Http.Spec.requestText method path query version (FileStore.Spec.withJson before after body)) cfg.adminToken = .ok true) (j : Json) (ht : tree body = some j)
    (hj : Conforms false (fileRequest (method, path)) j) (m : Message)
    (h : (handle X H W cfg report (Http.Spec.requestText method path query version (FileStore.Spec.withJson before after body)) s).1 = some m) :
    Has true (.json (fileResponse (method, path))) m.body := by
  rw [handle_text X H W cfg report s hl _] at h
  have js := FileStore.json_js X hX H hl hop hb ha (body := body)
  have jd := FileStore.json_body H.decodeDelete hl hop hb ha (body := body)
  have store : fileRequest (method, path) = storeRequest → ∃ q, jsRequest X H (Http.Spec.requestText method path query version (FileStore.Spec.withJson before after body)) = .ok q := by
    intro e
    rw [e] at hj
    cases hj with
    | @object _ _ ms h1 h2 h3 =>
      obtain ⟨n, hn⟩ := h1 c!"filename" (.head _)
      have hs := h3 _ _ .string hn rfl (by simp)
      cases hs with
      | string t =>
        have may : ∀ k, schemaOf [(c!"filename", .string), (c!"js_code", .string), (c!"file_content", .string)] k = some .string → ∃ t, HttpJsBody.Spec.MayGive k ms t := by
          intro k hk
          cases hg : objGet k ms with
          | none => exact ⟨none, .inl ⟨.inl hg, rfl⟩⟩
          | some j =>
            have hs := h3 _ _ .string (mem_objGet hg) hk (by simp)
            cases hs with
            | string t => exact ⟨some t, .inr ⟨t, hg, rfl⟩⟩
        obtain ⟨a, ha⟩ := may c!"js_code" rfl
        obtain ⟨b, hb⟩ := may c!"file_content" rfl
        have : ∃ code, HttpJsBody.Spec.GivesFile ms t code := by
          cases a with
          | none => exact ⟨b, fun k _ => filter_nodup h2, objGet_of h2 hn, _, _, ha, hb, .inr ⟨rfl, rfl⟩⟩
          | some c => exact ⟨some c, fun k _ => filter_nodup h2, objGet_of h2 hn, _, _, ha, hb, .inl ⟨c, rfl, rfl⟩⟩
        obtain ⟨code, hg⟩ := this
        obtain ⟨q, hq, _⟩ := HttpJsBody.gives_eq hg
        refine ⟨q, ?_⟩
        rw [js, hr.good body _ q ht hq]
  simp only [Http.Spec.fileRoutes, List.mem_cons, Prod.mk.injEq, List.not_mem_nil, or_false] at hop
  rcases hop with e | e | e <;> obtain ⟨rfl, rfl⟩ := e
  · obtain ⟨q, hq⟩ := store rfl
    have : Gives storeResponse (HttpReply.uploadJs X H W cfg (Http.Spec.requestText c!"POST" c!"/upload-js" query version (FileStore.Spec.withJson before after body)) s) := by
      unfold HttpReply.uploadJs HttpReply.withToken
      rw [hp, hq]
      simp only [HttpReply.guarded, if_true]
      split
      · exact gives_store
      · exact gives_send (store_conforms ..)
    exact this m h
  · obtain ⟨q, hq⟩ := store rfl
    have : Gives storeResponse (HttpReply.updateJs X H W cfg (Http.Spec.requestText c!"PUT" c!"/update-js" query version (FileStore.Spec.withJson before after body)) s) := by
      unfold HttpReply.updateJs HttpReply.withToken
      rw [hp, hq]
      simp only [HttpReply.guarded, if_true]
      split
      · exact gives_send (store_conforms ..)
      · split
        · exact gives_send (store_conforms ..)
        · exact gives_store
    exact this m h
  · have hd : ∃ n, jsonBody H.decodeDelete (Http.Spec.requestText c!"DELETE" c!"/delete-js" query version (FileStore.Spec.withJson before after body)) = .ok n := by
      have hj : Conforms false deleteRequest j := hj
      cases hj with
      | @object _ _ ms h1 h2 h3 =>
        obtain ⟨n, hn⟩ := h1 c!"filename" (.head _)
        have hs := h3 _ _ .string hn rfl (by simp)
        cases hs with
        | string t =>
          refine ⟨t, ?_⟩
          rw [jd, hr.goodDelete body _ t ht (HttpJsBody.body_name (.members ⟨fun k _ => filter_nodup h2, objGet_of h2 hn⟩))]
    obtain ⟨n, hn⟩ := hd
    have : Gives deleteResponse (HttpReply.deleteJsRequest X H W cfg (Http.Spec.requestText c!"DELETE" c!"/delete-js" query version (FileStore.Spec.withJson before after body)) s) := by
      unfold HttpReply.deleteJsRequest HttpReply.withToken
      rw [hp, hn]
      simp only [HttpReply.guarded, if_true]
      split
      · exact gives_send (delete_conforms ..)
      · split <;> exact gives_send (delete_conforms ..)
    exact this m h

/-- A case of `C145_evaluated`: an expression with two arguments (much as in `openapi.yml:113-120`), and how any server can be made to read it. -/
example (X : Ext) (H : HttpExt) (W : World) (map : List (Str × Json) → List (Str × Json)) :
    EvalBody [(c!"expression", .str c!"SUM(:sales) * :tax_rate"), (c!"arguments", .obj [(c!"sales", .arr [.num (.int 1000)]), (c!"tax_rate", .num (.int 1))]), (c!"include_variables", .bool true)] ∧
    HttpBody.Spec.Reads { H with decodeEval := fun b => match ((if b = c!"body" then some (Json.obj [(c!"expression", .str c!"1")]) else none).bind (bodyTree map)) with | some q => .ok q | none => .error [] }
      (fun b => if b = c!"body" then some (Json.obj [(c!"expression", .str c!"1")]) else none) map ∧
    EvalBody [(c!"expression", .str c!"1")] ∧ passes X (HttpQuery.Spec.postRequest [c!"Host: a"] c!"body") _root_.Spec.open_.authToken = .ok true := by
  refine ⟨⟨by decide, ⟨_, .head _⟩, ?_, ?_, ?_⟩, ⟨?_, ?_, ?_⟩, ⟨by decide, ⟨_, .head _⟩, ?_, ?_, ?_⟩, rfl⟩
  · intro j hj
    simp only [List.mem_cons, Prod.mk.injEq, List.not_mem_nil, or_false] at hj
    rcases hj with ⟨h, _⟩ | ⟨_, rfl⟩ | ⟨h, _⟩
    · exact absurd h (by decide)
    · exact ⟨_, rfl⟩
    · exact absurd h (by decide)
  · intro j hj
    simp at hj
  · intro j hj
    simp only [List.mem_cons, Prod.mk.injEq, List.not_mem_nil, or_false] at hj
    rcases hj with ⟨h, _⟩ | ⟨h, _⟩ | ⟨_, rfl⟩
    · exact absurd h (by decide)
    · exact absurd h (by decide)
    · exact .inl ⟨_, rfl⟩
  · intro body j q h1 h2
    simp only [h1, Option.bind_some, h2]
  · intro body j h1 h2
    exact ⟨[], by simp only [h1, Option.bind_some, h2]⟩
  · intro body h1
    exact ⟨[], by simp only [h1, Option.bind_none]⟩
  all_goals
    intro j hj
    simp at hj

/-- A case of `C145_described`: an upload, and a deletion. -/
example (H : HttpExt) : HttpJsBody.Spec.Reads (FileStore.aServer H) FileStore.aTree ∧
    (∃ j, FileStore.aTree c!"upload" = some j ∧ Conforms false (fileRequest (c!"POST", c!"/upload-js")) j) ∧
    (∃ j, FileStore.aTree c!"delete" = some j ∧ Conforms false (fileRequest (c!"DELETE", c!"/delete-js")) j) := by
  refine ⟨FileStore.aServer_reads H, ⟨_, rfl, object (by decide) (by decide) ?_⟩, ⟨_, rfl, object (by decide) (by decide) ?_⟩⟩ <;>
    simp only [List.forall_mem_cons, List.not_mem_nil, false_imp_iff, implies_true, and_true]
  · exact ⟨fine rfl (.string _), fine rfl (.string _)⟩
  · exact fine rfl (.string _)

/-- A case of `C145_report`: a server that has done nothing yet. -/
example (W : World) (hm : ∀ env, ((W.entries env).map (·.1)).Nodup) (hW : W.ms.isFinite = true ∧ W.saved.isFinite = true) (l : Health.Live) (h0 : l.counters = ⟨0, 0⟩) (h1 : l.site = _root_.Spec.site) :
    Measured W l.report :=
  C145_report W l hm hW (by rw [h0]; decide) (by rw [h0]; decide) (by rw [h1]; decide)

end OpenApi
