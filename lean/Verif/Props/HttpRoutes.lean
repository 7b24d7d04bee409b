import Verif.Props.HttpAuth
import Verif.Props.HttpQuery
/-! C110: every request is answered by the endpoint it names, and changes only what that endpoint may change. -/

namespace Http
open Spec HttpQuery

namespace Spec

/-- A query as it is written. -/
def mark : Option Str → Str
  | some q => '?' :: q
  | none => []

/-- The text of a request: a method, a path, possibly a query, a version, then headers and body. -/
def requestText (method path : Str) (query : Option Str) (version rest : Str) : Str :=
  method ++ c!" " ++ path ++ mark query ++ c!" " ++ version ++ c!"\r\n" ++ rest

/-- A part of a request line. -/
def Word (w : Str) : Prop := w ≠ [] ∧ ∀ c ∈ w, Str.isWs c = false

/-- A method, path and query that can stand in a request line. -/
structure Line (method path : Str) (query : Option Str) (version : Str) : Prop where
  isMethod : Word method
  isPath : Word path
  noMark : '?' ∉ path
  isQuery : ∀ q, query = some q → ∀ c ∈ q, Str.isWs c = false
  isVersion : Word version

/-- The pages that are the same for everyone. -/
def pages : List (Str × Str) := [(c!"GET", c!"/health"), (c!"GET", c!"/"), (c!"GET", c!"/docs"), (c!"GET", c!"/openapi.yml")]

/-- The endpoints that evaluate. -/
def evalRoutes : List (Str × Str) := [(c!"POST", c!"/eval"), (c!"GET", c!"/eval")]

/-- The endpoints that may change a function file. -/
def fileRoutes : List (Str × Str) := [(c!"POST", c!"/upload-js"), (c!"PUT", c!"/update-js"), (c!"DELETE", c!"/delete-js")]

/-- The endpoints that may create a directory. -/
def dirRoutes : List (Str × Str) := [(c!"POST", c!"/upload-js"), (c!"PUT", c!"/update-js"), (c!"POST", c!"/reload-hooks")]

/-- The endpoint that may change the registered functions. -/
def functionRoutes : List (Str × Str) := [(c!"POST", c!"/reload-hooks")]

/-- The endpoints that may change the response cache. -/
def cacheRoutes : List (Str × Str) := (c!"DELETE", c!"/cache") :: evalRoutes

/-- What each endpoint may answer. -/
def statuses : List ((Str × Str) × List Nat) := [
  ((c!"GET", c!"/health"), [200]), ((c!"GET", c!"/"), [200]), ((c!"GET", c!"/docs"), [200]), ((c!"GET", c!"/openapi.yml"), [200]),
  ((c!"POST", c!"/eval"), [200, 400, 401]), ((c!"GET", c!"/eval"), [200, 400, 401]),
  ((c!"POST", c!"/upload-js"), [200, 400, 401, 500]), ((c!"PUT", c!"/update-js"), [200, 400, 401, 404, 500]), ((c!"DELETE", c!"/delete-js"), [200, 400, 401, 500]),
  ((c!"GET", c!"/list-js"), [200, 401, 500]), ((c!"POST", c!"/reload-hooks"), [200, 401, 500]), ((c!"DELETE", c!"/cache"), [200, 401])]

/-- The endpoints whose worker may die of a panic: those that run an expression or the example of a function. -/
def riskyRoutes : List (Str × Str) := evalRoutes ++ [(c!"POST", c!"/upload-js"), (c!"PUT", c!"/update-js")]

/-- What a request to an endpoint leaves as it is. -/
structure Leaves (endpoint : Str × Str) (s s' : Site) : Prop where
  files : endpoint ∉ fileRoutes → s'.fs.files = s.fs.files
  dirs : endpoint ∉ dirRoutes → s'.fs.dirs = s.fs.dirs
  functions : endpoint ∉ functionRoutes → s'.reg = s.reg
  cache : endpoint ∉ cacheRoutes → s'.cache = s.cache
  counter : endpoint ∉ evalRoutes → s'.counter = s.counter
  /-- And an evaluation counts at most itself. -/
  one : s'.counter = s.counter ∨ s'.counter = s.counter + 1

end Spec

open Spec

theorem ws_nl {c : Char} (h : Str.isWs c = false) : c ≠ '\n' := by rintro rfl; revert h; decide

theorem request_words {method path version : Str} {query : Option Str} (hl : Line method path query version) (rest : Str) :
    ∃ first target, Str.lines (requestText method path query version rest) = first :: Str.lines rest ∧ Str.splitWs first = [method, target, version] ∧
      (Str.split target c!"?").headD target = path := by
  obtain ⟨hm, hp, hq, hqs, hv⟩ := hl
  obtain ⟨target, ht⟩ : ∃ t : Str, t = path ++ mark query := ⟨_, rfl⟩
  have htw : ∀ c ∈ target, Str.isWs c = false := by
    intro c hc
    rw [ht] at hc
    rcases List.mem_append.1 hc with hc | hc
    · exact hp.2 c hc
    · cases query with
      | none => simp [mark] at hc
      | some q =>
        rcases List.mem_cons.1 hc with rfl | hc
        · decide
        · exact hqs q rfl c hc
  have htn : target ≠ [] := by rw [ht]; simp [hp.1]
  have e : requestText method path query version rest = (method ++ ' ' :: (target ++ ' ' :: version)) ++ c!"\r\n" ++ rest := by
    unfold requestText; rw [ht]; simp
  have hlines : Str.lines (requestText method path query version rest) = (method ++ ' ' :: (target ++ ' ' :: version)) :: Str.lines rest := by
    rw [e, lines_crlf]
    intro c hc
    simp only [List.mem_append, List.mem_cons] at hc
    rcases hc with hc | rfl | hc | rfl | hc
    · exact ws_nl (hm.2 c hc)
    · decide
    · exact ws_nl (htw c hc)
    · decide
    · exact ws_nl (hv.2 c hc)
  have hwords : Str.splitWs (method ++ ' ' :: (target ++ ' ' :: version)) = [method, target, version] := by
    unfold Str.splitWs
    rw [splitWsGo_word _ _ hm.2 _ _ (by decide) (by simpa using hm.1), splitWsGo_word _ _ htw _ _ (by decide) (by simpa using htn)]
    have : ∀ (w acc : Str), (∀ c ∈ w, Str.isWs c = false) → acc.reverse ++ w ≠ [] → Str.splitWsGo acc w = [acc.reverse ++ w] := by
      intro w
      induction w with
      | nil => intro acc _ h; simp at h; simp [Str.splitWsGo, h]
      | cons c w ih =>
        intro acc h _
        simp only [Str.splitWsGo, h c (by simp), Bool.false_eq_true, if_false]
        rw [ih (c :: acc) (fun x hx => h x (by simp [hx])) (by simp)]
        simp
    rw [this version [] hv.2 (by simpa using hv.1)]
    simp
  have hhead : (Str.split target c!"?").headD target = path := by
    cases query with
    | none =>
      have : target = path := by rw [ht]; simp [mark]
      rw [this]
      have := split_join c!"?" (by simp) [path] (by simp) (by
        intro p hp'
        rw [List.mem_singleton] at hp'
        subst hp'
        exact endsAt_char _ _ fun x hx h => hq (h ▸ hx))
      simp only [Str.join] at this
      rw [this]
      rfl
    | some q =>
      have e' : target = path ++ c!"?" ++ q := by rw [ht]; simp [mark]
      unfold Str.split
      rw [e', if_neg (by decide), splitGo_part c!"?" path q [] (by simp) (endsAt_char _ _ fun x hx h => hq (h ▸ hx))]
      rfl
  exact ⟨_, target, hlines, hwords, hhead⟩

theorem handle_request (X : Ext) (H : HttpExt) (cfg : Config) (s : Site) {method path version : Str} {query : Option Str} (hl : Line method path query version) (rest : Str) :
    handle X H cfg (requestText method path query version rest) s = route X H cfg method path (requestText method path query version rest) s := by
  obtain ⟨first, target, hlines, hwords, hhead⟩ := request_words hl rest
  unfold handle
  rw [hlines]
  simp only [hwords, hhead]

/-- C110: pages, preflight requests and unknown endpoints: whatever the query, headers and body, they are answered with 200, 200 and 404 and change nothing. -/
theorem C110_pages (X : Ext) (H : HttpExt) (cfg : Config) (s : Site) {method path version : Str} {query : Option Str} (hl : Line method path query version) (rest : Str) :
    ((method, path) ∈ pages ∨ method = c!"OPTIONS" → handle X H cfg (requestText method path query version rest) s = (some { status := 200 }, s)) ∧
    ((method, path) ∉ pages → (method, path) ∉ evalRoutes → (method, path) ∉ managementRoutes → method ≠ c!"OPTIONS" →
      handle X H cfg (requestText method path query version rest) s = (some { status := 404 }, s)) := by
  rw [handle_request X H cfg s hl rest]
  constructor
  · rintro (h | rfl)
    · simp only [pages, List.mem_cons, Prod.mk.injEq, List.not_mem_nil, or_false] at h
      rcases h with ⟨rfl, rfl⟩ | ⟨rfl, rfl⟩ | ⟨rfl, rfl⟩ | ⟨rfl, rfl⟩ <;> rfl
    · simp [route, reply]
  · intro h1 h2 h3 h4
    simp only [pages, evalRoutes, managementRoutes, List.mem_cons, Prod.mk.injEq, List.not_mem_nil, or_false, not_or] at h1 h2 h3
    obtain ⟨a1, a2, a3, a4⟩ := h1
    obtain ⟨a5, a6⟩ := h2
    obtain ⟨a7, a8, a9, a10, a11, a12⟩ := h3
    simp only [route, if_neg a1, if_neg a2, if_neg a3, if_neg a4, if_neg a5, if_neg a6, if_neg a7, if_neg a8, if_neg a9, if_neg a10, if_neg a11, if_neg a12, if_neg h4, reply]

theorem Spec.Leaves.refl (e : Str × Str) (s : Site) : Leaves e s s := ⟨fun _ => rfl, fun _ => rfl, fun _ => rfl, fun _ => rfl, fun _ => rfl, .inl rfl⟩

theorem withToken_leaves {X : Ext} {request : Str} {token : Option Str} {s : Site} {k : Outcome} {e : Str × Str} (hk : Leaves e s k.2) :
    Leaves e s (withToken X request token s k).2 := by
  rcases withToken_either X request token s k with h | h
  · rw [h]; exact .refl e s
  · rw [h]; exact hk

theorem guarded_leaves {α : Type} {s : Site} {r : Res α} {o : Outcome} {k : α → Outcome} {e : Str × Str} (ho : Leaves e s o.2) (hk : ∀ a, Leaves e s (k a).2) :
    Leaves e s (guarded s r o k).2 := by
  unfold guarded
  split
  · exact hk _
  · exact ho
  · exact .refl e s

theorem evalRequest_counter (X : Ext) (s : Site) (q : EvalRequest) : (evalRequest X s q).2.counter = s.counter + 1 := by
  simp only [evalRequest, evaluateCached]
  cases s.cache.get (HttpCache.Request.key X ⟨q.expression, varsOf X q.arguments, wantsVariables q.includeVariables⟩) with
  | mk o c =>
    cases o with
    | some e => rfl
    | none =>
      cases HttpCache.fresh X s.reg ⟨q.expression, varsOf X q.arguments, wantsVariables q.includeVariables⟩ with
      | ok p => rfl
      | error f => cases f <;> rfl

theorem sendEval_counter (X : Ext) (s : Site) (q : EvalRequest) : (sendEval X s q).2.counter = s.counter + 1 := by
  have h := evalRequest_counter X s q
  unfold sendEval
  cases hr : evalRequest X s q with
  | mk r s' => rw [hr] at h; cases r <;> exact h

theorem sendEval_leaves (X : Ext) (s : Site) (q : EvalRequest) {e : Str × Str} (he : e ∈ evalRoutes) : Leaves e s (sendEval X s q).2 := by
  obtain ⟨h1, h2, _⟩ := sendEval_only X s q
  refine ⟨fun _ => by rw [h1], fun _ => by rw [h1], fun _ => h2, fun h => absurd (List.mem_cons_of_mem _ he) h, fun h => absurd he h, .inr (sendEval_counter X s q)⟩

theorem mkdirs_files : ∀ (cs : List Str) (fs : Fs) (p : Path), (mkdirs fs p cs).1.files = fs.files := by
  intro cs
  induction cs with
  | nil => intro fs p; rfl
  | cons c cs ih =>
    intro fs p
    simp only [mkdirs]
    split
    · exact ih _ _
    · split
      · exact ih _ _
      · split
        · rfl
        · rw [ih]

theorem storeJs_leaves (X : Ext) (H : HttpExt) (cfg : Config) (s : Site) (filename : Str) (code : Option Str) {e : Str × Str} (hf : e ∈ fileRoutes) (hd : e ∈ dirRoutes) :
    Leaves e s (storeJs X H cfg s filename code).2 := by
  unfold storeJs
  split
  · exact .refl e s
  · refine guarded_leaves (.refl e s) fun _ => ?_
    split <;> exact ⟨fun h => absurd hf h, fun h => absurd hd h, fun _ => rfl, fun _ => rfl, fun _ => rfl, .inl rfl⟩

theorem ite_either {p : Prop} [Decidable p] {e : Str × Str} {s : Site} {a b : Outcome} (ha : p → Leaves e s a.2) (hb : ¬ p → Leaves e s b.2) :
    Leaves e s (if p then a else b).2 := by
  by_cases h : p
  · rw [if_pos h]; exact ha h
  · rw [if_neg h]; exact hb h

theorem route_leaves (X : Ext) (H : HttpExt) (cfg : Config) (method path request : Str) (s : Site) :
    Leaves (method, path) s (route X H cfg method path request s).2 := by
  unfold route
  refine ite_either (fun _ => .refl _ s) fun _ => ite_either (fun _ => .refl _ s) fun _ => ite_either (fun _ => .refl _ s) fun _ => ite_either (fun _ => .refl _ s) fun _ =>
    ite_either (fun h5 => ?_) fun _ => ite_either (fun h6 => ?_) fun _ => ite_either (fun h7 => ?_) fun _ => ite_either (fun h8 => ?_) fun _ => ite_either (fun h9 => ?_) fun _ =>
    ite_either (fun h10 => ?_) fun _ => ite_either (fun h11 => ?_) fun _ => ite_either (fun h12 => ?_) fun _ => ite_either (fun _ => .refl _ s) fun _ => .refl _ s
  · obtain ⟨rfl, rfl⟩ := h5
    exact withToken_leaves (guarded_leaves (.refl _ s) fun q => sendEval_leaves X s q (by decide))
  · obtain ⟨rfl, rfl⟩ := h6
    refine withToken_leaves ?_
    split
    · simp only
      split_ifs
      · exact .refl _ s
      · exact sendEval_leaves X s _ (by decide)
      · exact sendEval_leaves X s _ (by decide)
    · exact .refl _ s
  · obtain ⟨rfl, rfl⟩ := h7
    refine withToken_leaves (guarded_leaves (.refl _ s) fun q => ?_)
    split_ifs
    · exact storeJs_leaves X H cfg s _ _ (by decide) (by decide)
    · exact .refl _ s
  · obtain ⟨rfl, rfl⟩ := h8
    refine withToken_leaves (guarded_leaves (.refl _ s) fun q => ?_)
    split_ifs
    · exact .refl _ s
    · exact .refl _ s
    · exact storeJs_leaves X H cfg s _ _ (by decide) (by decide)
  · obtain ⟨rfl, rfl⟩ := h9
    refine withToken_leaves (guarded_leaves (.refl _ s) fun q => ?_)
    split_ifs
    · exact .refl _ s
    · have hd : ∀ r, deleteJs H cfg s.fs q = r → r.1.dirs = s.fs.dirs := by
        rintro _ rfl
        unfold deleteJs
        simp only
        split
        · split_ifs <;> rfl
        · rfl
      split
      all_goals
        rename_i hr
        exact ⟨fun h => absurd (by decide) h, fun _ => hd _ hr, fun _ => rfl, fun _ => rfl, fun _ => rfl, .inl rfl⟩
  · refine withToken_leaves ?_
    split_ifs <;> exact .refl _ s
  · obtain ⟨rfl, rfl⟩ := h11
    refine withToken_leaves ?_
    split_ifs
    · split <;> exact ⟨fun _ => rfl, fun _ => rfl, fun h => absurd (by decide) h, fun _ => rfl, fun _ => rfl, .inl rfl⟩
    · exact .refl _ s
    · have hk : (s.fs.createDirs cfg.cwd cfg.hooksDir).1.files = s.fs.files := mkdirs_files _ _ _
      revert hk
      cases s.fs.createDirs cfg.cwd cfg.hooksDir with
      | mk f b => cases b <;> exact fun hk => ⟨fun _ => hk, fun h => absurd (by decide) h, fun _ => rfl, fun _ => rfl, fun _ => rfl, .inl rfl⟩
  · obtain ⟨rfl, rfl⟩ := h12
    exact withToken_leaves ⟨fun _ => rfl, fun _ => rfl, fun _ => rfl, fun h => absurd (by decide) h, fun _ => rfl, .inl rfl⟩

/-- C110: whatever the query, headers, body, tokens and state: a request changes only what its endpoint may change. -/
theorem C110_changes (X : Ext) (H : HttpExt) (cfg : Config) (s : Site) {method path version : Str} {query : Option Str} (hl : Line method path query version) (rest : Str) :
    Leaves (method, path) s (handle X H cfg (requestText method path query version rest) s).2 := by
  rw [handle_request X H cfg s hl rest]
  exact route_leaves X H cfg method path _ s

/-- The check of a token answers yes or no. -/
theorem passes_ok (X : Ext) (hX : LowersWords X) (request : Str) (token : Option Str) : ∃ b, passes X request token = .ok b := by
  cases token with
  | none => exact ⟨true, rfl⟩
  | some t => exact (C54_passes X hX request t).1

/-- An outcome has one of these statuses, or, where that may happen, none because of a panic. -/
def Answers (l : List Nat) (risky : Bool) (o : Outcome) : Prop := (∃ r, o.1 = some r ∧ r.status ∈ l) ∨ (risky = true ∧ o.1 = none)

theorem withToken_answers {X : Ext} (hX : LowersWords X) {request : Str} {token : Option Str} {s : Site} {k : Outcome} {l : List Nat} {b : Bool} (h401 : 401 ∈ l) (hk : Answers l b k) :
    Answers l b (withToken X request token s k) := by
  obtain ⟨ok, h⟩ := passes_ok X hX request token
  unfold withToken guarded
  rw [h]
  cases ok with
  | true => exact hk
  | false => exact .inl ⟨_, rfl, h401⟩

theorem guarded_answers {α : Type} {s : Site} {r : Res α} {o : Outcome} {k : α → Outcome} {l : List Nat} {b : Bool} (hp : b = true ∨ ∀ p, r ≠ .error (.panic p))
    (ho : Answers l b o) (hk : ∀ a, Answers l b (k a)) : Answers l b (guarded s r o k) := by
  unfold guarded
  split
  · exact hk _
  · exact ho
  · rcases hp with rfl | hp
    · exact .inr ⟨rfl, rfl⟩
    · exact absurd rfl (hp _)

theorem reply_answers {s : Site} {n : Nat} {l : List Nat} {b : Bool} (h : n ∈ l) : Answers l b (reply s n) := .inl ⟨_, rfl, h⟩

theorem sendEval_answers (X : Ext) (s : Site) (q : EvalRequest) : Answers [200, 400, 401] true (sendEval X s q) := by
  unfold sendEval
  cases evalRequest X s q with
  | mk r s' =>
    cases r with
    | error f => exact .inr ⟨rfl, rfl⟩
    | ok r => exact .inl ⟨_, rfl, by simp only; split <;> simp⟩

theorem storeJs_answers (X : Ext) (H : HttpExt) (cfg : Config) (s : Site) (filename : Str) (code : Option Str) {l : List Nat} (h2 : 200 ∈ l) (h4 : 400 ∈ l) (h5 : 500 ∈ l) :
    Answers l true (storeJs X H cfg s filename code) := by
  unfold storeJs
  split
  · exact reply_answers h4
  · refine guarded_answers (.inl rfl) (reply_answers h4) fun _ => ?_
    split
    · exact reply_answers h2
    · exact reply_answers h5

theorem jsonBody_no_panic {α : Type} (decode : Str → Except Str α) (request : Str) (p : String) : jsonBody decode request ≠ .error (.panic p) := by
  unfold jsonBody
  split
  · simp [fail]
  · split <;> simp [fail]

/-- C110: each endpoint answers with one of its statuses, and only an evaluation, an upload or an update can stay without an answer. -/
theorem C110_statuses (X : Ext) (hX : LowersWords X) (H : HttpExt) (cfg : Config) (s : Site) {method path version : Str} {query : Option Str} (hl : Line method path query version) (rest : Str)
    {l : List Nat} (hs : ((method, path), l) ∈ statuses) :
    (∃ r, (handle X H cfg (requestText method path query version rest) s).1 = some r ∧ r.status ∈ l) ∨
    ((method, path) ∈ riskyRoutes ∧ (handle X H cfg (requestText method path query version rest) s).1 = none) := by
  rw [handle_request X H cfg s hl rest]
  generalize requestText method path query version rest = request
  simp only [statuses, List.mem_cons, Prod.mk.injEq, List.not_mem_nil, or_false] at hs
  have key : ∀ b, Answers l b (route X H cfg method path request s) → (b = true → (method, path) ∈ riskyRoutes) →
      (∃ r, (route X H cfg method path request s).1 = some r ∧ r.status ∈ l) ∨ ((method, path) ∈ riskyRoutes ∧ (route X H cfg method path request s).1 = none) := by
    rintro b (h | ⟨h, h'⟩) hb
    · exact .inl h
    · exact .inr ⟨hb h, h'⟩
  rcases hs with h | h | h | h | h | h | h | h | h | h | h | h <;> obtain ⟨⟨rfl, rfl⟩, rfl⟩ := h
  · exact key false (reply_answers (by simp)) (by simp)
  · exact key false (reply_answers (by simp)) (by simp)
  · exact key false (reply_answers (by simp)) (by simp)
  · exact key false (reply_answers (by simp)) (by simp)
  · refine key true ?_ (fun _ => by decide)
    exact withToken_answers hX (by simp) (guarded_answers (.inl rfl) (reply_answers (by simp)) fun q => sendEval_answers X s q)
  · refine key true ?_ (fun _ => by decide)
    refine withToken_answers hX (by simp) ?_
    split
    · simp only
      split_ifs
      · exact reply_answers (by simp)
      · exact sendEval_answers X s _
      · exact sendEval_answers X s _
    · exact reply_answers (by simp)
  · refine key true ?_ (fun _ => by decide)
    refine withToken_answers hX (by simp) (guarded_answers (.inl rfl) (reply_answers (by simp)) fun q => ?_)
    split_ifs
    · exact storeJs_answers X H cfg s _ _ (by simp) (by simp) (by simp)
    · exact reply_answers (by simp)
  · refine key true ?_ (fun _ => by decide)
    refine withToken_answers hX (by simp) (guarded_answers (.inl rfl) (reply_answers (by simp)) fun q => ?_)
    split_ifs
    · exact reply_answers (by simp)
    · exact reply_answers (by simp)
    · exact storeJs_answers X H cfg s _ _ (by simp) (by simp) (by simp)
  · refine key false ?_ (by simp)
    refine withToken_answers hX (by simp) (guarded_answers (.inr fun p => jsonBody_no_panic _ _ p) (reply_answers (by simp)) fun q => ?_)
    split_ifs
    · exact reply_answers (by simp)
    · split
      · exact reply_answers (by simp)
      · exact reply_answers (by simp)
  · refine key false ?_ (by simp)
    refine withToken_answers hX (by simp) ?_
    split_ifs <;> exact reply_answers (by simp)
  · refine key false ?_ (by simp)
    refine withToken_answers hX (by simp) ?_
    split_ifs
    · split
      · exact reply_answers (by simp)
      · exact reply_answers (by simp)
    · exact reply_answers (by simp)
    · split
      · exact reply_answers (by simp)
      · exact reply_answers (by simp)
  · exact key false (withToken_answers hX (by simp) (reply_answers (by simp))) (by simp)

/-- C110: clearing the cache with the right token forgets every stored result and changes nothing else. -/
theorem C110_clears (X : Ext) (H : HttpExt) (cfg : Config) (s : Site) {version : Str} {query : Option Str} (hl : Line c!"DELETE" c!"/cache" query version) (rest : Str)
    (hp : passes X (requestText c!"DELETE" c!"/cache" query version rest) cfg.adminToken = .ok true) :
    ∃ c, handle X H cfg (requestText c!"DELETE" c!"/cache" query version rest) s = (some { status := 200 }, { s with cache := c }) ∧ ∀ k, (c.get k).1 = none := by
  refine ⟨s.cache.clear, ?_, fun k => ?_⟩
  · rw [handle_request X H cfg s hl rest]
    have : ∀ r, route X H cfg c!"DELETE" c!"/cache" r s = clearCache X cfg r s := fun _ => rfl
    rw [this, clearCache, withToken_pass X _ _ s _ hp]
    rfl
  · rfl

/-- C110: an empty request is closed without an answer; a request line of fewer than three words is answered with 400; neither changes anything. -/
theorem C110_malformed (X : Ext) (H : HttpExt) (cfg : Config) (s : Site) :
    handle X H cfg [] s = (none, s) ∧
    ∀ (ws : List Str) (rest : Str), (∀ w ∈ ws, Word w) → ws.length < 3 → handle X H cfg (Str.join c!" " ws ++ c!"\r\n" ++ rest) s = (some { status := 400 }, s) := by
  refine ⟨rfl, fun ws rest hw hn => ?_⟩
  have one : ∀ (w acc : Str), (∀ c ∈ w, Str.isWs c = false) → (Str.splitWsGo acc w).length ≤ 1 := by
    intro w
    induction w with
    | nil => intro acc _; simp only [Str.splitWsGo]; split <;> simp
    | cons c w ih =>
      intro acc h
      simp only [Str.splitWsGo, h c (by simp), Bool.false_eq_true, if_false]
      exact ih _ fun x hx => h x (by simp [hx])
  have hnl : ∀ c ∈ Str.join c!" " ws, c ≠ '\n' := by
    match ws, hw, hn with
    | [], _, _ => simp [Str.join]
    | [a], hw, _ => intro c hc; exact ws_nl ((hw a (by simp)).2 c (by simpa [Str.join] using hc))
    | [a, b], hw, _ =>
      intro c hc
      simp only [Str.join, List.mem_append, List.mem_cons, List.not_mem_nil, or_false] at hc
      rcases hc with (hc | rfl) | hc
      · exact ws_nl ((hw a (by simp)).2 c hc)
      · decide
      · exact ws_nl ((hw b (by simp)).2 c hc)
  have hlen : (Str.splitWs (Str.join c!" " ws)).length < 3 := by
    match ws, hw, hn with
    | [], _, _ => decide
    | [a], hw, _ =>
      have := one a [] (hw a (by simp)).2
      simp only [Str.splitWs, Str.join]
      omega
    | [a, b], hw, _ =>
      have := one b [] (hw b (by simp)).2
      have e : Str.join c!" " [a, b] = a ++ ' ' :: b := by simp [Str.join]
      rw [e, Str.splitWs, splitWsGo_word _ _ (hw a (by simp)).2 _ _ (by decide) (by simpa using (hw a (by simp)).1)]
      simp only [List.length_cons]
      omega
  unfold handle
  rw [lines_crlf _ _ hnl]
  simp only
  match hs : Str.splitWs (Str.join c!" " ws), hlen with
  | [], _ => rfl
  | [_], _ => rfl
  | [_, _], _ => rfl

/-- A request, by its parts. -/
structure Spec.Sent where
  method : Str
  path : Str
  query : Option Str
  version : Str
  rest : Str
  line : Line method path query version

/-- The state after requests have been handled one after the other. -/
def afterAll (X : Ext) (H : HttpExt) (cfg : Config) : List Sent → Site → Site
  | [], s => s
  | q :: qs, s => afterAll X H cfg qs (handle X H cfg (requestText q.method q.path q.query q.version q.rest) s).2

/-- C110: after any number of requests: a part of the state that none of their endpoints may change is what it was, and the counter has grown by at most the number of evaluations. -/
theorem C110_history (X : Ext) (H : HttpExt) (cfg : Config) (s : Site) (qs : List Sent) :
    ((∀ q ∈ qs, (q.method, q.path) ∉ fileRoutes) → (afterAll X H cfg qs s).fs.files = s.fs.files) ∧
    ((∀ q ∈ qs, (q.method, q.path) ∉ dirRoutes) → (afterAll X H cfg qs s).fs.dirs = s.fs.dirs) ∧
    ((∀ q ∈ qs, (q.method, q.path) ∉ functionRoutes) → (afterAll X H cfg qs s).reg = s.reg) ∧
    ((∀ q ∈ qs, (q.method, q.path) ∉ cacheRoutes) → (afterAll X H cfg qs s).cache = s.cache) ∧
    s.counter ≤ (afterAll X H cfg qs s).counter ∧
    (afterAll X H cfg qs s).counter ≤ s.counter + (qs.filter fun q => (q.method, q.path) ∈ evalRoutes).length := by
  induction qs generalizing s with
  | nil => simp [afterAll]
  | cons q qs ih =>
    have hl := C110_changes X H cfg s q.line q.rest
    obtain ⟨i1, i2, i3, i4, i5, i6⟩ := ih (handle X H cfg (requestText q.method q.path q.query q.version q.rest) s).2
    simp only [afterAll, List.forall_mem_cons]
    refine ⟨fun h => (i1 h.2).trans (hl.files h.1), fun h => (i2 h.2).trans (hl.dirs h.1), fun h => (i3 h.2).trans (hl.functions h.1), fun h => (i4 h.2).trans (hl.cache h.1), ?_, ?_⟩
    · rcases hl.one with h | h <;> omega
    · by_cases he : (q.method, q.path) ∈ evalRoutes
      · rw [List.filter_cons_of_pos (by simpa using he), List.length_cons]
        rcases hl.one with h | h <;> omega
      · rw [List.filter_cons_of_neg (by simpa using he)]
        have := hl.counter he
        omega

/-! ### Concrete cases -/

/-- `GET /health?probe=1 HTTP/1.1`. -/
theorem healthLine : Line c!"GET" c!"/health" (some c!"probe=1") c!"HTTP/1.1" :=
  ⟨⟨by decide, by decide⟩, ⟨by decide, by decide⟩, by decide, fun q h => by cases h; decide, ⟨by decide, by decide⟩⟩

/-- `DELETE /cache HTTP/1.1`. -/
theorem cacheLine : Line c!"DELETE" c!"/cache" none c!"HTTP/1.1" :=
  ⟨⟨by decide, by decide⟩, ⟨by decide, by decide⟩, by decide, fun q h => (by cases h), ⟨by decide, by decide⟩⟩

/-- `GET /evaluate HTTP/1.1`: no such endpoint. -/
theorem unknownLine : Line c!"GET" c!"/evaluate" none c!"HTTP/1.1" :=
  ⟨⟨by decide, by decide⟩, ⟨by decide, by decide⟩, by decide, fun q h => (by cases h), ⟨by decide, by decide⟩⟩

example : requestText c!"GET" c!"/health" (some c!"probe=1") c!"HTTP/1.1" c!"Host: a\r\n\r\n" = c!"GET /health?probe=1 HTTP/1.1\r\nHost: a\r\n\r\n" := by decide

example (X : Ext) (H : HttpExt) (cfg : Config) (s : Site) : handle X H cfg c!"GET /health?probe=1 HTTP/1.1\r\nHost: a\r\n\r\n" s = (some { status := 200 }, s) :=
  (C110_pages X H cfg s healthLine c!"Host: a\r\n\r\n").1 (.inl (by decide))

example (X : Ext) (H : HttpExt) (cfg : Config) (s : Site) : handle X H cfg c!"GET /evaluate HTTP/1.1\r\n\r\n" s = (some { status := 404 }, s) :=
  (C110_pages X H cfg s unknownLine c!"\r\n").2 (by decide) (by decide) (by decide) (by decide)

example (X : Ext) (H : HttpExt) (cfg : Config) (s : Site) : (handle X H cfg c!"DELETE /cache HTTP/1.1\r\n\r\n" s).2.fs.files = s.fs.files :=
  (C110_changes X H cfg s cacheLine c!"\r\n").files (by decide)

/-- What the cache endpoint may change it does change. -/
example (X : Ext) (H : HttpExt) (cfg : Config) (s : Site) (hc : cfg.adminToken = none) :
    (handle X H cfg c!"DELETE /cache HTTP/1.1\r\n\r\n" s).2.cache = s.cache.clear := by
  have h := handle_request X H cfg s cacheLine c!"\r\n"
  have e : requestText c!"DELETE" c!"/cache" none c!"HTTP/1.1" c!"\r\n" = c!"DELETE /cache HTTP/1.1\r\n\r\n" := by decide
  rw [e] at h
  rw [h]
  have : route X H cfg c!"DELETE" c!"/cache" c!"DELETE /cache HTTP/1.1\r\n\r\n" s = clearCache X cfg c!"DELETE /cache HTTP/1.1\r\n\r\n" s := rfl
  rw [this, clearCache, hc, withToken_pass X _ none s _ rfl]
  rfl

example (X : Ext) (H : HttpExt) (cfg : Config) (s : Site) : handle X H cfg c!"GET /health\r\n\r\n" s = (some { status := 400 }, s) :=
  (C110_malformed X H cfg s).2 [c!"GET", c!"/health"] c!"\r\n" (by
    intro w hw
    rcases List.mem_cons.1 hw with rfl | hw
    · exact ⟨by decide, by decide⟩
    · rw [List.mem_singleton.1 hw]; exact ⟨by decide, by decide⟩) (by decide)

example (X : Ext) (H : HttpExt) (cfg : Config) (s : Site) :
    (afterAll X H cfg [⟨_, _, _, _, c!"\r\n", healthLine⟩, ⟨_, _, _, _, c!"\r\n", cacheLine⟩] s).reg = s.reg :=
  (C110_history X H cfg s _).2.2.1 (by decide)

end Http
