import Verif.Model.Health
import Verif.Props.HttpRoutes
import Verif.Lemmas.Double
/-! C122: the health report. -/

namespace Health
open Http Http.Spec

namespace Spec

/-- A request and the time its evaluation takes. -/
structure Visit where
  sent : Sent
  micros : Nat

/-- The text of the request. -/
def Visit.text (v : Visit) : Str := requestText v.sent.method v.sent.path v.sent.query v.sent.version v.sent.rest

/-- The answers to requests handled one after the other, with the times, and the server afterwards. -/
def serve (X : Ext) (H : HttpExt) (cfg : Config) : List Visit → Live → List (Answer × Nat) × Live
  | [], l => ([], l)
  | v :: vs, l =>
    let (a, l) := l.visit X H cfg v.text v.micros
    let (as, l) := serve X H cfg vs l
    ((a, v.micros) :: as, l)

/-- Is the answer the result of an evaluation, good or bad? -/
def isEvaluation (a : Answer × Nat) : Bool :=
  match a.1.reply with
  | some r => r.eval.isSome
  | none => false

/-- Was the connection closed without an answer? -/
def isLost (a : Answer × Nat) : Bool := a.1.reply.isNone

/-- The number of evaluations answered. -/
def evaluations (as : List (Answer × Nat)) : Nat := (as.filter isEvaluation).length

/-- The time they took. -/
def time (as : List (Answer × Nat)) : Nat := ((as.filter isEvaluation).map (·.2)).sum

/-- The number of connections closed without an answer. -/
def lost (as : List (Answer × Nat)) : Nat := (as.filter isLost).length

/-- Does the visit ask for the cache to be cleared? -/
def asksClear (v : Visit) : Prop := v.sent.method = c!"DELETE" ∧ v.sent.path = c!"/cache"

end Spec

open Health.Spec

/-! ### One request -/

/-- What a request can do, as far as the report is concerned. -/
def Does (X : Ext) (s : Site) (e : Str × Str) (o : Outcome) : Prop :=
  (o.2.cache = s.cache ∧ recorded o.1 = false) ∨
  (e = (c!"DELETE", c!"/cache") ∧ o = (some { status := 200 }, { s with cache := s.cache.clear })) ∨
  ∃ q, o = sendEval X s q

theorem Does.reply {X : Ext} {s s' : Site} {e : Str × Str} (n : Nat) (h : s'.cache = s.cache) : Does X s e (Http.reply s' n) := .inl ⟨h, rfl⟩

theorem guarded_does {α : Type} {X : Ext} {s : Site} {r : Res α} {o : Outcome} {k : α → Outcome} {e : Str × Str} (ho : Does X s e o) (hk : ∀ a, Does X s e (k a)) :
    Does X s e (guarded s r o k) := by
  unfold guarded
  split
  · exact hk _
  · exact ho
  · exact .inl ⟨rfl, rfl⟩

theorem ite_does {p : Prop} [Decidable p] {X : Ext} {s : Site} {e : Str × Str} {a b : Outcome} (ha : p → Does X s e a) (hb : ¬ p → Does X s e b) :
    Does X s e (if p then a else b) := by
  by_cases h : p
  · rw [if_pos h]; exact ha h
  · rw [if_neg h]; exact hb h

theorem withToken_does {X : Ext} {request : Str} {token : Option Str} {s : Site} {k : Outcome} {e : Str × Str} (hk : Does X s e k) :
    Does X s e (withToken X request token s k) :=
  guarded_does (.reply 500 rfl) fun ok => by cases ok; exacts [.reply 401 rfl, hk]

theorem storeJs_does (X : Ext) (H : HttpExt) (cfg : Config) (s : Site) (filename : Str) (code : Option Str) {e : Str × Str} : Does X s e (storeJs X H cfg s filename code) := by
  unfold storeJs
  split
  · exact .reply _ rfl
  · refine guarded_does (.reply _ rfl) fun _ => ?_
    split <;> exact .reply _ rfl

theorem route_does (X : Ext) (H : HttpExt) (cfg : Config) (method path request : Str) (s : Site) :
    Does X s (method, path) (route X H cfg method path request s) := by
  unfold route
  refine ite_does (fun _ => .reply _ rfl) fun _ => ite_does (fun _ => .reply _ rfl) fun _ => ite_does (fun _ => .reply _ rfl) fun _ => ite_does (fun _ => .reply _ rfl) fun _ =>
    ite_does (fun h5 => ?_) fun _ => ite_does (fun h6 => ?_) fun _ => ite_does (fun h7 => ?_) fun _ => ite_does (fun h8 => ?_) fun _ => ite_does (fun h9 => ?_) fun _ =>
    ite_does (fun h10 => ?_) fun _ => ite_does (fun h11 => ?_) fun _ => ite_does (fun h12 => ?_) fun _ => ite_does (fun _ => .reply _ rfl) fun _ => .reply _ rfl
  · exact withToken_does (guarded_does (.reply _ rfl) fun q => .inr (.inr ⟨q, rfl⟩))
  · refine withToken_does ?_
    split
    · exact ite_does (fun _ => .reply _ rfl) fun _ => .inr (.inr ⟨_, rfl⟩)
    · exact .reply _ rfl
  · exact withToken_does (guarded_does (.reply _ rfl) fun q => ite_does (fun _ => storeJs_does X H cfg s _ _) fun _ => .reply _ rfl)
  · exact withToken_does (guarded_does (.reply _ rfl) fun q => ite_does (fun _ => .reply _ rfl) fun _ => ite_does (fun _ => .reply _ rfl) fun _ => storeJs_does X H cfg s _ _)
  · refine withToken_does (guarded_does (.reply _ rfl) fun q => ite_does (fun _ => .reply _ rfl) fun _ => ?_)
    split <;> exact .reply _ rfl
  · exact withToken_does (ite_does (fun _ => .reply _ rfl) fun _ => .reply _ rfl)
  · refine withToken_does (ite_does (fun _ => ite_does (fun _ => ?_) fun _ => .reply _ rfl) fun _ => ?_)
    · split <;> exact .reply _ rfl
    · split <;> exact .reply _ rfl
  · exact withToken_does (.inr (.inl ⟨by rw [h12.1, h12.2], rfl⟩))

/-- An evaluation looks into the cache once, and stores only after a miss. -/
theorem sendEval_cache (X : Ext) (s : Site) (q : EvalRequest) :
    ∃ k, (sendEval X s q).2.cache = (s.cache.get k).2 ∨ ((s.cache.get k).1 = none ∧ ∃ e, (sendEval X s q).2.cache = ((s.cache.get k).2).put k e) := by
  have h : ∃ k, (evalRequest X s q).2.cache = (s.cache.get k).2 ∨ ((s.cache.get k).1 = none ∧ ∃ e, (evalRequest X s q).2.cache = ((s.cache.get k).2).put k e) := by
    refine ⟨HttpCache.Request.key X ⟨q.expression, varsOf X q.arguments, wantsVariables q.includeVariables⟩, ?_⟩
    simp only [evalRequest, evaluateCached]
    cases hg : s.cache.get (HttpCache.Request.key X ⟨q.expression, varsOf X q.arguments, wantsVariables q.includeVariables⟩) with
    | mk o c =>
      cases o with
      | some e => exact .inl rfl
      | none =>
        cases hf : HttpCache.fresh X s.reg ⟨q.expression, varsOf X q.arguments, wantsVariables q.includeVariables⟩ with
        | ok p => exact .inr ⟨rfl, _, rfl⟩
        | error f => cases f <;> exact .inl rfl
  unfold sendEval
  cases hr : evalRequest X s q with
  | mk r s' => rw [hr] at h; cases r <;> exact h

/-- The answer is an evaluation, or the worker died. -/
theorem sendEval_reply (X : Ext) (s : Site) (q : EvalRequest) : recorded (sendEval X s q).1 = true ∨ (sendEval X s q).1 = none := by
  unfold sendEval
  cases hr : evalRequest X s q with
  | mk r s' => cases r <;> simp [recorded]

/-- How often the cache has been looked into. -/
def lookups (l : Live) : Nat := l.site.cache.stats.hits + l.site.cache.stats.misses

theorem get_lookups (c : HttpCache.Cache) (k : Str) : (c.get k).2.stats.hits + (c.get k).2.stats.misses = c.stats.hits + c.stats.misses + 1 := by
  unfold HttpCache.Cache.get
  split <;> simp only <;> omega

theorem put_lookups (c : HttpCache.Cache) (k : Str) (e : HttpCache.Entry) : (c.put k e).stats.hits = c.stats.hits ∧ (c.put k e).stats.misses = c.stats.misses := ⟨rfl, rfl⟩

theorem sendEval_lookups (X : Ext) (s : Site) (q : EvalRequest) :
    (sendEval X s q).2.cache.stats.hits + (sendEval X s q).2.cache.stats.misses = s.cache.stats.hits + s.cache.stats.misses + 1 := by
  obtain ⟨k, h | ⟨_, e, h⟩⟩ := sendEval_cache X s q
  · rw [h, get_lookups]
  · rw [h, (put_lookups _ k e).1, (put_lookups _ k e).2, get_lookups]

/-! ### What the cache's numbers can be -/

/-- The numbers of a cache of the server. -/
structure Fits (c : HttpCache.Cache) : Prop where
  cap : c.cap = 1000
  items : c.items.length ≤ c.stats.misses
  room : c.items.length ≤ 1000
  stored : c.stats.entries ≤ c.stats.misses
  small : c.stats.entries ≤ 1000
  first : 0 < c.stats.hits → 0 < c.stats.misses

theorem fits_new : Fits (.new 1000) := ⟨rfl, by simp [HttpCache.Cache.new], by simp [HttpCache.Cache.new], by simp [HttpCache.Cache.new], by simp [HttpCache.Cache.new], by simp [HttpCache.Cache.new]⟩

theorem find_without {k : Str} : ∀ {l : List (Str × HttpCache.Entry)} {e : HttpCache.Entry}, HttpCache.find k l = some e → (HttpCache.without k l).length + 1 ≤ l.length := by
  intro l
  induction l with
  | nil => intro e h; cases h
  | cons p l ih =>
    intro e h
    obtain ⟨k', e'⟩ := p
    unfold HttpCache.find at h
    by_cases hk : k' = k
    · have : (HttpCache.without k l).length ≤ l.length := List.length_filter_le _ _
      have e2 : HttpCache.without k ((k', e') :: l) = HttpCache.without k l := by simp [HttpCache.without, hk]
      rw [e2, List.length_cons]
      omega
    · rw [if_neg hk] at h
      have := ih h
      have e2 : HttpCache.without k ((k', e') :: l) = (k', e') :: HttpCache.without k l := by simp [HttpCache.without, hk]
      rw [e2, List.length_cons, List.length_cons]
      omega

theorem fits_get {c : HttpCache.Cache} (h : Fits c) (k : Str) : Fits (c.get k).2 := by
  obtain ⟨h1, h2, h3, h4, h5, h6⟩ := h
  unfold HttpCache.Cache.get
  cases hf : HttpCache.find k c.items with
  | some e =>
    have := find_without hf
    refine ⟨h1, ?_, ?_, h4, h5, ?_⟩
    · simp only [List.length_cons]; omega
    · simp only [List.length_cons]; omega
    · simp only; omega
  | none => exact ⟨h1, by simp only; omega, h3, by simp only; omega, h5, by simp only; omega⟩

theorem fits_put {c : HttpCache.Cache} (h : Fits c) {k : Str} (hn : (c.get k).1 = none) (e : HttpCache.Entry) : Fits ((c.get k).2.put k e) := by
  have hf : HttpCache.find k c.items = none := by
    unfold HttpCache.Cache.get at hn
    cases hf : HttpCache.find k c.items with
    | some e => rw [hf] at hn; cases hn
    | none => rfl
  have hg : (c.get k).2 = { c with stats := { c.stats with misses := c.stats.misses + 1 } } := by
    unfold HttpCache.Cache.get
    rw [hf]
  obtain ⟨h1, h2, h3, h4, h5, h6⟩ := h
  have hp : ((c.get k).2.put k e).items = (k, e) :: if c.items.length = 1000 then c.items.dropLast else c.items := by
    rw [hg]
    simp only [HttpCache.Cache.put, HttpCache.lruPut, hf, h1]
  have hs : ((c.get k).2.put k e).stats.entries = ((c.get k).2.put k e).items.length := rfl
  have hm : ((c.get k).2.put k e).stats.misses = c.stats.misses + 1 := by rw [hg]; rfl
  have hh : ((c.get k).2.put k e).stats.hits = c.stats.hits := by rw [hg]; rfl
  have hl : ((c.get k).2.put k e).items.length ≤ c.stats.misses + 1 ∧ ((c.get k).2.put k e).items.length ≤ 1000 := by
    rw [hp]
    by_cases hc : c.items.length = 1000
    · rw [if_pos hc, List.length_cons, List.length_dropLast]; omega
    · rw [if_neg hc, List.length_cons]; omega
  refine ⟨by rw [hg]; exact h1, by rw [hm]; exact hl.1, hl.2, by rw [hs, hm]; exact hl.1, by rw [hs]; exact hl.2, fun _ => by rw [hm]; omega⟩

theorem fits_sendEval {X : Ext} {s : Site} (h : Fits s.cache) (q : EvalRequest) : Fits (sendEval X s q).2.cache := by
  obtain ⟨k, hk | ⟨hn, e, hk⟩⟩ := sendEval_cache X s q
  · rw [hk]; exact fits_get h k
  · rw [hk]; exact fits_put h hn e

/-! ### Any number of requests -/

theorem visit_handle (X : Ext) (H : HttpExt) (cfg : Config) (l : Live) (v : Visit) :
    Does X l.site (v.sent.method, v.sent.path) (handle X H cfg v.text l.site) := by
  unfold Visit.text
  rw [handle_request X H cfg l.site v.sent.line v.sent.rest]
  exact route_does X H cfg _ _ _ _

theorem visit_fits (X : Ext) (H : HttpExt) (cfg : Config) {l : Live} (h : Fits l.site.cache) (v : Visit) : Fits (l.visit X H cfg v.text v.micros).2.site.cache := by
  have hd := visit_handle X H cfg l v
  unfold Live.visit
  cases ho : handle X H cfg v.text l.site with
  | mk r s =>
    rw [ho] at hd
    simp only
    rcases hd with ⟨h1, _⟩ | ⟨_, h1⟩ | ⟨q, h1⟩
    · simp only at h1; rw [h1]; exact h
    · cases h1
      have : l.site.cache.clear = .new 1000 := by simp only [HttpCache.Cache.clear, h.cap]
      simp only [this]; exact fits_new
    · have := fits_sendEval (X := X) h q
      rw [← h1] at this
      exact this

theorem serve_fits (X : Ext) (H : HttpExt) (cfg : Config) : ∀ (vs : List Visit) (l : Live), Fits l.site.cache → Fits (serve X H cfg vs l).2.site.cache
  | [], _, h => h
  | v :: vs, l, h => serve_fits X H cfg vs _ (visit_fits X H cfg h v)

theorem visit_counters (X : Ext) (H : HttpExt) (cfg : Config) (l : Live) (v : Visit) :
    (l.visit X H cfg v.text v.micros).2.counters =
      if isEvaluation ((l.visit X H cfg v.text v.micros).1, v.micros) then ⟨(l.counters.count + 1) % 2 ^ 64, (l.counters.total + v.micros) % 2 ^ 64⟩ else l.counters := by
  unfold Live.visit
  cases ho : handle X H cfg v.text l.site with
  | mk r s => cases r <;> rfl

theorem serve_counters (X : Ext) (H : HttpExt) (cfg : Config) : ∀ (vs : List Visit) (l : Live), l.counters.count < 2 ^ 64 → l.counters.total < 2 ^ 64 →
    (serve X H cfg vs l).2.counters =
      ⟨(l.counters.count + evaluations (serve X H cfg vs l).1) % 2 ^ 64, (l.counters.total + time (serve X H cfg vs l).1) % 2 ^ 64⟩
  | [], l, h1, h2 => by
    simp only [serve, evaluations, time, List.filter_nil, List.length_nil, List.map_nil, List.sum_nil, Nat.add_zero, Nat.mod_eq_of_lt h1, Nat.mod_eq_of_lt h2]
  | v :: vs, l, h1, h2 => by
    have hc := visit_counters X H cfg l v
    have hb : (l.visit X H cfg v.text v.micros).2.counters.count < 2 ^ 64 ∧ (l.visit X H cfg v.text v.micros).2.counters.total < 2 ^ 64 := by
      rw [hc]
      split
      · exact ⟨Nat.mod_lt _ (by norm_num), Nat.mod_lt _ (by norm_num)⟩
      · exact ⟨h1, h2⟩
    have ih := serve_counters X H cfg vs (l.visit X H cfg v.text v.micros).2 hb.1 hb.2
    simp only [serve]
    rw [ih, hc]
    by_cases he : isEvaluation ((l.visit X H cfg v.text v.micros).1, v.micros) = true
    · simp only [evaluations, time, List.filter_cons_of_pos he, if_pos he, List.length_cons, List.map_cons, List.sum_cons, Nat.mod_add_mod]
      congr 2 <;> omega
    · simp only [evaluations, time, List.filter_cons_of_neg he, if_neg he]

theorem visit_lookups (X : Ext) (H : HttpExt) (cfg : Config) (l : Live) (v : Visit) (hv : ¬ asksClear v) :
    let r := l.visit X H cfg v.text v.micros
    (isEvaluation (r.1, v.micros) = true ∧ isLost (r.1, v.micros) = false ∧ lookups r.2 = lookups l + 1) ∨
    (isEvaluation (r.1, v.micros) = false ∧ isLost (r.1, v.micros) = true ∧ (lookups r.2 = lookups l ∨ lookups r.2 = lookups l + 1)) ∨
    (isEvaluation (r.1, v.micros) = false ∧ isLost (r.1, v.micros) = false ∧ lookups r.2 = lookups l) := by
  have hd := visit_handle X H cfg l v
  unfold Live.visit
  cases ho : handle X H cfg v.text l.site with
  | mk r s =>
    rw [ho] at hd
    dsimp only
    rcases hd with ⟨h1, h2⟩ | ⟨h0, _⟩ | ⟨q, h1⟩
    · dsimp only at h1 h2
      cases r with
      | none => exact .inr (.inl ⟨rfl, rfl, .inl (by unfold lookups; rw [h1])⟩)
      | some r => exact .inr (.inr ⟨h2, rfl, by unfold lookups; rw [h1]⟩)
    · exact absurd ⟨congrArg Prod.fst h0, congrArg Prod.snd h0⟩ hv
    · have hl := sendEval_lookups X l.site q
      have hr := sendEval_reply X l.site q
      rw [← h1] at hl hr
      dsimp only at hl hr
      cases r with
      | none => exact .inr (.inl ⟨rfl, rfl, .inr hl⟩)
      | some r =>
        rcases hr with hr | hr
        · exact .inl ⟨hr, rfl, hl⟩
        · cases hr

theorem serve_lookups (X : Ext) (H : HttpExt) (cfg : Config) : ∀ (vs : List Visit) (l : Live), (∀ v ∈ vs, ¬ asksClear v) →
    lookups l + evaluations (serve X H cfg vs l).1 ≤ lookups (serve X H cfg vs l).2 ∧
    lookups (serve X H cfg vs l).2 ≤ lookups l + evaluations (serve X H cfg vs l).1 + lost (serve X H cfg vs l).1
  | [], _, _ => by simp [serve, evaluations, lost]
  | v :: vs, l, h => by
    have ih := serve_lookups X H cfg vs (l.visit X H cfg v.text v.micros).2 (fun w hw => h w (by simp [hw]))
    have hv := visit_lookups X H cfg l v (h v (by simp))
    simp only [serve]
    simp only [evaluations, lost] at ih ⊢
    rcases hv with ⟨h1, h2, h3⟩ | ⟨h1, h2, h3⟩ | ⟨h1, h2, h3⟩
    · rw [List.filter_cons_of_pos h1, List.filter_cons_of_neg (by simp [h2]), List.length_cons]
      omega
    · rw [List.filter_cons_of_neg (by simp [h1]), List.filter_cons_of_pos h2, List.length_cons]
      omega
    · rw [List.filter_cons_of_neg (by simp [h1]), List.filter_cons_of_neg (by simp [h2])]
      omega

/-! ### C122 -/

/-- C122: the report needs no token, whatever tokens the server and the request have, and asking for it changes nothing. It shows the server as it is. -/
theorem C122_open (X : Ext) (H : HttpExt) (cfg : Config) (l : Live) {version : Str} {query : Option Str} (hl : Line c!"GET" c!"/health" query version) (rest : Str) (micros : Nat) :
    l.visit X H cfg (requestText c!"GET" c!"/health" query version rest) micros = (⟨some { status := 200 }, some l.report⟩, l) := by
  have h := (C110_pages X H cfg l.site hl rest).1 (.inl (by decide))
  have ha : asksHealth (requestText c!"GET" c!"/health" query version rest) = true := by
    obtain ⟨first, target, hlines, hwords, hhead⟩ := request_words hl rest
    unfold asksHealth
    rw [hlines]
    simp only [hwords, hhead]
    decide
  unfold Live.visit
  rw [h, ha]
  rfl

/-- C122: after any requests to a server that has just started, the report counts the evaluations that were answered, whether they succeeded or not, and nothing else, and gives
their average time. Both totals are numbers of 64 bits. -/
theorem C122_requests (X : Ext) (H : HttpExt) (cfg : Config) (fs : Fs) (reg : Registry) (vs : List Visit) :
    let r := serve X H cfg vs (.start fs reg)
    r.2.report.requests = evaluations r.1 % 2 ^ 64 ∧ r.2.report.average = Stats.average (evaluations r.1 % 2 ^ 64) (time r.1 % 2 ^ 64) := by
  have h := serve_counters X H cfg vs (.start fs reg) (by simp [Live.start, Stats.Server.start]) (by simp [Live.start, Stats.Server.start])
  dsimp only [Live.report]
  rw [h]
  simp [Live.start, Stats.Server.start]

/-- C122: while nobody asks for the cache to be cleared, every evaluation answered adds one to the hits or to the misses; so may an evaluation whose worker died, and nothing
else does. -/
theorem C122_lookups (X : Ext) (H : HttpExt) (cfg : Config) (l : Live) (vs : List Visit) (h : ∀ v ∈ vs, ¬ asksClear v) :
    let r := serve X H cfg vs l
    l.report.hits + l.report.misses + evaluations r.1 ≤ r.2.report.hits + r.2.report.misses ∧
    r.2.report.hits + r.2.report.misses ≤ l.report.hits + l.report.misses + evaluations r.1 + lost r.1 :=
  serve_lookups X H cfg vs l h

/-- C122: if every request was answered, hits and misses together are the requests processed. -/
theorem C122_together (X : Ext) (H : HttpExt) (cfg : Config) (fs : Fs) (reg : Registry) (vs : List Visit) (h : ∀ v ∈ vs, ¬ asksClear v)
    (hl : lost (serve X H cfg vs (.start fs reg)).1 = 0) (hn : vs.length < 2 ^ 64) :
    let r := (serve X H cfg vs (.start fs reg)).2.report
    r.hits + r.misses = r.requests := by
  have h1 := C122_lookups X H cfg (.start fs reg) vs h
  have h2 := (C122_requests X H cfg fs reg vs).1
  have h3 : evaluations (serve X H cfg vs (.start fs reg)).1 ≤ vs.length := by
    have : ∀ (vs : List Visit) (l : Live), (serve X H cfg vs l).1.length = vs.length := by
      intro vs
      induction vs with
      | nil => intro l; rfl
      | cons v vs ih => intro l; simp [serve, ih]
    rw [← this vs (.start fs reg)]
    exact List.length_filter_le _ _
  have h4 : (Live.start fs reg).report.hits = 0 ∧ (Live.start fs reg).report.misses = 0 := ⟨rfl, rfl⟩
  dsimp only at h1 h2 ⊢
  rw [Nat.mod_eq_of_lt (by omega)] at h2
  omega

/-- C122: clearing the cache with the right token sets the numbers of the cache to zero, and leaves the requests and their time. -/
theorem C122_clear (X : Ext) (H : HttpExt) (cfg : Config) (l : Live) {version : Str} {query : Option Str} (hl : Line c!"DELETE" c!"/cache" query version) (rest : Str) (micros : Nat)
    (hp : passes X (requestText c!"DELETE" c!"/cache" query version rest) cfg.adminToken = .ok true) :
    (l.visit X H cfg (requestText c!"DELETE" c!"/cache" query version rest) micros).2.report =
      ⟨l.report.requests, l.report.average, 0, 0, .zero false, 0, 0⟩ := by
  have : handle X H cfg (requestText c!"DELETE" c!"/cache" query version rest) l.site = (some { status := 200 }, { l.site with cache := l.site.cache.clear }) := by
    rw [handle_request X H cfg l.site hl rest]
    have : ∀ r, route X H cfg c!"DELETE" c!"/cache" r l.site = clearCache X cfg r l.site := fun _ => rfl
    rw [this, clearCache, withToken_pass X _ _ l.site _ hp]
    rfl
  unfold Live.visit
  rw [this]
  rfl

/-- The hit rate of numbers that a float holds exactly. -/
theorem hitRate_div {h m : Nat} (h0 : 0 < h) (hn : h + m ≤ 2 ^ 53) : hitRate h m = F64.round ((h : ℚ) / (h + m : ℕ)) := by
  have e : ∀ n : ℕ, 0 < n → n ≤ 2 ^ 53 → F64.ofNat n = .fin n := fun n hn hb => by
    unfold F64.ofNat
    rw [F64.ofInt_exact n (by rw [abs_of_nonneg (by omega)]; exact_mod_cast hb)]
    unfold F64.ofIntExact
    rw [if_neg (by exact_mod_cast hn.ne')]
    norm_cast
  unfold hitRate
  rw [if_neg (by omega), e h h0 (by omega), e (h + m) (by omega) hn]
  rfl

/-- C122: the hit rate after any requests: 0 without hits, otherwise hits divided by lookups, rounded to the nearest float. It is at least 0 and always below 1, because what is found
in the cache was once missed. There are never more entries than misses, nor more than 1000. -/
theorem C122_rate (X : Ext) (H : HttpExt) (cfg : Config) (fs : Fs) (reg : Registry) (vs : List Visit) :
    let r := (serve X H cfg vs (.start fs reg)).2.report
    r.entries ≤ r.misses ∧ r.entries ≤ 1000 ∧ (0 < r.hits → 0 < r.misses) ∧
    (r.hits = 0 → r.hits + r.misses ≤ 2 ^ 53 → r.hitRate = .zero false) ∧
    (0 < r.hits → r.hits + r.misses ≤ 2 ^ 53 → _root_.Spec.IsRounded ((r.hits : ℚ) / (r.hits + r.misses : ℕ)) r.hitRate) ∧
    (r.hits + r.misses ≤ 2 ^ 53 → F64.fle (.zero false) r.hitRate = true ∧ F64.flt r.hitRate (.fin 1) = true) := by
  have hf := serve_fits X H cfg vs (.start fs reg) fits_new
  generalize (serve X H cfg vs (.start fs reg)).2 = l at hf
  obtain ⟨_, _, _, h4, h5, h6⟩ := hf
  have zero : l.site.cache.stats.hits = 0 → l.site.cache.stats.hits + l.site.cache.stats.misses ≤ 2 ^ 53 → hitRate l.site.cache.stats.hits l.site.cache.stats.misses = .zero false := by
    intro h hn
    unfold hitRate
    by_cases h0 : l.site.cache.stats.hits + l.site.cache.stats.misses = 0
    · rw [if_pos h0]
    · rw [if_neg h0, h]
      rw [h] at hn h0
      unfold F64.ofNat
      rw [F64.ofInt_exact ((0 : ℕ) : ℤ) (by norm_num), F64.ofInt_exact _ (by rw [abs_of_nonneg (by omega)]; exact_mod_cast hn)]
      unfold F64.ofIntExact
      rw [if_pos (by norm_num), if_neg (by exact_mod_cast h0)]
      have : ¬ ((0 + l.site.cache.stats.misses : ℕ) : ℤ) < 0 := by omega
      simp [F64.div, F64.signBit]
  refine ⟨h4, h5, h6, zero, ?_, ?_⟩
  · intro h hn
    have h : 0 < l.site.cache.stats.hits := h
    have hn : l.site.cache.stats.hits + l.site.cache.stats.misses ≤ 2 ^ 53 := hn
    show _root_.Spec.IsRounded ((l.site.cache.stats.hits : ℚ) / (l.site.cache.stats.hits + l.site.cache.stats.misses : ℕ)) (hitRate _ _)
    rw [hitRate_div h hn]
    refine F64.round_isRounded ?_ _
    have : (0 : ℚ) < (l.site.cache.stats.hits : ℚ) / (l.site.cache.stats.hits + l.site.cache.stats.misses : ℕ) := div_pos (by exact_mod_cast h) (by exact_mod_cast (by omega))
    exact this.ne'
  · intro hn
    show F64.fle _ (hitRate _ _) = true ∧ F64.flt (hitRate _ _) _ = true
    have hn : l.site.cache.stats.hits + l.site.cache.stats.misses ≤ 2 ^ 53 := hn
    by_cases h : l.site.cache.stats.hits = 0
    · rw [zero h hn]; decide +kernel
    · have h0 : 0 < l.site.cache.stats.hits := by omega
      have hm := h6 h0
      rw [hitRate_div h0 hn]
      generalize l.site.cache.stats.hits = a at *
      generalize l.site.cache.stats.misses = b at *
      have hpos : (0 : ℚ) ≤ (a : ℚ) / (a + b : ℕ) := by positivity
      have hlt : (a : ℚ) / (a + b : ℕ) ≤ 1 - 1 / 2 ^ 53 := by
        have hc : (0 : ℚ) < (a + b : ℕ) := by exact_mod_cast (by omega)
        rw [div_le_iff₀ hc]
        have h1 : ((a + b : ℕ) : ℚ) ≤ 2 ^ 53 := by exact_mod_cast hn
        have h2 : (1 : ℚ) ≤ b := by exact_mod_cast hm
        push_cast at h1 ⊢
        have : ((a : ℚ) + b) * (1 / 2 ^ 53) ≤ 1 := by
          rw [mul_one_div, div_le_one (by positivity)]; exact h1
        linarith
      have k1 := F64.le_key_round F64.isBin64_zero hpos false
      have k2 := F64.key_round_le (w := 1 - 1 / 2 ^ 53) ⟨2 ^ 53 - 1, -53, by norm_num, by norm_num, by norm_num, by norm_num⟩ hlt false
      have nn := F64.round_ne_nan ((a : ℚ) / (a + b : ℕ)) false
      refine ⟨(F64.fle_iff _ _).2 ⟨by simp, nn, ?_⟩, (F64.flt_iff _ _).2 ⟨nn, by simp, lt_of_le_of_lt k2 ?_⟩⟩
      · exact k1
      · unfold F64.key
        rw [Prod.Lex.toLex_lt_toLex]
        right
        simp [F64.rank, F64.toRat]

end Health
namespace Health
open Http Http.Spec Health.Spec

/-! ### The same request again -/

/-- The request is refused in every state, or evaluates the same expression in every state. -/
def Planned (X : Ext) (f : Site → Outcome) : Prop := (∀ s r, (f s).1 = some r → r.status ≠ 200) ∨ ∃ q, ∀ s, f s = sendEval X s q

theorem planned_reply (X : Ext) (n : Nat) (h : n ≠ 200) : Planned X fun s => Http.reply s n := .inl fun s r hr => by cases hr; exact h

theorem planned_guarded {α : Type} (X : Ext) (r : Res α) (n : Nat) (hn : n ≠ 200) (k : Site → α → Outcome) (hk : ∀ a, Planned X fun s => k s a) :
    Planned X fun s => guarded s r (Http.reply s n) (k s) := by
  cases r with
  | ok a => exact hk a
  | error f =>
    cases f with
    | err m a p => exact planned_reply X n hn
    | panic p => exact .inl fun s r hr => by cases hr

theorem planned_token (X : Ext) (request : Str) (token : Option Str) (k : Site → Outcome) (hk : Planned X k) : Planned X fun s => withToken X request token s (k s) :=
  planned_guarded X (passes X request token) 500 (by norm_num) (fun s ok => if ok then k s else Http.reply s 401) fun ok => by
    cases ok
    · exact planned_reply X 401 (by norm_num)
    · exact hk

theorem evalPost_planned (X : Ext) (H : HttpExt) (cfg : Config) (request : Str) : Planned X (evalPost X H cfg request) :=
  planned_token X request cfg.authToken _ (planned_guarded X _ 400 (by norm_num) _ fun q => .inr ⟨q, fun _ => rfl⟩)

theorem evalGet_planned (X : Ext) (cfg : Config) (request : Str) : Planned X (evalGet X cfg request) := by
  refine planned_token X request cfg.authToken _ ?_
  cases Str.splitWs ((Str.lines request).headD []) with
  | nil => exact planned_reply X 400 (by norm_num)
  | cons m ps =>
    cases ps with
    | nil => exact planned_reply X 400 (by norm_num)
    | cons path ps =>
      dsimp only
      generalize (queryParams _ _) = q
      by_cases hq : q.expression.isEmpty = true
      · simp only [if_pos hq]; exact planned_reply X 400 (by norm_num)
      · simp only [if_neg hq]; exact .inr ⟨_, fun _ => rfl⟩

theorem sendEval_again (X : Ext) (s : Site) (q : EvalRequest) {r : Reply} (h : (sendEval X s q).1 = some r) (hr : r.status = 200) :
    ∃ r', (sendEval X (sendEval X s q).2 q).1 = some r' ∧ r'.status = 200 ∧
      (sendEval X (sendEval X s q).2 q).2.cache.stats.hits = (sendEval X s q).2.cache.stats.hits + 1 ∧
      (sendEval X (sendEval X s q).2 q).2.cache.stats.misses = (sendEval X s q).2.cache.stats.misses := by
  obtain ⟨k, hk⟩ : ∃ k, k = HttpCache.Request.key X ⟨q.expression, varsOf X q.arguments, wantsVariables q.includeVariables⟩ := ⟨_, rfl⟩
  have hit : ∀ (s : Site) (e : HttpCache.Entry), HttpCache.find k s.cache.items = some e →
      ∃ r', (sendEval X s q).1 = some r' ∧ r'.status = 200 ∧ (sendEval X s q).2.cache.stats.hits = s.cache.stats.hits + 1 ∧ (sendEval X s q).2.cache.stats.misses = s.cache.stats.misses := by
    intro s e he
    simp only [sendEval, evalRequest, evaluateCached, HttpCache.Cache.get, ← hk, he, if_true]
    exact ⟨_, rfl, rfl, trivial, trivial⟩
  suffices hs : ∃ e, HttpCache.find k (sendEval X s q).2.cache.items = some e by
    obtain ⟨e, he⟩ := hs
    exact hit _ e he
  revert h
  cases he : HttpCache.find k s.cache.items with
  | some e =>
    intro _
    simp only [sendEval, evalRequest, evaluateCached, HttpCache.Cache.get, ← hk, he]
    exact ⟨_, by unfold HttpCache.find; rw [if_pos rfl]⟩
  | none =>
    simp only [sendEval, evalRequest, evaluateCached, HttpCache.Cache.get, ← hk, he]
    cases hf : HttpCache.fresh X s.reg ⟨q.expression, varsOf X q.arguments, wantsVariables q.includeVariables⟩ with
    | error f =>
      cases f with
      | err m a p => intro h; cases h; simp at hr
      | panic p => intro h; cases h
    | ok p =>
      intro _
      simp only [HttpCache.Cache.put, HttpCache.lruPut, he]
      exact ⟨_, by unfold HttpCache.find; rw [if_pos rfl]⟩

/-- C122: an evaluation that succeeded, asked for once more right away, is answered from the cache: it succeeds, and counts as one more hit and no miss. -/
theorem C122_again (X : Ext) (H : HttpExt) (cfg : Config) (l : Live) (v : Visit) (t : Nat)
    (hv : v.sent.path = c!"/eval") (hm : v.sent.method = c!"POST" ∨ v.sent.method = c!"GET") :
    let once := l.visit X H cfg v.text v.micros
    let twice := once.2.visit X H cfg v.text t
    ∀ r, once.1.reply = some r → r.status = 200 →
      (∃ r', twice.1.reply = some r' ∧ r'.status = 200) ∧ twice.2.report.hits = once.2.report.hits + 1 ∧ twice.2.report.misses = once.2.report.misses := by
  intro once twice r hr h200
  have plan : (∀ s r, (handle X H cfg v.text s).1 = some r → r.status ≠ 200) ∨ ∃ q, ∀ s, handle X H cfg v.text s = sendEval X s q := by
    have e : ∀ s, handle X H cfg v.text s = route X H cfg v.sent.method c!"/eval" v.text s := fun s => by
      unfold Visit.text
      rw [handle_request X H cfg s v.sent.line v.sent.rest, hv]
    rcases hm with hm | hm
    · have e' : ∀ s, handle X H cfg v.text s = evalPost X H cfg v.text s := fun s => by rw [e, hm]; rfl
      simp only [e']
      exact evalPost_planned X H cfg v.text
    · have e' : ∀ s, handle X H cfg v.text s = evalGet X cfg v.text s := fun s => by rw [e, hm]; rfl
      simp only [e']
      exact evalGet_planned X cfg v.text
  rcases plan with h | ⟨q, h⟩
  · exact absurd h200 (h l.site r hr)
  · have key : ∀ (l : Live) (t : Nat), l.visit X H cfg v.text t = (⟨(sendEval X l.site q).1, if asksHealth v.text then some l.report else none⟩,
        ⟨(sendEval X l.site q).2, if recorded (sendEval X l.site q).1 then record l.counters t else l.counters⟩) := by
      intro l t
      unfold Live.visit
      rw [h l.site]
    have e1 : once = _ := key l v.micros
    have e2 : twice = _ := key once.2 t
    obtain ⟨r', a1, a2, a3, a4⟩ := sendEval_again X l.site q (r := r) (by rw [e1] at hr; exact hr) h200
    rw [e2, e1]
    exact ⟨⟨r', a1, a2⟩, a3, a4⟩

/-! ### A concrete history -/

/-- `GET /eval?expr=7 HTTP/1.1`. -/
def Spec.seven (micros : Nat) : Visit := ⟨⟨c!"GET", c!"/eval", some c!"expr=7", c!"HTTP/1.1", c!"\r\n",
  ⟨⟨by decide, by decide⟩, ⟨by decide, by decide⟩, by decide, fun q h => by cases h; decide, ⟨by decide, by decide⟩⟩⟩, micros⟩

/-- `GET /eval?expr=7%2B HTTP/1.1`: `7+`, which is no formula. -/
def Spec.broken (micros : Nat) : Visit := ⟨⟨c!"GET", c!"/eval", some c!"expr=7%2B", c!"HTTP/1.1", c!"\r\n",
  ⟨⟨by decide, by decide⟩, ⟨by decide, by decide⟩, by decide, fun q h => by cases h; decide, ⟨by decide, by decide⟩⟩⟩, micros⟩

/-- `GET /health?probe=1 HTTP/1.1`. -/
def Spec.looking : Visit := ⟨⟨_, _, _, _, c!"\r\n", healthLine⟩, 0⟩

/-- Twice 7, once something that does not parse, and a look at the report: three requests of 2 ms on average, one hit and two misses, one entry. -/
theorem seven_report (X : Ext) (H : HttpExt) (fs : Fs) (reg : Registry) :
    (serve X H ⟨none, some c!"secret", c!"hooks", []⟩ [seven 1000, broken 2000, seven 3000, looking] (.start fs reg)).2.report =
      ⟨3, .fin 2, 1, 2, F64.div (F64.ofNat 1) (F64.ofNat 3), 1, 0⟩ := by kernel_rfl

example (X : Ext) (H : HttpExt) (fs : Fs) (reg : Registry) :
    let r := serve X H ⟨none, some c!"secret", c!"hooks", []⟩ [seven 1000, broken 2000, seven 3000, looking] (.start fs reg)
    evaluations r.1 = 3 ∧ time r.1 = 6000 ∧ lost r.1 = 0 := ⟨by kernel_rfl, by kernel_rfl, by kernel_rfl⟩

example : ∀ v ∈ [seven 1000, broken 2000, seven 3000, looking], ¬ asksClear v := by
  intro v hv
  simp only [List.mem_cons, List.not_mem_nil, or_false] at hv
  rcases hv with rfl | rfl | rfl | rfl <;> rintro ⟨h, _⟩ <;> revert h <;> decide

example (X : Ext) (H : HttpExt) (fs : Fs) (reg : Registry) :
    (((Live.start fs reg).visit X H ⟨none, none, c!"hooks", []⟩ (seven 5).text 5).1.reply.map fun r => r.status) = some 200 := by kernel_rfl

end Health
