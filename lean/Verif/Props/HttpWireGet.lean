import Verif.Props.HttpWire
/-! C129: an evaluation asked for by a GET request, from the bytes that are sent to those that come back. -/

open Http JsonText JsonText.Spec

namespace HttpRead

open HttpRead.Spec

theorem contentLength_none (X : Ext) (ls : List Str) (hl : ∀ l ∈ ls, HeaderLine l) (hb : ∀ l ∈ ls, ¬ NamesLength l) : contentLength X (Str.join c!"\r\n" ls) = 0 := by
  unfold contentLength
  rw [lines_headers _ hl]
  induction ls with
  | nil => rfl
  | cons l ls ih =>
    unfold lengthOf
    rw [if_neg fun h => hb l (by simp) ((namesLength_iff X (hl l (by simp))).1 h)]
    exact ih (fun l' h' => hl l' (by simp [h'])) fun l' h' => hb l' (by simp [h'])

/-- **C58.** A request without a body, none of whose lines announces one: however the bytes are split, the router gets exactly the request. -/
theorem C58_bodyless (X : Ext) (want : Schedule) (closes : Bool) (ls : List Str) (hls : ls ≠ []) (hl : ∀ l ∈ ls, HeaderLine l) (hb : ∀ l ∈ ls, ¬ NamesLength l)
    (hs : Str.byteLen (requestText ls []) ≤ limit) :
    (readRequest X want ⟨bytesOf (requestText ls []), closes⟩ []).1 = .ok (requestText ls []) := by
  have hbytes : bytesOf (requestText ls []) = bytesOf (Str.join c!"\r\n" ls) ++ ([13, 10, 13, 10] ++ []) := by
    unfold requestText
    rw [bytesOf_append, bytesOf_append, List.append_assoc]
    rfl
  have hend := headersEnd_request ls hls hl []
  rw [← hbytes] at hend
  have hlen : (bytesOf (requestText ls [])).length = (bytesOf (Str.join c!"\r\n" ls)).length + 4 := by
    rw [hbytes, List.length_append]
    rfl
  have hbl : Str.byteLen (requestText ls []) = (bytesOf (requestText ls [])).length := (encode_byteLen _).symm
  have htake : (bytesOf (requestText ls [])).take (bytesOf (Str.join c!"\r\n" ls)).length = bytesOf (Str.join c!"\r\n" ls) := by
    rw [hbytes, List.take_left]
  have hcl : contentLength X (utf8Lossy ((bytesOf (requestText ls [])).take (bytesOf (Str.join c!"\r\n" ls)).length)) = 0 := by
    rw [htake]
    unfold bytesOf
    rw [utf8Lossy_of_encode, contentLength_none X ls hl hb]
  refine (C58_independent_partial X want _ ?_ _).2 ⟨rfl, ⟨by rw [← hbl]; exact hs, ?_⟩, Or.inl ⟨_, hend, by rw [hcl]; simp only; omega⟩⟩
  · intro p hp
    obtain rfl := headersEnd_unique hp hend
    simp only
    rw [hcl]
    omega
  · intro p hp
    obtain rfl := headersEnd_unique hp hend
    simp only
    rw [hcl]
    omega

end HttpRead

namespace HttpWire

open HttpWire.Spec

/-- The first line of a GET evaluation. -/
def Spec.getLine (ts : List Str) : Str := c!"GET /eval?" ++ c!"&".intercalate ts ++ c!" HTTP/1.1"

theorem requestText_get (ts headers : List Str) : HttpRead.Spec.requestText (getLine ts :: headers) [] = HttpQuery.Spec.getWith ts (headers.flatMap (· ++ c!"\r\n") ++ c!"\r\n") := by
  have key : ∀ (ls : List Str) (l : Str), Str.join c!"\r\n" (l :: ls) ++ c!"\r\n" = l ++ c!"\r\n" ++ ls.flatMap (· ++ c!"\r\n") := by
    intro ls
    induction ls with
    | nil => intro l; simp [Str.join]
    | cons m ls ih =>
      intro l
      have := ih m
      rw [List.flatMap_cons, ← List.append_assoc]
      simp only [Str.join, List.append_assoc] at this ⊢
      rw [this]
  unfold HttpRead.Spec.requestText HttpQuery.Spec.getWith
  have := key headers (getLine ts)
  have e : c!"\r\n\r\n" = c!"\r\n" ++ c!"\r\n" := rfl
  rw [e, ← List.append_assoc, this, getLine]
  simp

open HttpQuery HttpQuery.Spec in
theorem reply_get_eq (X : Ext) (H : HttpExt) (W : HttpReply.World) (cfg : Config) (report : Health.Report) (s : Site) (ps : List (Str × Option Str)) (ts : List Str) (rest : Str)
    (hne : ps ≠ []) (hk : List.Forall₂ Param ps ts) (hauth : passes X (getWith ts rest) cfg.authToken = .ok true) :
    HttpReply.handle X H W cfg report (getWith ts rest) s =
      (let q := (given ps).foldl step {}
       if q.expression.isEmpty then HttpReply.sendError s 400 c!"Missing expression parameter"
       else HttpReply.sendEval X W s ⟨q.expression, if q.variables.isEmpty then none else some q.variables, some q.outputJson, some q.includeVariables⟩) := by
  obtain ⟨ls, hl⟩ := request_line hk rest
  unfold HttpReply.handle
  rw [hl]
  simp only [request_parts hk, path_head]
  have hr : HttpReply.route X H W cfg report c!"GET" c!"/eval" (getWith ts rest) s = HttpReply.evalGet X W cfg (getWith ts rest) s := rfl
  rw [hr]
  unfold HttpReply.evalGet HttpReply.withToken
  rw [hauth]
  simp only [HttpReply.guarded, if_true]
  rw [hl]
  simp only [List.headD_cons, request_parts hk, path_query, query_split hne hk, params_eq hk {}]

open HttpQuery HttpQuery.Spec in
theorem connection_get (X : Ext) (H : HttpExt) (W : HttpReply.World) (cfg : Config) (report : Health.Report) (want : HttpRead.Schedule) (closes : Bool) (s : Site)
    (ps : List (Str × Option Str)) (ts : List Str) (hk : List.Forall₂ Param ps ts) (headers : List Str) (hl : ∀ l ∈ getLine ts :: headers, HttpRead.Spec.HeaderLine l)
    (hb : ∀ l ∈ headers, ¬ HttpRead.Spec.NamesLength l) (hs : Str.byteLen (HttpRead.Spec.requestText (getLine ts :: headers) []) ≤ HttpRead.Spec.limit)
    (hp : passes X (HttpRead.Spec.requestText (getLine ts :: headers) []) cfg.authToken = .ok true)
    (e : Str) (he : lastGiven [c!"expr", c!"expression"] (given ps) = some e) (hne : e ≠ []) :
    ∃ q, q.expression = e ∧ HttpQuery.Spec.Asks (given ps) q ∧ (HttpReply.connection X H W cfg report want ⟨HttpRead.Spec.bytesOf (HttpRead.Spec.requestText (getLine ts :: headers) []), closes⟩ s) =
      HttpReply.sendEval X W s q := by
  have hread := HttpRead.C58_bodyless X want closes (getLine ts :: headers) (by simp) hl (by
    intro l hl'
    rcases List.mem_cons.1 hl' with rfl | h
    · rintro ⟨nm, v, h, hn⟩
      cases nm with
      | nil => simp at hn
      | cons c nm =>
        have h1 : c = 'G' := by
          rw [getLine] at h
          simpa using (List.cons.inj h).1.symm
        subst h1
        have h2 := (List.cons.inj hn).1
        exact absurd h2 (by decide)
    · exact hb l h) hs
  have hps : ps ≠ [] := by rintro rfl; simp [lastGiven, given] at he
  have ha := asked (given ps) (by rw [he]; simp)
  have hx := ha.expression
  rw [he] at hx
  refine ⟨_, (Option.some.inj hx).symm, ha, ?_⟩
  unfold HttpReply.connection
  rw [hread]
  simp only
  rw [requestText_get] at hp ⊢
  rw [reply_get_eq X H W cfg report s ps ts _ hps hk hp]
  have h0 := Option.some.inj hx
  simp only at h0
  simp only
  rw [if_neg]
  rw [← h0]
  cases e with
  | nil => exact absurd rfl hne
  | cons => simp

theorem arrives_unique {v : Str} {j j' : Json} (h : HttpQuery.Spec.Arrives v j) (h' : HttpQuery.Spec.Arrives v j') : j = j' := by
  have ht : F64.parse c!"true" = none := by decide +kernel
  have hf : F64.parse c!"false" = none := by decide +kernel
  cases h <;> cases h' <;> simp_all

open HttpQuery.Spec in
/-- **C129, by GET.** The parameters, encoded in any of the ways there are, ask for an expression; the other ones are variables, which arrive as numbers, booleans or texts. However the bytes
are split, a server without stored results tells the client what the expression is worth with them. -/
theorem C129_get (X : Ext) (N : Floats) (hu : Uses X N) (H : HttpExt) (W : HttpReply.World) (cfg : Config)
    (report : Health.Report) (want : HttpRead.Schedule) (closes : Bool) (s : Site) (hc : ∀ k, (s.cache.get k).1 = none) (hid : s.counter < 2 ^ 64)
    (hms : W.ms.isFinite = true → FloatBack N W.ms)
    (ps : List (Str × Option Str)) (ts : List Str) (hk : List.Forall₂ Param ps ts) (headers : List Str) (hl : ∀ l ∈ getLine ts :: headers, HttpRead.Spec.HeaderLine l)
    (hb : ∀ l ∈ headers, ¬ HttpRead.Spec.NamesLength l) (hs : Str.byteLen (HttpRead.Spec.requestText (getLine ts :: headers) []) ≤ HttpRead.Spec.limit)
    (hp : passes X (HttpRead.Spec.requestText (getLine ts :: headers) []) cfg.authToken = .ok true)
    (e : Str) (he : lastGiven [c!"expr", c!"expression"] (given ps) = some e) (hne : e ≠ [])
    (hv : ∀ v, lastGiven [c!"include_variables"] (given ps) = some v → Chooses v .none)
    (hn : ∀ p ∈ given ps, _root_.Spec.CleanName X p.1 p.1) (hm : FrontEnds.Spec.NotMentioned c!"arguments" e) :
    ∃ as : List (Str × Json), (as.map (·.1)).Nodup ∧
      (∀ k j, (k, j) ∈ as ↔ k ∉ reserved ∧ ∃ v, lastGiven [k] (given ps) = some v ∧ Arrives v j) ∧
      Tells X N W s.counter (decide (lastGiven [c!"output_json"] (given ps) = some c!"true")) (FrontEnds.Spec.worth X s.reg e (FrontEnds.Spec.members X as))
        (HttpReply.connection X H W cfg report want ⟨HttpRead.Spec.bytesOf (HttpRead.Spec.requestText (getLine ts :: headers) []), closes⟩ s).1 := by
  obtain ⟨q, rfl, ha, hq⟩ := connection_get X H W cfg report want closes s ps ts hk headers hl hb hs hp e he hne
  rw [hq]
  refine ⟨q.arguments.getD [], ha.once, fun k j => ⟨ha.only k j, fun ⟨h1, v, h2, h3⟩ => ?_⟩, ?_⟩
  · obtain ⟨j', h4, h5⟩ := ha.given k v h1 h2
    exact arrives_unique h3 h5 ▸ h4
  · have hw : q.outputJson.getD false = decide (lastGiven [c!"output_json"] (given ps) = some c!"true") := by
      have h1 := ha.outputJson
      cases hq : q.outputJson with
      | none => exact absurd hq ha.outputGiven
      | some b =>
        rw [hq] at h1
        cases b with
        | true => exact (decide_eq_true (h1.1 rfl)).symm
        | false => exact (decide_eq_false fun h => by cases h1.2 h).symm
    rw [← hw]
    refine tells hu hc hid hms ?_ ?_
    · cases hl : lastGiven [c!"include_variables"] (given ps) with
      | none => rw [ha.includeDefault hl]; rfl
      | some v => rw [ha.includeGiven v _ hl (hv v hl)]; rfl
    · refine FrontEnds.worth_congr X s.reg _ _ _ fun e' he' n hn' => ?_
      have hne : n ≠ c!"arguments" := fun h => hm e' he' (h ▸ hn')
      have hclean : ∀ m ∈ q.arguments.getD [], _root_.Spec.CleanName X m.1 m.1 := by
        intro m hm'
        obtain ⟨h1, v, h2, -⟩ := ha.only m.1 m.2 hm'
        have key : ∀ (k : Str) (l : List (Str × Str)) (v : Str), lastGiven [k] l = some v → ∃ p ∈ l, p.1 = k := by
          intro k l
          induction l with
          | nil => intro v h; simp [lastGiven] at h
          | cons p l ih =>
            intro v h
            rw [lastGiven] at h
            cases hg : lastGiven [k] l with
            | some w => obtain ⟨p', h1, h2⟩ := ih w hg; exact ⟨p', by simp [h1], h2⟩
            | none =>
              rw [hg] at h
              by_cases hk : p.1 ∈ [k]
              · exact ⟨p, by simp, by simpa using hk⟩
              · simp [hk] at h
        obtain ⟨p, hp1, hp2⟩ := key _ _ _ h2
        exact hp2 ▸ hn p hp1
      cases hqa : q.arguments with
      | none => rfl
      | some as =>
        rw [hqa] at hclean
        unfold varsOf
        simp only [Option.getD_some] at hclean ⊢
        rw [FrontEnds.http_members X _ _ hclean n]
        unfold HttpCache.envOf
        rw [List.find?_cons_of_neg (by simpa using Ne.symm hne)]
        simp

/-- A whole exchange: `GET /eval?expression=2%2b:b&b=0.5&output_json=true`. -/
example (H : HttpExt) (report : Health.Report) (want : HttpRead.Schedule) :
    ∃ m, (HttpReply.connection halvesExt H { HttpReply.Spec.someWorld with ms := .fin (1 / 2) } _root_.Spec.open_ report want
      ⟨HttpRead.Spec.bytesOf (HttpRead.Spec.requestText [c!"GET /eval?expression=(:b)%2b:b-:b&b=0.5&output_json=true HTTP/1.1", c!"Host: a"] []), false⟩ _root_.Spec.site).1 = some m ∧
    Answers halves (m.bytes halvesExt) 200 (.obj [(c!"success", .bool true),
      (c!"result", .obj [(c!"execution_time", .str c!"1.00 ms"), (c!"result", .num (.float (.fin (1 / 2)))), (c!"type", .str c!"Number")]), (c!"error", .null),
      (c!"execution_time_ms", .num (.float (.fin (1 / 2)))), (c!"request_id", .num (.int 0))]) := by
  obtain ⟨as, h1, h2, h3⟩ := C129_get halvesExt halves halvesExt_uses H { HttpReply.Spec.someWorld with ms := .fin (1 / 2) } _root_.Spec.open_ report want false _root_.Spec.site (fun _ => rfl)
    (by decide) (fun _ => half_back) [(c!"expression", some c!"(:b)+:b-:b"), (c!"b", some c!"0.5"), (c!"output_json", some c!"true")]
    [c!"expression=(:b)%2b:b-:b", c!"b=0.5", c!"output_json=true"]
    (by
      have plain : ∀ s : Str, (∀ c ∈ s, c ≠ '%' ∧ c ≠ '&' ∧ Str.isWs c = false) → HttpQuery.Spec.Encodes s s := by
        intro s
        induction s with
        | nil => exact fun _ => .nil
        | cons c s ih => exact fun h => .plain (h c (by simp)).1 (h c (by simp)).2.1 (h c (by simp)).2.2 (ih fun c hc => h c (by simp [hc]))
      have key : ∀ s : Str, (∀ c ∈ s, c ≠ '&' ∧ c ≠ '=' ∧ Str.isWs c = false) → HttpQuery.Spec.PlainKey s := fun _ h => h
      refine .cons (.value (k := c!"expression") (key _ (by decide)) ?_) (.cons (.value (k := c!"b") (key _ (by decide)) (plain _ (by decide)))
        (.cons (.value (k := c!"output_json") (key _ (by decide)) (plain _ (by decide))) .nil))
      exact .plain (by decide) (by decide) (by decide) (.plain (by decide) (by decide) (by decide) (.plain (by decide) (by decide) (by decide) (.plain (by decide) (by decide) (by decide)
        (.bytes (b := c!"%2b") (.cons (.inl rfl) (.inr rfl) .nil) (plain c!":b-:b" (by decide)))))))
    [c!"Host: a"] (by unfold HttpRead.Spec.HeaderLine; decide +kernel)
    (by
      intro l hl hn
      obtain ⟨nm, v, e, hn⟩ := hn
      rw [List.mem_singleton.1 hl] at e
      cases nm with
      | nil => simp at hn
      | cons c nm => simp at e hn; obtain ⟨rfl, -⟩ := e; exact absurd hn.1 (by decide))
    (by decide +kernel) (by kernel_rfl) c!"(:b)+:b-:b" rfl (by simp) (by intro v hv; cases hv)
    (by
      intro p hp
      have key : ∀ s : Str, (∀ c ∈ s, halvesExt.isAlnum c = true ∨ halvesExt.isAlnum c = false ∧ c = '_') → _root_.Spec.CleanName halvesExt s s := by
        intro s
        induction s with
        | nil => exact fun _ => .nil
        | cons c s ih =>
          exact fun h => .cons ((h c (by simp)).imp (fun h => ⟨h, rfl⟩) id) (ih fun c hc => h c (by simp [hc]))
      have hp : p ∈ [(c!"expression", c!"(:b)+:b-:b"), (c!"b", c!"0.5"), (c!"output_json", c!"true")] := hp
      simp only [List.mem_cons, List.not_mem_nil, or_false] at hp
      rcases hp with rfl | rfl | rfl <;> exact key _ (by decide +kernel))
    (by
      intro e he
      have : (Lib.parse c!"(:b)+:b-:b").map _root_.Spec.vars = .ok [c!"b", c!"b", c!"b"] := by kernel_rfl
      rw [he] at this
      rw [Except.ok.inj this]
      decide)
  have hb : HttpQuery.Spec.Arrives c!"0.5" (.num (.float (.fin (1 / 2)))) := .number _ (by kernel_rfl) rfl
  have hmem : ∀ m, m ∈ as ↔ m = (c!"b", .num (.float (.fin (1 / 2)))) := by
    rintro ⟨k, j⟩
    rw [h2 k j]
    constructor
    · rintro ⟨hr, v, hv, hj⟩
      have hv : (if k = c!"output_json" then some c!"true" else if k = c!"b" then some c!"0.5" else if k = c!"expression" then some c!"(:b)+:b-:b" else none) = some v := by
        rw [← hv]
        simp only [HttpQuery.Spec.given, List.filterMap_cons, List.filterMap_nil, Option.map_some, HttpQuery.Spec.lastGiven, List.mem_singleton]
        by_cases h1 : k = c!"output_json"
        · simp [h1]
        · by_cases h2 : k = c!"b"
          · simp [h2]
          · by_cases h3 : k = c!"expression"
            · simp [h3]
            · rw [if_neg h1, if_neg h2, if_neg h3, if_neg (Ne.symm h1), if_neg (Ne.symm h2), if_neg (Ne.symm h3)]
      by_cases h1 : k = c!"output_json"
      · exact absurd (by rw [h1]; decide) hr
      · rw [if_neg h1] at hv
        by_cases h2 : k = c!"b"
        · rw [if_pos h2] at hv
          cases hv
          rw [h2, arrives_unique hj hb]
        · rw [if_neg h2] at hv
          by_cases h3 : k = c!"expression"
          · exact absurd (by rw [h3]; decide) hr
          · rw [if_neg h3] at hv; cases hv
    · intro h
      cases h
      exact ⟨by decide, _, rfl, hb⟩
  have has : as = [(c!"b", .num (.float (.fin (1 / 2))))] := by
    match as, h1, hmem with
    | [], _, hmem => exact absurd ((hmem _).2 rfl) (by simp)
    | [m], _, hmem => rw [(hmem m).1 (by simp)]
    | m :: m' :: as, h1, hmem =>
      rw [(hmem m).1 (by simp), (hmem m').1 (by simp)] at h1
      simp at h1
  subst has
  exact h3.1 (.num (.fin (1 / 2))) (by kernel_rfl) (fun _ => half_back) (fun t ht => by cases ht) (by decide +kernel)

end HttpWire
