import Verif.Model.HttpWire
import Verif.Props.WireLines
import Verif.Props.HttpJsBody
import Verif.Props.HttpReplyDocs
import Verif.Props.HttpRead
/-! C129: an evaluation over HTTP, from the bytes that are sent to those that come back. -/

open Http JsonText JsonText.Spec

namespace HttpWire

namespace Spec

/-- The variables that the members of a body give. -/
inductive Given (ms : List (Str × Json)) : List (Str × Json) → Prop where
  | absent : HttpBody.Spec.Absent c!"arguments" ms → Given ms []
  | object {as as' : List (Str × Json)} : objGet c!"arguments" ms = some (.obj as) → Keeps (.obj as) (.obj as') → Given ms as'

/-- The members ask for the value alone, or for a document about it. -/
inductive Form (ms : List (Str × Json)) : Bool → Prop where
  | absent : HttpBody.Spec.Absent c!"output_json" ms → Form ms false
  | given {b : Bool} : objGet c!"output_json" ms = some (.bool b) → Form ms b

/-- The members of a body that asks for an evaluation of `e` with variables `as`; others do not count. Variables are not to be reported. -/
structure Asks (ms : List (Str × Json)) (e : Str) (as : List (Str × Json)) (wrapped : Bool) : Prop where
  once : HttpBody.Spec.Once ms
  expression : ∃ j, objGet c!"expression" ms = some j ∧ HttpBody.Spec.IsText j e
  arguments : Given ms as
  form : Form ms wrapped
  unreported : HttpBody.Spec.Absent c!"include_variables" ms ∨ objGet c!"include_variables" ms = some (.bool false)

/-- The bytes are a response with this status whose body is a JSON text for the document, of the length announced. -/
def Answers (N : Floats) (bytes : HttpRead.Bytes) (status : Nat) (doc : Json) : Prop :=
  ∃ first rest text, HttpWrite.Spec.Framed bytes (first :: rest) (text.flatMap String.utf8EncodeChar) ∧
    (∃ reason, first = c!"HTTP/1.1 " ++ Nat.toDigits 10 status ++ c!" " ++ reason) ∧ c!"Content-Type: application/json" ∈ rest ∧
    (first :: rest).filterMap HttpWrite.Spec.announced = [(text.flatMap String.utf8EncodeChar).length] ∧ Text N 127 doc text

mutual
/-- The numbers and amounts of the value are read back, if finite, and so are those of its documents. -/
def Sendable (N : Floats) : Value → Prop
  | .num x | .cur x => x.isFinite = true → FloatBack N x
  | .arr vs => SendableAll N vs
  | .json s => ∀ j, JsonText.parse N s = some j → ∀ x ∈ doubles j, FloatBack N x
  | _ => True
/-- Element by element. -/
def SendableAll (N : Floats) : List Value → Prop
  | [] => True
  | v :: vs => Sendable N v ∧ SendableAll N vs
end

mutual
/-- How deeply the value is nested, its documents counted. -/
def deep (N : Floats) : Value → Nat
  | .arr vs => deepAll N vs + 1
  | .json s => match JsonText.parse N s with
    | some j => depth j
    | none => 0
  | _ => 0
/-- The deepest element. -/
def deepAll (N : Floats) : List Value → Nat
  | [] => 0
  | v :: vs => max (deep N v) (deepAll N vs)
end

/-- What a client is told about the outcome `r` of an evaluation, the `id`-th of the server, of which it asked for the value alone or, `wrapped`, for more. -/
def Tells (X : Ext) (N : Floats) (W : HttpReply.World) (id : Nat) (wrapped : Bool) (r : Res Value) (o : Option HttpReply.Message) : Prop :=
  (∀ v, r = .ok v → Sendable N v → (∀ t, v = .dt t → Exact t) → deep N v ≤ 125 →
    ∃ m, o = some m ∧ Answers N (m.bytes X) 200 (.obj [(c!"success", .bool true),
      (c!"result", if wrapped then .obj [(c!"execution_time", .str (W.msText ++ c!" ms")), (c!"result", match v with | .dt t => .num (.int t) | v => simpleOutput X v),
          (c!"type", .str (Tcp.typeName v))] else simpleOutput X v),
      (c!"error", .null), (c!"execution_time_ms", Json.ofF64 W.ms), (c!"request_id", .num (.int id))])) ∧
  (∀ msg a p, r = .error (.err msg a p) →
    ∃ m, o = some m ∧ Answers N (m.bytes X) 400 (.obj [(c!"success", .bool false), (c!"result", .null), (c!"error", .str (HttpReply.display (.err msg a p))),
      (c!"execution_time_ms", Json.ofF64 W.ms), (c!"request_id", .num (.int id))])) ∧
  (∀ w, r = .error (.panic w) → o = none)

end Spec

open HttpWire.Spec

/-! ### Reading -/

theorem decode_iff {α : Type} (N : Floats) (why : Str → Str) (read : Json → Option α) (body : Str) (a : α) :
    decode N why read body = .ok a ↔ ∃ j, Text N 127 j body ∧ read j = some a := by
  unfold decode
  have : (tree N body).bind read = some a ↔ ∃ j, Text N 127 j body ∧ read j = some a := by
    rw [Option.bind_eq_some_iff]
    exact exists_congr fun j => and_congr_left fun _ => tree_iff N body j
  rw [← this]
  cases (tree N body).bind read <;> simp

/-- **C129.** With JSON texts as they are, the server is one that reads bodies as C104 and C119 ask. -/
theorem C129_reads (N : Floats) (order : Wire.Order) (why : Str → Str) (H : HttpExt) :
    HttpBody.Spec.Reads (reading N order why H) (tree N) (fun ms => order (normMembers [] ms)) ∧ HttpJsBody.Spec.Reads (reading N order why H) (tree N) ∧
    ∀ body j, tree N body = some j ↔ Text N 127 j body := by
  have e1 : ∀ {α : Type} (read : Json → Option α) (body : Str) (j : Json) (a : α), tree N body = some j → read j = some a → decode N why read body = .ok a := by
    intro α read body j a h1 h2; simp [decode, h1, h2]
  have e2 : ∀ {α : Type} (read : Json → Option α) (body : Str) (j : Json), tree N body = some j → read j = none → ∃ e, decode N why read body = .error e := by
    intro α read body j h1 h2; simp [decode, h1, h2]
  have e3 : ∀ {α : Type} (read : Json → Option α) (body : Str), tree N body = none → ∃ e, decode N why read body = .error e := by
    intro α read body h1; simp [decode, h1]
  exact ⟨⟨e1 _, e2 _, e3 _⟩, ⟨e1 _, e2 _, e3 _, e1 _, e2 _, e3 _⟩, fun body j => tree_iff N body j⟩

/-! ### Documents -/

theorem ofF64_fits {N : Floats} {x : F64} (h : x.isFinite = true → FloatBack N x) : Fits N (Json.ofF64 x) ∧ depth (Json.ofF64 x) = 0 := by
  unfold Json.ofF64
  by_cases hf : x.isFinite = true
  · rw [if_pos hf]; exact ⟨.float (h hf), by simp [depth]⟩
  · rw [if_neg hf]; exact ⟨.null, by simp [depth]⟩

mutual
theorem simple_fits {X : Ext} {N : Floats} (hu : Uses X N) : ∀ v : Value, Sendable N v → Fits N (simpleOutput X v) ∧ depth (simpleOutput X v) = deep N v
  | .num x, h => by rw [simpleOutput, deep]; exact ofF64_fits h; all_goals simp
  | .cur x, h => by rw [simpleOutput, deep]; exact ofF64_fits h; all_goals simp
  | .str s, _ => by rw [simpleOutput, deep]; exact ⟨.str _, by simp [depth]⟩; all_goals simp
  | .bool s, _ => by rw [simpleOutput, deep]; exact ⟨.bool _, by simp [depth]⟩; all_goals simp
  | .dt s, _ => by rw [simpleOutput, deep]; exact ⟨.str _, by simp [depth]⟩; all_goals simp
  | .null, _ => by rw [simpleOutput, deep]; exact ⟨.null, by simp [depth]⟩; all_goals simp
  | .arr vs, h => by
    have := simples_fits hu vs (by rwa [Sendable] at h)
    rw [simpleOutput, deep, depth]
    exact ⟨.arr this.1, by rw [this.2]⟩
  | .json s, h => by
    rw [Sendable] at h
    rw [simpleOutput, deep]
    cases hj : X.jsonParse s with
    | ok j =>
      have hp := (hu.parse s j).1 hj
      rw [hp]
      exact ⟨(Wire.parse_sound hp (h j hp)).fits, rfl⟩
    | error e =>
      have : JsonText.parse N s = none := by
        cases hp : JsonText.parse N s with
        | none => rfl
        | some j => rw [(hu.parse s j).2 hp] at hj; cases hj
      rw [this]
      exact ⟨.str _, by simp [depth]⟩
theorem simples_fits {X : Ext} {N : Floats} (hu : Uses X N) : ∀ vs : List Value, SendableAll N vs → FitsItems N (simpleOutputs X vs) ∧ depthItems (simpleOutputs X vs) = deepAll N vs
  | [], _ => by rw [simpleOutputs, deepAll, depthItems]; exact ⟨.nil, rfl⟩
  | v :: vs, h => by
    rw [SendableAll] at h
    have h1 := simple_fits hu v h.1
    have h2 := simples_fits hu vs h.2
    rw [simpleOutputs, deepAll, depthItems, h1.2, h2.2]
    exact ⟨.cons h1.1 h2.1, rfl⟩
end

/-! ### A request and its answer -/

theorem requestText_post (headers : List Str) (body : Str) : HttpRead.Spec.requestText (c!"POST /eval HTTP/1.1" :: headers) body = HttpQuery.Spec.postRequest headers body := by
  have key : ∀ (ls : List Str) (l : Str), Str.join c!"\r\n" (l :: ls) ++ c!"\r\n" = l ++ c!"\r\n" ++ ls.flatMap (· ++ c!"\r\n") := by
    intro ls
    induction ls with
    | nil => intro l; simp [Str.join]
    | cons m ls ih =>
      intro l
      have := ih m
      rw [List.flatMap_cons, ← List.append_assoc] 
      simp only [Str.join, List.append_assoc] at this ⊢
      rw [this]
  unfold HttpRead.Spec.requestText HttpQuery.Spec.postRequest
  have := key headers c!"POST /eval HTTP/1.1"
  have e : c!"\r\n\r\n" = c!"\r\n" ++ c!"\r\n" := rfl
  rw [e, ← List.append_assoc, this]
  simp

theorem reply_post_eq (X : Ext) (H : HttpExt) (W : HttpReply.World) (cfg : Config) (report : Health.Report) (s : Site) (headers : List Str) (body : Str)
    (hh : ∀ l ∈ headers, HttpQuery.Spec.HeaderLine l) (hp : passes X (HttpQuery.Spec.postRequest headers body) cfg.authToken = .ok true) :
    HttpReply.handle X H W cfg report (HttpQuery.Spec.postRequest headers body) s =
      match H.decodeEval body with
      | .ok q => HttpReply.sendEval X W s q
      | .error e => HttpReply.sendError s 400 (c!"Invalid JSON: " ++ e) := by
  have hl : Str.lines (HttpQuery.Spec.postRequest headers body) = c!"POST /eval HTTP/1.1" :: Str.lines (headers.flatMap (· ++ c!"\r\n") ++ c!"\r\n" ++ body) := by
    have := lines_crlf c!"POST /eval HTTP/1.1" (headers.flatMap (· ++ c!"\r\n") ++ c!"\r\n" ++ body) (by decide)
    rw [← this]
    unfold HttpQuery.Spec.postRequest
    simp
  have hw : Str.splitWs c!"POST /eval HTTP/1.1" = [c!"POST", c!"/eval", c!"HTTP/1.1"] := by decide
  have hpath : (Str.split c!"/eval" c!"?").headD c!"/eval" = c!"/eval" := by decide
  have hroute : HttpReply.route X H W cfg report c!"POST" c!"/eval" (HttpQuery.Spec.postRequest headers body) s =
    HttpReply.evalPost X H W cfg (HttpQuery.Spec.postRequest headers body) s := rfl
  obtain ⟨t, ht⟩ := HttpQuery.headers_end body c!"POST /eval HTTP/1.1" headers ⟨by simp, by decide⟩ hh
  have e : HttpQuery.Spec.postRequest headers body = c!"POST /eval HTTP/1.1" ++ c!"\r\n" ++ headers.flatMap (· ++ c!"\r\n") ++ c!"\r\n" ++ body := by
    unfold HttpQuery.Spec.postRequest; simp
  unfold HttpReply.handle
  rw [hl]
  simp only [hw, hpath, hroute]
  unfold HttpReply.evalPost HttpReply.withToken
  rw [hp]
  simp only [HttpReply.guarded, if_true]
  unfold jsonBody
  rw [e, ht]
  cases hd : H.decodeEval body with
  | ok q => simp only [hd]
  | error e =>
    have : HttpReply.display (.err "Invalid JSON: {}" [e] none) = c!"Invalid JSON: " ++ e := by
      have h : HttpReply.display (.err "Invalid JSON: {}" [e] none) = c!"Invalid JSON: " ++ (e ++ []) := by kernel_rfl
      rw [h, List.append_nil]
    simp only [hd, fail, this]

theorem members_perm (X : Ext) {a b : List (Str × Json)} (h : a.Perm b) (hn : (a.map Prod.fst).Nodup) : FrontEnds.Spec.members X a = FrontEnds.Spec.members X b := by
  funext n
  have := congrFun (Wire.bind_perm X h hn fun _ => none) n
  rw [FrontEnds.tcp_members, FrontEnds.tcp_members] at this
  simpa using this

theorem keeps_nodup {as as' : List (Str × Json)} (h : Keeps (.obj as) (.obj as')) : (as'.map Prod.fst).Nodup ∧ normMembers [] as = as' := by
  have hn := norm_iff.2 h
  rw [norm] at hn
  have hn := Json.obj.inj hn
  refine ⟨?_, hn⟩
  rw [← hn]
  refine (normMembers_ordered as [] (by simp)).imp fun h => ?_
  rintro rfl
  rw [Str.lt_irrefl] at h
  cases h

theorem fresh_eq (X : Ext) (reg : Registry) (e : Str) (vars : HttpCache.Vars) :
    HttpCache.fresh X reg ⟨e, vars, false⟩ = (FrontEnds.Spec.worth X reg e (HttpCache.envOf vars)).map fun v => (v, none) := by
  unfold HttpCache.fresh FrontEnds.Spec.worth
  by_cases hc : (Str.contains e c!";" || Str.contains e c!":=") = true
  · simp only [hc, if_true]
    cases Lib.evaluateWithAssignments X e (HttpCache.envOf vars) <;> rfl
  · simp only [hc]
    cases Lib.evaluateWithCustom X reg e (HttpCache.envOf vars) <;> rfl

/-- What a server without stored results sends for a request that does not ask for variables. -/
theorem send_fresh (X : Ext) (W : HttpReply.World) (s : Site) (hc : ∀ k, (s.cache.get k).1 = none) (q : EvalRequest) (hv : wantsVariables q.includeVariables = false)
    (env : Env) (henv : FrontEnds.Spec.worth X s.reg q.expression (HttpCache.envOf (varsOf X q.arguments)) = FrontEnds.Spec.worth X s.reg q.expression env) :
    (HttpReply.sendEval X W s q).1 = match FrontEnds.Spec.worth X s.reg q.expression env with
      | .ok v => some ⟨200, .json (HttpReply.evalDoc true (if q.outputJson.getD false then HttpReply.structured X W v else simpleOutput X v) [] none W.ms s.counter)⟩
      | .error (.err m a p) => some ⟨400, .json (HttpReply.evalDoc false .null [] (some (HttpReply.display (.err m a p))) W.ms s.counter)⟩
      | .error (.panic _) => none := by
  rw [← henv]
  unfold HttpReply.sendEval
  simp only [hv]
  have he : (evaluateCached X { s with counter := s.counter + 1 } ⟨q.expression, varsOf X q.arguments, false⟩).1 =
      (FrontEnds.Spec.worth X s.reg q.expression (HttpCache.envOf (varsOf X q.arguments))).map fun v => (v, none) := by
    unfold evaluateCached
    simp only
    have hk := hc (HttpCache.Request.key X ⟨q.expression, varsOf X q.arguments, false⟩)
    generalize hg : s.cache.get (HttpCache.Request.key X ⟨q.expression, varsOf X q.arguments, false⟩) = g at hk
    obtain ⟨a, c⟩ := g
    simp only at hk
    subst hk
    simp only
    rw [fresh_eq]
    cases FrontEnds.Spec.worth X s.reg q.expression (HttpCache.envOf (varsOf X q.arguments)) <;> rfl
  generalize evaluateCached X { s with counter := s.counter + 1 } ⟨q.expression, varsOf X q.arguments, false⟩ = r at he
  obtain ⟨r, s'⟩ := r
  simp only at he
  subst he
  cases FrontEnds.Spec.worth X s.reg q.expression (HttpCache.envOf (varsOf X q.arguments)) with
  | ok v => rfl
  | error f => cases f <;> rfl

theorem answers_of {X : Ext} {N : Floats} (hu : Uses X N) {status : Nat} {doc : Json} (hf : Fits N doc) (hd : depth doc ≤ 127) :
    Answers N (HttpReply.Message.bytes X ⟨status, .json doc⟩) status doc := by
  obtain ⟨first, rest, h1, h2, h3, h4⟩ := HttpReply.C126_bytes X ⟨status, .json doc⟩ doc rfl
  refine ⟨first, rest, X.jsonPrint doc, h1, h2, h3, h4, ?_⟩
  rw [hu.print]
  exact print_text hf hd

theorem evalDoc_fits {N : Floats} {ok : Bool} {r : Json} {err : Option Str} {ms : F64} {id : Nat} (hr : Fits N r) (hms : ms.isFinite = true → FloatBack N ms) (hid : id < 2 ^ 64) :
    Fits N (HttpReply.evalDoc ok r [] err ms id) ∧ depth (HttpReply.evalDoc ok r [] err ms id) = depth r + 1 := by
  have hm := ofF64_fits hms
  have he : Fits N (HttpReply.optStr err) ∧ depth (HttpReply.optStr err) = 0 := by
    cases err with
    | none => exact ⟨.null, by simp [HttpReply.optStr, depth]⟩
    | some t => exact ⟨.str _, by simp [HttpReply.optStr, depth]⟩
  unfold HttpReply.evalDoc
  simp only [List.isEmpty_nil, if_true, List.append_nil, List.cons_append, List.nil_append]
  refine ⟨.obj (.cons (.bool _) (.cons hr (.cons he.1 (.cons hm.1 (.cons (.int ⟨by omega, by omega⟩) .nil))))), ?_⟩
  simp only [depth, depthMembers, he.2, hm.2]
  omega

/-- What a server without stored results says about an evaluation. -/
theorem tells {X : Ext} {N : Floats} (hu : Uses X N) {W : HttpReply.World} {s : Site} (hc : ∀ k, (s.cache.get k).1 = none) (hid : s.counter < 2 ^ 64)
    (hms : W.ms.isFinite = true → FloatBack N W.ms) {q : EvalRequest} (hv : wantsVariables q.includeVariables = false) {env : Env}
    (henv : FrontEnds.Spec.worth X s.reg q.expression (HttpCache.envOf (varsOf X q.arguments)) = FrontEnds.Spec.worth X s.reg q.expression env) :
    Tells X N W s.counter (q.outputJson.getD false) (FrontEnds.Spec.worth X s.reg q.expression env) (HttpReply.sendEval X W s q).1 := by
  have ho' := send_fresh X W s hc q hv _ henv
  generalize q.outputJson.getD false = wrapped at ho' ⊢
  refine ⟨fun v hv hs ht hdp => ?_, fun msg a p hv => ?_, fun w hv => ?_⟩
  · rw [hv] at ho'
    refine ⟨_, ho', ?_⟩
    have hsf := simple_fits hu v hs
    have hst : Fits N (structuredValue X v) ∧ depth (structuredValue X v) ≤ 125 := by
      cases v with
      | dt t => exact ⟨.int (ht t rfl), by simp [structuredValue, depth]⟩
      | num | str | bool | cur | arr | null | json => exact ⟨hsf.1, by rw [structuredValue, hsf.2]; exact hdp; simp⟩
    have hr : Fits N (if wrapped = true then HttpReply.structured X W v else simpleOutput X v) ∧ depth (if wrapped = true then HttpReply.structured X W v else simpleOutput X v) ≤ 126 := by
      cases wrapped with
      | true =>
        rw [if_pos rfl]
        refine ⟨.obj (.cons (.str _) (.cons hst.1 (.cons (.str _) .nil))), ?_⟩
        simp only [HttpReply.structured, depth, depthMembers]
        have := hst.2
        omega
      | false => rw [if_neg (by simp)]; exact ⟨hsf.1, by rw [hsf.2]; omega⟩
    have hdoc := evalDoc_fits (ok := true) (err := none) hr.1 hms hid
    have := answers_of hu (status := 200) hdoc.1 (by rw [hdoc.2]; have := hr.2; omega)
    convert this using 2
    cases wrapped with
    | true => cases v <;> rfl
    | false => rfl
  · rw [hv] at ho'
    refine ⟨_, ho', ?_⟩
    have hdoc := evalDoc_fits (N := N) (ok := false) (err := some (HttpReply.display (.err msg a p))) .null hms hid
    exact answers_of hu hdoc.1 (by rw [hdoc.2]; simp [depth])
  · rw [hv] at ho'
    exact ho'

/-- The request that a body asks for. -/
theorem asks_request {N : Floats} {order : Wire.Order} (ho : Wire.Spec.Shuffles order) (X : Ext) (reg : Registry) {ms : List (Str × Json)} {e : Str} {as : List (Str × Json)} {wrapped : Bool}
    (ha : Asks ms e as wrapped) (hk : ∀ m ∈ as, _root_.Spec.CleanName X m.1 m.1) (hm : FrontEnds.Spec.NotMentioned c!"arguments" e) :
    ∃ q, bodyTree (fun ms => order (normMembers [] ms)) (.obj ms) = some q ∧ q.expression = e ∧ q.outputJson.getD false = wrapped ∧ wantsVariables q.includeVariables = false ∧
      FrontEnds.Spec.worth X reg e (HttpCache.envOf (varsOf X q.arguments)) = FrontEnds.Spec.worth X reg e (FrontEnds.Spec.members X as) := by
  obtain ⟨once, hex, hargs, hform, hun⟩ := ha
  have h1 : ∃ o : Option Bool, ((HttpBody.Spec.Absent c!"output_json" ms ∧ o = none) ∨ ∃ b, objGet c!"output_json" ms = some (.bool b) ∧ o = some b) ∧ o.getD false = wrapped := by
    cases hform with
    | absent h => exact ⟨none, .inl ⟨h, rfl⟩, rfl⟩
    | given h => exact ⟨some wrapped, .inr ⟨_, h, rfl⟩, rfl⟩
  have h2 : ∃ i : Option Include, ((HttpBody.Spec.Absent c!"include_variables" ms ∧ i = none) ∨
      ∃ j inc, objGet c!"include_variables" ms = some j ∧ HttpBody.Spec.Picks j inc ∧ i = some inc) ∧ wantsVariables i = false := by
    rcases hun with h | h
    · exact ⟨none, .inl ⟨h, rfl⟩, rfl⟩
    · exact ⟨some .none, .inr ⟨_, _, h, .no, rfl⟩, rfl⟩
  have h3 : ∃ a : Option (List (Str × Json)), ((HttpBody.Spec.Absent c!"arguments" ms ∧ a = none) ∨
      ∃ as', objGet c!"arguments" ms = some (.obj as') ∧ a = some (order (normMembers [] as'))) ∧
      FrontEnds.Spec.worth X reg e (HttpCache.envOf (varsOf X a)) = FrontEnds.Spec.worth X reg e (FrontEnds.Spec.members X as) := by
    cases hargs with
    | absent h =>
      refine ⟨none, .inl ⟨h, rfl⟩, FrontEnds.worth_congr X reg e _ _ fun _ _ n _ => ?_⟩
      rfl
    | object h hkeep =>
      rename_i as0
      obtain ⟨hnd, hno⟩ := keeps_nodup hkeep
      refine ⟨some (order (normMembers [] as0)), .inr ⟨_, h, rfl⟩, FrontEnds.worth_congr X reg e _ _ fun e' he n hn => ?_⟩
      have hperm := ho (normMembers [] as0)
      rw [hno] at hperm ⊢
      have hne : n ≠ c!"arguments" := fun h => hm e' he (h ▸ hn)
      unfold varsOf
      simp only
      rw [FrontEnds.http_members X _ _ (fun m hmem => hk m (hperm.mem_iff.1 hmem)) n, ← members_perm X hperm.symm hnd]
      unfold HttpCache.envOf
      rw [List.find?_cons_of_neg (by simpa using Ne.symm hne)]
      simp
  obtain ⟨o, h1, h1'⟩ := h1
  obtain ⟨i, h2, h2'⟩ := h2
  obtain ⟨a, h3, h3'⟩ := h3
  exact ⟨⟨e, a, o, i⟩, HttpBody.describes_eq _ once ⟨hex, h3, h1, h2⟩, rfl, h1', h2', h3'⟩

theorem connection_post (X : Ext) (H : HttpExt) (W : HttpReply.World) (cfg : Config) (report : Health.Report) (want : HttpRead.Schedule) (closes : Bool) (s : Site)
    (before after : List Str) (name ds body : Str)
    (hl : ∀ l ∈ before ++ (name ++ c!": " ++ ds) :: after, HttpRead.Spec.HeaderLine l) (hb : ∀ l ∈ before, ¬ HttpRead.Spec.NamesLength l)
    (hn : name.map Str.asciiLowC = c!"content-length") (hne : ds ≠ []) (hd : ∀ c ∈ ds, Str.asciiDigit c = true) (hbody : HttpRead.Spec.decimal ds = Str.byteLen body)
    (hs : Str.byteLen (HttpRead.Spec.requestText (c!"POST /eval HTTP/1.1" :: (before ++ (name ++ c!": " ++ ds) :: after)) body) ≤ HttpRead.Spec.limit)
    (hp : passes X (HttpRead.Spec.requestText (c!"POST /eval HTTP/1.1" :: (before ++ (name ++ c!": " ++ ds) :: after)) body) cfg.authToken = .ok true) :
    HttpReply.connection X H W cfg report want
      ⟨HttpRead.Spec.bytesOf (HttpRead.Spec.requestText (c!"POST /eval HTTP/1.1" :: (before ++ (name ++ c!": " ++ ds) :: after)) body), closes⟩ s =
      match H.decodeEval body with
      | .ok q => HttpReply.sendEval X W s q
      | .error e => HttpReply.sendError s 400 (c!"Invalid JSON: " ++ e) := by
  have hfirst : HttpRead.Spec.HeaderLine c!"POST /eval HTTP/1.1" := ⟨by simp, by decide⟩
  have hread := HttpRead.C58_standard X want closes (c!"POST /eval HTTP/1.1" :: before) after name ds body
    (by intro l hl'; rcases List.mem_cons.1 hl' with rfl | h; exacts [hfirst, hl l h])
    (by
      intro l hl'
      rcases List.mem_cons.1 hl' with rfl | h
      · rintro ⟨nm, v, e, -⟩
        have : ':' ∈ c!"POST /eval HTTP/1.1" := by rw [e]; simp
        exact absurd this (by decide)
      · exact hb l h) hn hne hd hbody hs
  have ho : HttpReply.connection X H W cfg report want
      ⟨HttpRead.Spec.bytesOf (HttpRead.Spec.requestText (c!"POST /eval HTTP/1.1" :: (before ++ (name ++ c!": " ++ ds) :: after)) body), closes⟩ s =
      HttpReply.handle X H W cfg report (HttpQuery.Spec.postRequest (before ++ (name ++ c!": " ++ ds) :: after) body) s := by
    unfold HttpReply.connection
    rw [show (HttpRead.readRequest X want ⟨HttpRead.Spec.bytesOf (HttpRead.Spec.requestText (c!"POST /eval HTTP/1.1" :: (before ++ (name ++ c!": " ++ ds) :: after)) body), closes⟩ []).1 = _ from hread]
    simp only
    rw [List.cons_append, requestText_post]
  rw [requestText_post] at hp
  rw [ho, reply_post_eq X _ W cfg report s _ body (fun l hl' => ⟨(hl l hl').1, fun c hc => ((hl l hl').2 c hc).2⟩) hp]

/-- **C129.** Over HTTP: a client sends a POST request with the length of its body, which is a JSON text that asks for an expression with variables, in whatever pieces the bytes arrive. If the server has
no stored results (as at the start, and after clearing), it answers with the value, or with the text of the error, in a JSON document whose text a reader of the response finds. -/
theorem C129_post (X : Ext) (N : Floats) (hu : Uses X N) (H : HttpExt) (order : Wire.Order) (ho : Wire.Spec.Shuffles order) (why : Str → Str) (W : HttpReply.World) (cfg : Config)
    (report : Health.Report) (want : HttpRead.Schedule) (closes : Bool) (s : Site) (hc : ∀ k, (s.cache.get k).1 = none) (hid : s.counter < 2 ^ 64)
    (hms : W.ms.isFinite = true → FloatBack N W.ms) (before after : List Str) (name ds body : Str)
    (hl : ∀ l ∈ before ++ (name ++ c!": " ++ ds) :: after, HttpRead.Spec.HeaderLine l) (hb : ∀ l ∈ before, ¬ HttpRead.Spec.NamesLength l)
    (hn : name.map Str.asciiLowC = c!"content-length") (hne : ds ≠ []) (hd : ∀ c ∈ ds, Str.asciiDigit c = true) (hbody : HttpRead.Spec.decimal ds = Str.byteLen body)
    (hs : Str.byteLen (HttpRead.Spec.requestText (c!"POST /eval HTTP/1.1" :: (before ++ (name ++ c!": " ++ ds) :: after)) body) ≤ HttpRead.Spec.limit)
    (hp : passes X (HttpRead.Spec.requestText (c!"POST /eval HTTP/1.1" :: (before ++ (name ++ c!": " ++ ds) :: after)) body) cfg.authToken = .ok true)
    (ms : List (Str × Json)) (htext : Text N 127 (.obj ms) body) (e : Str) (as : List (Str × Json)) (wrapped : Bool) (ha : Asks ms e as wrapped)
    (hk : ∀ m ∈ as, _root_.Spec.CleanName X m.1 m.1) (hm : FrontEnds.Spec.NotMentioned c!"arguments" e) :
  Tells X N W s.counter wrapped (FrontEnds.Spec.worth X s.reg e (FrontEnds.Spec.members X as)) (HttpReply.connection X (reading N order why H) W cfg report want
      ⟨HttpRead.Spec.bytesOf (HttpRead.Spec.requestText (c!"POST /eval HTTP/1.1" :: (before ++ (name ++ c!": " ++ ds) :: after)) body), closes⟩ s).1 := by
  rw [connection_post X (reading N order why H) W cfg report want closes s before after name ds body hl hb hn hne hd hbody hs hp]
  obtain ⟨q, hq, rfl, rfl, hv, henv⟩ := asks_request (N := N) ho X s.reg ha hk hm
  rw [show (reading N order why H).decodeEval body = .ok q from (decode_iff N why _ body q).2 ⟨_, htext, hq⟩]
  exact tells hu hc hid hms hv henv

/-- **C129.** A body that is no JSON text, or that is a text for something else than a request, is answered with 400 and a document that says so; nothing is evaluated. -/
theorem C129_refused (X : Ext) (N : Floats) (hu : Uses X N) (H : HttpExt) (order : Wire.Order) (why : Str → Str) (W : HttpReply.World) (cfg : Config)
    (report : Health.Report) (want : HttpRead.Schedule) (closes : Bool) (s : Site) (before after : List Str) (name ds body : Str)
    (hl : ∀ l ∈ before ++ (name ++ c!": " ++ ds) :: after, HttpRead.Spec.HeaderLine l) (hb : ∀ l ∈ before, ¬ HttpRead.Spec.NamesLength l)
    (hn : name.map Str.asciiLowC = c!"content-length") (hne : ds ≠ []) (hd : ∀ c ∈ ds, Str.asciiDigit c = true) (hbody : HttpRead.Spec.decimal ds = Str.byteLen body)
    (hs : Str.byteLen (HttpRead.Spec.requestText (c!"POST /eval HTTP/1.1" :: (before ++ (name ++ c!": " ++ ds) :: after)) body) ≤ HttpRead.Spec.limit)
    (hp : passes X (HttpRead.Spec.requestText (c!"POST /eval HTTP/1.1" :: (before ++ (name ++ c!": " ++ ds) :: after)) body) cfg.authToken = .ok true)
    (hw : (∀ j, ¬ Text N 127 j body) ∨ ∃ ms, Text N 127 (.obj ms) body ∧ HttpBody.Spec.Wrong ms) :
    ∃ m, (HttpReply.connection X (reading N order why H) W cfg report want
      ⟨HttpRead.Spec.bytesOf (HttpRead.Spec.requestText (c!"POST /eval HTTP/1.1" :: (before ++ (name ++ c!": " ++ ds) :: after)) body), closes⟩ s).1 = some m ∧
      Answers N (m.bytes X) 400 (.obj [(c!"error", .str (c!"Invalid JSON: " ++ why body)), (c!"success", .bool false)]) := by
  rw [connection_post X (reading N order why H) W cfg report want closes s before after name ds body hl hb hn hne hd hbody hs hp]
  have : (reading N order why H).decodeEval body = .error (why body) := by
    change decode N why _ body = _
    unfold decode
    have h : (tree N body).bind (bodyTree fun ms => order (normMembers [] ms)) = none := by
      rcases hw with hw | ⟨ms, ht, hw⟩
      · cases h : tree N body with
        | none => rfl
        | some j => exact absurd ((tree_iff N body j).1 h) (hw j)
      · rw [(tree_iff N body _).2 ht]
        exact HttpBody.wrong_eq _ hw
    rw [h]
  rw [this]
  exact ⟨_, rfl, answers_of hu (.obj (.cons (.str _) (.cons (.bool _) .nil))) (by simp [HttpReply.errorDoc, depth, depthMembers])⟩

/-! ### Samples -/

/-- A body as a client might write it. -/
def sampleBody : Str := c!"{\"expression\": [\"SUM(:a,\", \" :b)\"], \"arguments\": {\"a\": 0.5, \"b\": 0.5, \"a\": [ ]}, \"other\": {}}"

/-- Its members. -/
def sampleMembers : List (Str × Json) := [(c!"expression", .arr [.str c!"SUM(:a,", .str c!" :b)"]),
  (c!"arguments", .obj [(c!"a", .num (.float (.fin (1 / 2)))), (c!"b", .num (.float (.fin (1 / 2)))), (c!"a", .arr [])]), (c!"other", .obj [])]

theorem sampleBody_text : Text halves 127 (.obj sampleMembers) sampleBody := (tree_iff _ _ _).1 (by kernel_rfl)

theorem sampleMembers_ask : Asks sampleMembers c!"SUM(:a, :b)" [(c!"a", .arr []), (c!"b", .num (.float (.fin (1 / 2))))] false :=
  { once := by unfold HttpBody.Spec.Once; decide +kernel
    expression := ⟨_, rfl, .parts [c!"SUM(:a,", c!" :b)"]⟩
    arguments := .object rfl (norm_iff.1 (by kernel_rfl))
    form := .absent (.inl rfl)
    unreported := .inl (.inl rfl) }

theorem sampleRequest_worth : FrontEnds.Spec.worth halvesExt Registry.empty c!"SUM(:a, :b)" (FrontEnds.Spec.members halvesExt [(c!"a", .arr []), (c!"b", .num (.float (.fin (1 / 2))))]) =
    .ok (.num (.fin (1 / 2))) := by kernel_rfl

/-- A whole exchange, however the bytes arrive. -/
example (H : HttpExt) (report : Health.Report) (want : HttpRead.Schedule) : ∃ m, (HttpReply.connection halvesExt (reading halves List.reverse (fun _ => []) H) { HttpReply.Spec.someWorld with ms := .fin (1 / 2) }
      _root_.Spec.open_ report want
      ⟨HttpRead.Spec.bytesOf (HttpRead.Spec.requestText [c!"POST /eval HTTP/1.1", c!"Host: a", c!"content-length: 93"] sampleBody), false⟩ _root_.Spec.site).1 = some m ∧
    Answers halves (m.bytes halvesExt) 200 (.obj [(c!"success", .bool true), (c!"result", .num (.float (.fin (1 / 2)))), (c!"error", .null),
      (c!"execution_time_ms", .num (.float (.fin (1 / 2)))), (c!"request_id", .num (.int 0))]) := by
  have h := C129_post halvesExt halves halvesExt_uses H List.reverse (fun _ => List.reverse_perm _) (fun _ => []) { HttpReply.Spec.someWorld with ms := .fin (1 / 2) }
    _root_.Spec.open_ report want false _root_.Spec.site (fun _ => rfl) (by decide) (fun _ => half_back) [c!"Host: a"] [] c!"content-length" c!"93" sampleBody
    (by unfold HttpRead.Spec.HeaderLine; decide +kernel)
    (by
      intro l hl hn
      obtain ⟨nm, v, e, hn⟩ := hn
      rw [List.mem_singleton.1 hl] at e
      cases nm with
      | nil => simp at hn
      | cons c nm => simp at e hn; obtain ⟨rfl, -⟩ := e; exact absurd hn.1 (by decide))
    (by decide) (by decide) (by decide) (by decide +kernel) (by decide +kernel) (by kernel_rfl) sampleMembers sampleBody_text _ _ _ sampleMembers_ask
    (by
      intro m hm
      simp only [List.mem_cons, List.not_mem_nil, or_false] at hm
      rcases hm with rfl | rfl <;> exact .cons (.inl ⟨by decide +kernel, rfl⟩) .nil)
    (by
      intro e he
      have : (Lib.parse c!"SUM(:a, :b)").map _root_.Spec.vars = .ok [c!"a", c!"b"] := by kernel_rfl
      rw [he] at this
      rw [Except.ok.inj this]
      decide)
  exact h.1 _ sampleRequest_worth (fun _ => half_back) (fun t ht => by cases ht) (by decide +kernel)

/-- A body that is no JSON text, and one without an expression. -/
example : (∀ j, ¬ Text halves 127 j c!"{\"expression\": 1 + 1}") ∧ ∃ ms, Text halves 127 (.obj ms) c!"{\"arguments\": {}}" ∧ HttpBody.Spec.Wrong ms := by
  refine ⟨fun j h => ?_, [(c!"arguments", .obj [])], (tree_iff _ _ _).1 (by kernel_rfl), .missing rfl⟩
  have h := (tree_iff _ _ _).2 h
  have : tree halves c!"{\"expression\": 1 + 1}" = none := by kernel_rfl
  rw [this] at h
  cases h

end HttpWire
