import Verif.Model.Wire
import Verif.Props.JsonText
import Verif.Props.Client
import Verif.Props.TcpServer
/-! C128: the lines between `sk_client` and the TCP server. -/

namespace Wire

open JsonText JsonText.Spec

namespace Spec

/-- Going through a map meets every member once. -/
def Shuffles (order : Order) : Prop := ∀ ms, (order ms).Perm ms

/-- The same variables, listed in whatever order. -/
def SameVariables : Option (List (Str × Json)) → Option (List (Str × Json)) → Prop
  | none, none => True
  | some a, some b => a.Perm b
  | _, _ => False

/-- Variables as a map of documents that JSON can carry. -/
def Carried (N : Floats) (vs : List (Str × Json)) : Prop := (vs.map Prod.fst).Nodup ∧ ∀ m ∈ vs, Sound N m.2

/-- The result as the client has it: a null is no result. -/
def received : Option Json → Option Json
  | some .null => none
  | r => r

/-- What the client shows of the result of an evaluation. -/
def ends (X : Ext) (outputJson : Bool) : Res Value → End
  | .ok v => .printed (Tcp.resultJson X (some outputJson) v)
  | .error (.err m a p) => .error (HttpReply.display (.err m a p))
  | .error (.panic _) => .noAnswer

end Spec

open Wire.Spec

/-! ### Trees -/

theorem fitsMembers_of {N : Floats} : ∀ {ms : List (Str × Json)}, (∀ m ∈ ms, Fits N m.2) → FitsMembers N ms
  | [], _ => .nil
  | (k, j) :: ms, h => .cons (h (k, j) (by simp)) (fitsMembers_of fun m hm => h m (by simp [hm]))

theorem tree_print {N : Floats} {j : Json} (h : Fits N j) (hd : depth j ≤ 127) : tree N (print N j) = some j := (tree_iff N _ j).2 (print_text h hd)

theorem tree_line {N : Floats} {j : Json} (h : Fits N j) (hd : depth j ≤ 127) : tree N (print N j ++ ['\n']) = some j := by
  refine (tree_iff N _ j).2 ⟨[], print N j, ['\n'], by simp, blank_nil, print_val h _ hd, ?_⟩
  intro c hc
  exact .inr (.inl (List.mem_singleton.1 hc))

theorem tree_too_deep {N : Floats} {j : Json} (h : Fits N j) (hd : 127 < depth j) {w : Str} (hw : Blank w) : tree N (print N j ++ w) = none := by
  cases ht : tree N (print N j ++ w) with
  | none => rfl
  | some j' =>
    have h1 := (tree_iff N _ j').1 ht
    have h2 : Text N (depth j) j (print N j ++ w) := ⟨[], print N j, w, by simp, blank_nil, print_val h _ le_rfl, hw⟩
    have e := text_unique h1 h2
    subst e
    obtain ⟨_, t, _, _, _, hv, _⟩ := h1
    have := val_depth hv
    omega

theorem objInsert_perm (k : Str) (v : Json) : ∀ acc : List (Str × Json), k ∉ acc.map Prod.fst → (objInsert k v acc).Perm ((k, v) :: acc)
  | [], _ => .refl _
  | (k', v') :: acc, h => by
    rw [List.map_cons, List.mem_cons, not_or] at h
    rw [objInsert, if_neg h.1]
    by_cases h2 : Str.lt k k' = true
    · rw [if_pos h2]
    · rw [if_neg h2]
      exact ((objInsert_perm k v acc h.2).cons _).trans (.swap _ _ _)

theorem normMembers_perm {N : Floats} : ∀ (ms acc : List (Str × Json)), ((acc ++ ms).map Prod.fst).Nodup → (∀ m ∈ ms, Sound N m.2) → (normMembers acc ms).Perm (acc ++ ms)
  | [], acc, _, _ => by rw [normMembers, List.append_nil]
  | (k, j) :: ms, acc, hn, hs => by
    have hk : k ∉ acc.map Prod.fst := by
      rw [List.map_append, List.nodup_append] at hn
      exact fun h => hn.2.2 k h k (by simp) rfl
    have hp := objInsert_perm k j acc hk
    rw [normMembers, norm_sound (hs (k, j) (by simp))]
    have hn' : ((objInsert k j acc ++ ms).map Prod.fst).Nodup := by
      refine (List.Perm.nodup_iff (List.Perm.map _ ?_)).2 hn
      exact (hp.append_right ms).trans (List.perm_middle).symm
    exact (normMembers_perm ms _ hn' fun m hm => hs m (by simp [hm])).trans ((hp.append_right ms).trans List.perm_middle.symm)

theorem depth_perm {a b : List (Str × Json)} (h : a.Perm b) : depthMembers a = depthMembers b := by
  apply le_antisymm
  · exact depthMembers_le.2 fun m hm => depthMembers_le.1 le_rfl m (h.mem_iff.1 hm)
  · exact depthMembers_le.2 fun m hm => depthMembers_le.1 le_rfl m (h.mem_iff.2 hm)

theorem requestTree_fits {N : Floats} {order : Order} (ho : Shuffles order) {q : Tcp.Request} (hv : ∀ vs, q.variables = some vs → ∀ m ∈ vs, Sound N m.2) :
    Fits N (requestTree order q) := by
  refine .obj (.cons (.str _) (.cons ?_ (.cons ?_ (.cons ?_ .nil))))
  · cases h : q.variables with
    | none => exact .null
    | some vs => exact .obj (fitsMembers_of fun m hm => (hv vs h m ((ho vs).mem_iff.1 hm)).fits)
  · cases q.outputJson with
    | none => exact .null
    | some b => exact .bool b
  · cases q.token with
    | none => exact .null
    | some t => exact .str t

theorem requestTree_depth {order : Order} (ho : Shuffles order) (q : Tcp.Request) :
    depth (requestTree order q) = match q.variables with
      | none => 1
      | some vs => depthMembers vs + 2 := by
  have h1 : ∀ o : Option Bool, depth (optional .bool o) = 0 := by rintro (_ | _) <;> rfl
  have h2 : ∀ o : Option Str, depth (optional .str o) = 0 := by rintro (_ | _) <;> rfl
  simp only [requestTree, depth, depthMembers, h1, h2]
  cases q.variables with
  | none => simp [optional, depth]
  | some vs => simp [optional, depth, depth_perm (ho vs)]

theorem requestOf_tree {N : Floats} {order order' : Order} (ho : Shuffles order) (ho' : Shuffles order') (q : Tcp.Request) (hv : ∀ vs, q.variables = some vs → Carried N vs) :
    ∃ vs', requestOf order' (requestTree order q) = some ⟨q.expression, vs', q.outputJson, q.token⟩ ∧ SameVariables vs' q.variables := by
  have h1 : Http.nullable Http.boolOf (optional .bool q.outputJson) = some q.outputJson := by cases q.outputJson <;> rfl
  have h2 : Http.nullable textOf (optional .str q.token) = some q.token := by cases q.token <;> rfl
  have h3 : ∃ vs', Http.nullable (mapOf order') (optional (fun vs => .obj (order vs)) q.variables) = some vs' ∧ SameVariables vs' q.variables := by
    cases h : q.variables with
    | none => exact ⟨none, rfl, trivial⟩
    | some vs =>
      refine ⟨some (order' (normMembers [] (order vs))), rfl, ?_⟩
      have hc := hv vs h
      have hn : (([] ++ order vs).map Prod.fst).Nodup := ((ho vs).map _).nodup_iff.2 hc.1
      exact (ho' _).trans ((normMembers_perm (order vs) [] hn fun m hm => hc.2 m ((ho vs).mem_iff.1 hm)).trans (ho vs))
  obtain ⟨vs', h3, h4⟩ := h3
  refine ⟨vs', ?_, h4⟩
  simp [requestTree, requestOf, requestMembers, textOf, h1, h2, h3]

theorem bind_perm (X : Ext) {a b : List (Str × Json)} (h : a.Perm b) (hn : (a.map Prod.fst).Nodup) (env : Env) : Tcp.bind X a env = Tcp.bind X b env := by
  induction h generalizing env with
  | nil => rfl
  | cons m _ ih => exact ih (List.nodup_cons.1 hn).2 _
  | swap m m' l =>
    obtain ⟨k, j⟩ := m
    obtain ⟨k', j'⟩ := m'
    simp only [List.map_cons, List.nodup_cons, List.mem_cons, not_or] at hn
    simp only [Tcp.bind]
    congr 1
    funext n
    simp only [Env.insert]
    by_cases h1 : n = k
    · have : n ≠ k' := fun e => hn.1.1 (e.symm.trans h1)
      simp [h1]
      intro e; exact absurd (h1.trans e) this
    · simp [h1]
  | trans h1 h2 ih1 ih2 =>
    rw [ih1 hn, ih2 ((h1.map _).nodup_iff.1 hn)]

theorem strip_nonempty {c : Char} (hc : Str.isWs c = false) (r : Str) : (Str.strip (c :: r)).isEmpty = false := by
  unfold Str.strip Str.trim
  rw [List.dropWhile_cons_of_neg (by simp [hc])]
  cases h : ((c :: r).reverse.dropWhile Str.isWs).reverse with
  | cons _ _ => rfl
  | nil =>
    rw [List.reverse_eq_nil_iff, List.dropWhile_eq_nil_iff] at h
    have := h c (by simp)
    rw [hc] at this
    cases this

/-! ### C128 -/

/-- **C128.** The request of the client is one line, not blank, without control characters, whatever texts are in it; and the server reads from it the same expression, options, token and
variables. -/
theorem C128_request (N : Floats) (order order' : Order) (ho : Shuffles order) (ho' : Shuffles order') (why : Str → Str) (reg : Registry) (token : Option Str) (q : Tcp.Request)
    (hv : ∀ vs, q.variables = some vs → Carried N vs ∧ depthMembers vs ≤ 125) :
    (∀ c ∈ requestLine N order q, 32 ≤ c.toNat) ∧ (Str.strip (requestLine N order q)).isEmpty = false ∧
    ∃ q', (setup N order' why reg token).decode (requestLine N order q) = .ok q' ∧
      q'.expression = q.expression ∧ q'.outputJson = q.outputJson ∧ q'.token = q.token ∧ SameVariables q'.variables q.variables := by
  have hf := requestTree_fits (N := N) ho (q := q) fun vs h => (hv vs h).1.2
  refine ⟨print_oneLine hf, ?_, ?_⟩
  · unfold requestLine requestTree
    rw [print]
    exact strip_nonempty (by decide) _
  · obtain ⟨vs', h1, h2⟩ := requestOf_tree (N := N) ho ho' q fun vs h => (hv vs h).1
    refine ⟨⟨q.expression, vs', q.outputJson, q.token⟩, ?_, rfl, rfl, rfl, h2⟩
    have hd : depth (requestTree order q) ≤ 127 := by
      rw [requestTree_depth ho]
      cases h : q.variables with
      | none => simp
      | some vs => have := (hv vs h).2; simp only; omega
    unfold setup requestLine
    simp only [tree_print hf hd, Option.bind_some, h1]

theorem answer_line {X : Ext} {N : Floats} {order order' : Order} (ho : Shuffles order) (ho' : Shuffles order') (why : Str → Str) (reg : Registry) (token : Option Str) (q : Tcp.Request)
    (hv : ∀ vs, q.variables = some vs → Carried N vs ∧ depthMembers vs ≤ 125) (id : Nat) :
    Tcp.answer X (setup N order' why reg token) (requestLine N order q) id =
      if ∀ t, token = some t → q.token.getD [] = t then Tcp.process X reg q id else .ok ⟨false, none, some .unauthorized, id⟩ := by
  obtain ⟨_, _, q', h1, h2, h3, h4, h5⟩ := C128_request N order order' ho ho' why reg token q hv
  have hp : Tcp.process X reg q' id = Tcp.process X reg q id := by
    obtain ⟨e', v', o', t'⟩ := q'
    obtain ⟨e, v, o, t⟩ := q
    simp only at h2 h3 h4 h5 hv
    subst h2 h3 h4
    unfold Tcp.process
    cases v' with
    | none =>
      cases v with
      | none => rfl
      | some _ => exact h5.elim
    | some a =>
      cases v with
      | none => exact h5.elim
      | some b =>
        have hp : a.Perm b := h5
        simp only [bind_perm X hp ((hp.map _).nodup_iff.2 (hv b rfl).1.1)]
  unfold Tcp.answer
  rw [h1]
  have e1 : (setup N order' why reg token).token = token := rfl
  have e2 : (setup N order' why reg token).reg = reg := rfl
  simp only [e1, e2, hp, h4]
  cases token with
  | none => simp
  | some t =>
    by_cases h : q.token.getD [] = t <;> simp [h]

/-- **C128.** So the server does with the line of a request what it does with the request: evaluate it if it carries the token, refuse it otherwise. -/
theorem C128_answer (X : Ext) (N : Floats) (order order' : Order) (ho : Shuffles order) (ho' : Shuffles order') (why : Str → Str) (reg : Registry) (token : Option Str) (q : Tcp.Request)
    (hv : ∀ vs, q.variables = some vs → Carried N vs ∧ depthMembers vs ≤ 125) (id : Nat) :
    ((∀ t, token = some t → q.token.getD [] = t) → Tcp.answer X (setup N order' why reg token) (requestLine N order q) id = Tcp.process X reg q id) ∧
    ((∃ t, token = some t ∧ q.token.getD [] ≠ t) →
      Tcp.answer X (setup N order' why reg token) (requestLine N order q) id = .ok ⟨false, none, some .unauthorized, id⟩) := by
  rw [answer_line ho ho' why reg token q hv id]
  constructor
  · intro h; rw [if_pos h]
  · rintro ⟨t, h1, h2⟩; rw [if_neg fun h => h2 (h t h1)]

/-- **C128** fails for documents that the client accepts: if the variables are nested more than 125 deep, the server calls the request invalid. -/
theorem C128_too_deep (X : Ext) (N : Floats) (order order' : Order) (ho : Shuffles order) (why : Str → Str) (reg : Registry) (token : Option Str) (q : Tcp.Request)
    (vs : List (Str × Json)) (hq : q.variables = some vs) (hv : Carried N vs) (hd : 125 < depthMembers vs) (id : Nat) :
    Tcp.answer X (setup N order' why reg token) (requestLine N order q) id = .ok ⟨false, none, some (.invalid (why (requestLine N order q))), id⟩ := by
  have hf := requestTree_fits (N := N) ho (q := q) fun vs' h => by rw [hq] at h; cases h; exact hv.2
  have ht : tree N (requestLine N order q) = none := by
    have := tree_too_deep hf (by rw [requestTree_depth ho, hq]; simp only; omega) blank_nil
    rwa [List.append_nil] at this
  unfold Tcp.answer setup
  simp only [ht, Option.bind_none]

theorem replyTree_fits {N : Floats} {time : F64} (ht : FloatBack N time) {r : Tcp.Response} (hr : ∀ j, r.result = some j → Sound N j) (hi : r.id < 2 ^ 64) :
    Fits N (replyTree time r) := by
  refine .obj (.cons (.bool _) (.cons ?_ (.cons ?_ (.cons (.float ht) (.cons (.int ?_) .nil)))))
  · cases h : r.result with
    | none => exact .null
    | some j => exact (hr j h).fits
  · cases r.error with
    | none => exact .null
    | some e => exact .str _
  · constructor
    · have : (0 : ℤ) ≤ r.id := Int.natCast_nonneg _
      have : (0 : ℤ) < 2 ^ 63 := by decide
      omega
    · exact_mod_cast hi

theorem replyTree_depth (time : F64) (r : Tcp.Response) : depth (replyTree time r) = match r.result with
    | none => 1
    | some j => depth j + 1 := by
  have h1 : ∀ o : Option Tcp.ErrText, depth (optional (fun e => .str (errorText e)) o) = 0 := by rintro (_ | _) <;> rfl
  simp only [replyTree, depth, depthMembers, h1]
  cases r.result with
  | none => simp [optional, depth]
  | some j => simp [optional]

theorem replyOf_tree {N : Floats} (time : F64) (r : Tcp.Response) (hr : ∀ j, r.result = some j → Sound N j) (hi : r.id < 2 ^ 64) :
    replyOf (replyTree time r) = some ⟨r.success, received r.result, r.error.map errorText, time, r.id⟩ := by
  have h1 : Http.nullable (fun j => some (norm j)) (optional id r.result) = some (received r.result) := by
    cases h : r.result with
    | none => rfl
    | some j =>
      have := norm_sound (hr j h)
      cases j <;> simp [optional, Http.nullable, received, this]
  have h2 : Http.nullable textOf (optional (fun e => .str (errorText e)) r.error) = some (r.error.map errorText) := by cases r.error <;> rfl
  have h3 : countOf (.num (.int r.id)) = some r.id := by
    have : (r.id : ℤ) < 2 ^ 64 := by exact_mod_cast hi
    simp [countOf]
    omega
  simp [replyTree, replyOf, replyMembers, Http.boolOf, doubleOf, h1, h2, h3]

/-- **C128.** The line of a response is one line, and the client reads from it what the server has found. -/
theorem C128_reply (N : Floats) (time : F64) (ht : FloatBack N time) (r : Tcp.Response) (hr : ∀ j, r.result = some j → Sound N j) (hi : r.id < 2 ^ 64) :
    (∃ l, replyLine N time r = l ++ ['\n'] ∧ ∀ c ∈ l, 32 ≤ c.toNat) ∧
    ((∀ j, r.result = some j → depth j ≤ 126) →
      readReply N (replyLine N time r) = some ⟨r.success, received r.result, r.error.map errorText, time, r.id⟩) ∧
    ((∃ j, r.result = some j ∧ 126 < depth j) → readReply N (replyLine N time r) = none) := by
  have hf := replyTree_fits ht hr hi
  refine ⟨⟨_, rfl, print_oneLine hf⟩, ?_, ?_⟩
  · intro hd
    have : depth (replyTree time r) ≤ 127 := by
      rw [replyTree_depth]
      cases h : r.result with
      | none => simp
      | some j => have := hd j h; simp only; omega
    unfold readReply replyLine
    rw [tree_line hf this, Option.bind_some, replyOf_tree time r hr hi]
  · rintro ⟨j, hj, hd⟩
    unfold readReply replyLine
    rw [tree_too_deep hf (by rw [replyTree_depth, hj]; simp only; omega) (fun c hc => .inr (.inl (List.mem_singleton.1 hc)))]
    rfl

/-- **C128.** A connection that is closed without an answer is noticed. -/
theorem C128_closed (N : Floats) : shown (readReply N []) = .noAnswer := by
  have : tree N [] = none := rfl
  unfold readReply
  rw [this]
  rfl

/-- What the client shows of what the server does with a request. -/
theorem shown_process {X : Ext} {N : Floats} {time : F64} (ht : FloatBack N time) {reg : Registry} {q : Tcp.Request} {oj : Bool} (ho : q.outputJson = some oj) {id : Nat} (hi : id < 2 ^ 64)
    {env : Env} (henv : (match q.variables with | some js => Tcp.bind X js (fun _ => none) | none => fun _ => none) = env)
    (hr : ∀ v, FrontEnds.Spec.worth X reg q.expression env = .ok v → Sound N (Tcp.resultJson X (some oj) v) ∧ depth (Tcp.resultJson X (some oj) v) ≤ 126) :
    shown (match Tcp.process X reg q id with
      | .ok r => readReply N (replyLine N time r)
      | .error _ => readReply N []) = ends X oj (FrontEnds.Spec.worth X reg q.expression env) := by
  have hp : Tcp.process X reg q id = match FrontEnds.Spec.worth X reg q.expression env with
      | .ok v => .ok ⟨true, some (Tcp.resultJson X (some oj) v), none, id⟩
      | .error (.err m a p) => .ok ⟨false, none, some (.failed (.err m a p)), id⟩
      | .error (.panic w) => .error (.panic w) := by
    subst henv
    unfold Tcp.process FrontEnds.Spec.worth
    rw [ho]
    rfl
  rw [hp]
  cases hw : FrontEnds.Spec.worth X reg q.expression env with
  | ok v =>
    obtain ⟨h1, h2⟩ := hr v hw
    simp only
    rw [(C128_reply N time ht ⟨true, some (Tcp.resultJson X (some oj) v), none, id⟩ (fun j h => by cases h; exact h1) hi).2.1 (fun j h => by cases h; exact h2)]
    simp only [shown, ends, if_true, received]
    cases Tcp.resultJson X (some oj) v <;> rfl
  | error f =>
    cases f with
    | err m a p =>
      simp only
      rw [(C128_reply N time ht ⟨false, none, some (.failed (.err m a p)), id⟩ (fun j h => by cases h) hi).2.1 (fun j h => by cases h)]
      rfl
    | panic w => exact C128_closed N

theorem soundMembers_mem {N : Floats} : ∀ {ms : List (Str × Json)}, SoundMembers N ms → ∀ {m : Str × Json}, m ∈ ms → Sound N m.2
  | _, .nil, m, hm => absurd hm (by simp)
  | _, .cons h hs, m, hm => by
    rcases List.mem_cons.1 hm with e | hm
    · rw [e]; exact h
    · exact soundMembers_mem hs hm

/-- The request made from the words of the command line. -/
theorem client_request {X : Ext} {N : Floats} (send : Tcp.Request → Option Reply) (env : Option Str) (expr : Str) (as : List Client.Spec.Word) (h : ∀ a ∈ as, a.ok X)
    (hj : Client.Spec.document as = none) (hb : as = [] ∨ expr ≠ c!"--benchmark") (hv : ∀ n t j, Client.Spec.Word.set n t j ∈ as → Sound N j ∧ depth j ≤ 125) :
    ∃ vs, run X send env (expr :: as.flatMap Client.Spec.Word.words) = shown (send ⟨expr, vs, some (Client.Spec.wantsJson as), (Client.Spec.tokenOf as).or env⟩) ∧
      (match vs with | some js => Tcp.bind X js (fun _ => none) | none => fun _ => none) = Client.Spec.given X as ∧
      ∀ l, vs = some l → Carried N l ∧ depthMembers l ≤ 125 := by
  obtain ⟨vars, e, hm, hin, hnd⟩ := Client.parseArgs_words X as [] ⟨none, false, env, []⟩ h
  rw [List.append_nil] at e
  have hb' : ¬ (as.flatMap Client.Spec.Word.words ≠ [] ∧ expr = c!"--benchmark") := by
    rintro ⟨h1, h2⟩
    rcases hb with rfl | hb
    · simp at h1
    · exact hb h2
  unfold run
  simp only
  rw [if_neg hb', e]
  simp only [Client.parseArgs, hj, Option.or_none, Bool.false_or, Client.request]
  have hm' : FrontEnds.Spec.members X vars = Client.Spec.given X as := by
    rw [hm]; funext n; simp [FrontEnds.Spec.members]
  have henv : (match (if vars.isEmpty then none else some vars) with | some js => Tcp.bind X js (fun _ => none) | none => fun _ => none) = Client.Spec.given X as := by
    rw [← hm']
    cases vars with
    | nil => funext n; simp [FrontEnds.Spec.members]
    | cons m ms => funext n; simp [FrontEnds.tcp_members]
  have hval : ∀ m ∈ vars, Sound N m.2 ∧ depth m.2 ≤ 125 := fun m hm => by
    rcases hin m hm with h | ⟨t, h⟩
    · simp at h
    · exact hv _ _ _ h
  have hc : ∀ vs, (if vars.isEmpty then none else some vars) = some vs → Carried N vs ∧ depthMembers vs ≤ 125 := fun vs hvs => by
    have e : vars = vs := by
      cases vars with
      | nil => simp at hvs
      | cons m ms => simpa using hvs
    subst e
    exact ⟨⟨hnd (by simp), fun m hm => (hval m hm).1⟩, depthMembers_le.2 fun m hm => (hval m hm).2⟩
  exact ⟨if vars.isEmpty then none else some vars, rfl, henv, hc⟩

/-- **C128.** From the command line to the screen, through both lines: a run of the client without `--json`, against a server whose token it gives (or that has none), shows what the expression is worth with
exactly the variables given, the last one for each name. -/
theorem C128_client (X : Ext) (N : Floats) (order order' : Order) (ho : Shuffles order) (ho' : Shuffles order') (why : Str → Str) (reg : Registry) (token : Option Str)
    (time : F64) (ht : FloatBack N time) (id : Nat) (hi : id < 2 ^ 64) (env : Option Str) (expr : Str) (as : List Client.Spec.Word) (h : ∀ a ∈ as, a.ok X)
    (hj : Client.Spec.document as = none) (hb : as = [] ∨ expr ≠ c!"--benchmark") (hk : ∀ t, token = some t → ((Client.Spec.tokenOf as).or env).getD [] = t)
    (hv : ∀ n t j, Client.Spec.Word.set n t j ∈ as → Sound N j ∧ depth j ≤ 125)
    (hr : ∀ v, FrontEnds.Spec.worth X reg expr (Client.Spec.given X as) = .ok v →
      Sound N (Tcp.resultJson X (some (Client.Spec.wantsJson as)) v) ∧ depth (Tcp.resultJson X (some (Client.Spec.wantsJson as)) v) ≤ 126) :
    run X (sendRequest X N order (setup N order' why reg token) time id) env (expr :: as.flatMap Client.Spec.Word.words) =
      ends X (Client.Spec.wantsJson as) (FrontEnds.Spec.worth X reg expr (Client.Spec.given X as)) := by
  obtain ⟨vs, e, henv, hc⟩ := client_request (N := N) (sendRequest X N order (setup N order' why reg token) time id) env expr as h hj hb hv
  rw [e]
  unfold sendRequest
  rw [answer_line ho ho' why reg token _ hc id, if_pos hk]
  exact shown_process ht rfl hi henv hr

/-- **C128.** With `--json` the variables are the members of the document. -/
theorem C128_client_document (X : Ext) (N : Floats) (hu : Uses X N) (order order' : Order) (ho : Shuffles order) (ho' : Shuffles order') (why : Str → Str) (reg : Registry)
    (token : Option Str) (time : F64) (ht : FloatBack N time) (id : Nat) (hi : id < 2 ^ 64) (env : Option Str) (expr text : Str) (as : List Client.Spec.Word) (h : ∀ a ∈ as, a.ok X)
    (hj : Client.Spec.document as = some text) (hb : expr ≠ c!"--benchmark") (hk : ∀ t, token = some t → ((Client.Spec.tokenOf as).or env).getD [] = t)
    (ms : List (Str × Json)) (hp : JsonText.parse N text = some (.obj ms)) (hx : ∀ x ∈ doubles (.obj ms), FloatBack N x) (hd : depth (.obj ms) ≤ 126)
    (hr : ∀ v, FrontEnds.Spec.worth X reg expr (FrontEnds.Spec.members X ms) = .ok v →
      Sound N (Tcp.resultJson X (some (Client.Spec.wantsJson as)) v) ∧ depth (Tcp.resultJson X (some (Client.Spec.wantsJson as)) v) ≤ 126) :
    run X (sendRequest X N order (setup N order' why reg token) time id) env (expr :: as.flatMap Client.Spec.Word.words) =
      ends X (Client.Spec.wantsJson as) (FrontEnds.Spec.worth X reg expr (FrontEnds.Spec.members X ms)) := by
  obtain ⟨vars, e, -⟩ := Client.parseArgs_words X as [] ⟨none, false, env, []⟩ h
  rw [List.append_nil] at e
  unfold run
  simp only
  rw [if_neg (fun h => hb h.2), e]
  simp only [Client.parseArgs, hj, Option.some_or, Bool.false_or, Client.request, (hu.parse _ _).2 hp]
  have henv : (Tcp.bind X ms fun _ => none) = FrontEnds.Spec.members X ms := by
    funext n; simp [FrontEnds.tcp_members]
  have hs : Carried N ms := by
    obtain ⟨d, ⟨_, _, _, _, _, hval, _⟩, hkeep⟩ := (C127_reads N _ _).1 hp
    have en := norm_iff.2 hkeep
    have := sound_norm d (val_exact hval) (by rw [en]; exact hx)
    rw [en] at this
    cases this with
    | obj hms hor =>
      refine ⟨hor.imp fun h => ?_, ?_⟩
      · rintro rfl
        rw [Str.lt_irrefl] at h
        cases h
      · exact fun m hm => soundMembers_mem hms hm
  unfold sendRequest
  rw [answer_line ho ho' why reg token _ (fun vs hvs => by cases hvs; exact ⟨hs, by rw [depth] at hd; omega⟩) id, if_pos hk]
  exact shown_process ht rfl hi henv hr

/-- **C128.** Without the right token the client shows the refusal, and nothing is evaluated. -/
theorem C128_client_token (X : Ext) (N : Floats) (order order' : Order) (ho : Shuffles order) (ho' : Shuffles order') (why : Str → Str) (reg : Registry) (t : Str)
    (time : F64) (ht : FloatBack N time) (id : Nat) (hi : id < 2 ^ 64) (env : Option Str) (expr : Str) (as : List Client.Spec.Word) (h : ∀ a ∈ as, a.ok X)
    (hj : Client.Spec.document as = none) (hb : as = [] ∨ expr ≠ c!"--benchmark") (hk : ((Client.Spec.tokenOf as).or env).getD [] ≠ t)
    (hv : ∀ n t j, Client.Spec.Word.set n t j ∈ as → Sound N j ∧ depth j ≤ 125) :
    run X (sendRequest X N order (setup N order' why reg (some t)) time id) env (expr :: as.flatMap Client.Spec.Word.words) = .error c!"Unauthorized: invalid token" := by
  obtain ⟨vs, e, henv, hc⟩ := client_request (N := N) (sendRequest X N order (setup N order' why reg (some t)) time id) env expr as h hj hb hv
  rw [e]
  unfold sendRequest
  rw [answer_line ho ho' why reg (some t) _ hc id, if_neg fun h => hk (h t rfl)]
  simp only
  rw [(C128_reply N time ht ⟨false, none, some .unauthorized, id⟩ (fun j h => by cases h) hi).2.1 (fun j h => by cases h)]
  rfl

/-- A value whose numbers and amounts are read back, if finite, whose dates are integers of 64 bits, and whose document, if it is one, is not deep; for the elements of an array alike, an array in an array being
sent as text. -/
def _root_.Wire.Spec.Scalar (N : Floats) : Value → Prop
  | .num x | .cur x => x.isFinite = true → FloatBack N x
  | .dt t => Exact t
  | .json s => ∀ j, JsonText.parse N s = some j → (∀ x ∈ doubles j, FloatBack N x) ∧ depth j ≤ 124
  | _ => True

/-- See `Scalar`. -/
def _root_.Wire.Spec.Ordinary (N : Floats) : Value → Prop
  | .arr vs => ∀ v ∈ vs, Wire.Spec.Scalar N v
  | v => Wire.Spec.Scalar N v

theorem parse_sound {N : Floats} {s : Str} {j : Json} (h : JsonText.parse N s = some j) (hx : ∀ x ∈ doubles j, FloatBack N x) : Sound N j := by
  obtain ⟨d, ⟨_, _, _, _, _, hval, _⟩, hkeep⟩ := (C127_reads N _ _).1 h
  have en := norm_iff.2 hkeep
  have := sound_norm d (val_exact hval) (by rw [en]; exact hx)
  rwa [en] at this

theorem ofF64_sound {N : Floats} {x : F64} (h : x.isFinite = true → FloatBack N x) : Sound N (Json.ofF64 x) ∧ depth (Json.ofF64 x) ≤ 124 := by
  unfold Json.ofF64
  by_cases hf : x.isFinite = true
  · rw [if_pos hf]; exact ⟨.float (h hf), by simp [depth]⟩
  · rw [if_neg hf]; exact ⟨.null, by simp [depth]⟩

theorem element_sound {X : Ext} {N : Floats} (hu : Uses X N) (w : Bool) (v : Value) (h : Wire.Spec.Scalar N v) : Sound N (Tcp.element X w v) ∧ depth (Tcp.element X w v) ≤ 124 := by
  cases v with
  | num x => exact ofF64_sound h
  | cur x => exact ofF64_sound h
  | str s => exact ⟨.str _, by simp [Tcp.element, depth]⟩
  | bool b => exact ⟨.bool _, by simp [Tcp.element, depth]⟩
  | null => exact ⟨.null, by simp [Tcp.element, depth]⟩
  | arr vs => exact ⟨.str _, by simp [Tcp.element, depth]⟩
  | dt t =>
    unfold Tcp.element
    cases w
    · exact ⟨.str _, by simp [depth]⟩
    · exact ⟨.int h, by simp [depth]⟩
  | json s =>
    simp only [Tcp.element]
    cases hj : X.jsonParse s with
    | ok j =>
      have hp := (hu.parse s j).1 hj
      obtain ⟨hx, hd⟩ := h j hp
      exact ⟨parse_sound hp hx, hd⟩
    | error e => exact ⟨.str _, by simp [depth]⟩

theorem elements_sound {X : Ext} {N : Floats} (hu : Uses X N) (w : Bool) : ∀ vs : List Value, (∀ v ∈ vs, Wire.Spec.Scalar N v) →
    SoundItems N (vs.map (Tcp.element X w)) ∧ depthItems (vs.map (Tcp.element X w)) ≤ 124
  | [], _ => ⟨.nil, by simp [depthItems]⟩
  | v :: vs, h => by
    have h1 := element_sound hu w v (h v (by simp))
    have h2 := elements_sound hu w vs fun u hu => h u (List.mem_cons_of_mem _ hu)
    exact ⟨.cons h1.1 h2.1, by rw [List.map_cons, depthItems]; exact max_le h1.2 h2.2⟩

/-- **C128.** What is asked of results in the theorems above holds of every value without dates out of range and without deep documents, if doubles are read back. -/
theorem C128_results (X : Ext) (N : Floats) (hu : Uses X N) (v : Value) (h : Wire.Spec.Ordinary N v) (wrapped : Option Bool) :
    Sound N (Tcp.resultJson X wrapped v) ∧ depth (Tcp.resultJson X wrapped v) ≤ 126 := by
  have hout : ∀ w, Sound N (Tcp.output X w v) ∧ depth (Tcp.output X w v) ≤ 125 := by
    intro w
    cases v with
    | arr vs =>
      have := elements_sound hu w vs h
      exact ⟨.arr this.1, by rw [Tcp.output, depth]; omega⟩
    | num x => exact (element_sound (v := (.num x)) hu w h).imp_right fun h => Nat.le_trans h (by decide)
    | str s => exact (element_sound (v := (.str s)) hu w h).imp_right fun h => Nat.le_trans h (by decide)
    | bool b => exact (element_sound (v := (.bool b)) hu w h).imp_right fun h => Nat.le_trans h (by decide)
    | cur c => exact (element_sound (v := (.cur c)) hu w h).imp_right fun h => Nat.le_trans h (by decide)
    | dt t => exact (element_sound (v := (.dt t)) hu w h).imp_right fun h => Nat.le_trans h (by decide)
    | null => exact (element_sound (v := .null) hu w h).imp_right fun h => Nat.le_trans h (by decide)
    | json s => exact (element_sound (v := (.json s)) hu w h).imp_right fun h => Nat.le_trans h (by decide)
  unfold Tcp.resultJson
  by_cases hw : wrapped.getD false = true
  · rw [if_pos hw]
    have := hout true
    refine ⟨.obj (.cons this.1 (.cons (.str _) .nil)) ?_, ?_⟩
    · exact List.pairwise_cons.2 ⟨fun b hb => by rw [List.mem_singleton.1 hb]; exact (by decide +kernel : Str.lt c!"result" c!"type" = true), List.pairwise_singleton _ _⟩
    · simp only [depth, depthMembers]; omega
  · rw [if_neg hw]
    exact (hout false).imp_right fun h => Nat.le_trans h (by decide)

/-- **C128.** On one connection, among any others and under every interleaving: a client that writes requests as lines and closes its side has got, when its connection has gone on often enough, one response for
each request, in order, and it is what the server does with that request at some moment of the history. Required is that no evaluation panics and that the client takes what is written. -/
theorem C128_history (N : Floats) (order order' : Order) (ho : Shuffles order) (ho' : Shuffles order') (why : Str → Str) (reg : Registry) (token : Option Str) (qs : List Tcp.Request)
    (hv : ∀ q ∈ qs, ∀ vs, q.variables = some vs → Carried N vs ∧ depthMembers vs ≤ 125) (h1 h2 : List Tcp.Event)
    (hw : ∀ X, Tcp.Event.go (Tcp.Spec.clients h1).length X false ∉ h1 ++ .accept (Tcp.Spec.sends (qs.map (requestLine N order))) :: h2)
    (hp : ∀ X w q id f, Tcp.Event.go (Tcp.Spec.clients h1).length X w ∈ h1 ++ .accept (Tcp.Spec.sends (qs.map (requestLine N order))) :: h2 → q ∈ qs → Tcp.process X reg q id ≠ .error f)
    (hs : 2 * qs.length + 1 ≤ Tcp.Spec.steps h2 (Tcp.Spec.clients h1).length) :
    ∃ c, (Tcp.Server.after (setup N order' why reg token) (h1 ++ .accept (Tcp.Spec.sends (qs.map (requestLine N order))) :: h2)).conns[(Tcp.Spec.clients h1).length]? = some c ∧
      List.Forall₂ (fun q r => ∃ X w, Tcp.Event.go (Tcp.Spec.clients h1).length X w ∈ h1 ++ .accept (Tcp.Spec.sends (qs.map (requestLine N order))) :: h2 ∧
        ((∀ t, token = some t → q.token.getD [] = t) → Tcp.process X reg q r.id = .ok r) ∧
        ((∃ t, token = some t ∧ q.token.getD [] ≠ t) → r = ⟨false, none, some .unauthorized, r.id⟩)) qs c.sent := by
  have hline : ∀ q ∈ qs, (∀ c ∈ requestLine N order q, 32 ≤ c.toNat) ∧ (Str.strip (requestLine N order q)).isEmpty = false := fun q hq => by
    have := C128_request N order order' ho ho' why reg token q (hv q hq)
    exact ⟨this.1, this.2.1⟩
  obtain ⟨c, hc, hf⟩ := Tcp.C61_lines_answered_partial (setup N order' why reg token) h1 (qs.map (requestLine N order)) h2 (by
      intro l hl
      obtain ⟨q, hq, rfl⟩ := List.mem_map.1 hl
      have := (hline q hq).1
      refine ⟨fun hm => absurd (this _ hm) (by decide), fun hm => absurd (this _ (List.mem_of_getLast? hm)) (by decide)⟩) hw (by
      intro X w line id f hgo hl
      obtain ⟨q, hq, rfl⟩ := List.mem_map.1 hl
      rw [answer_line ho ho' why reg token q (hv q hq) id]
      by_cases h : ∀ t, token = some t → q.token.getD [] = t
      · rw [if_pos h]; exact hp X w q id f hgo hq
      · rw [if_neg h]; exact fun e => by cases e) (by rw [List.length_map]; exact hs)
  refine ⟨c, hc, ?_⟩
  rw [List.filter_eq_self.2 (by
    intro l hl
    obtain ⟨q, hq, rfl⟩ := List.mem_map.1 hl
    rw [(hline q hq).2]; rfl)] at hf
  rw [List.forall₂_map_left_iff] at hf
  refine (List.forall₂_iff_get.2 ⟨hf.length_eq, fun i hi hi' => ?_⟩)
  obtain ⟨X, w, hgo, ha⟩ := (List.forall₂_iff_get.1 hf).2 i hi hi'
  have hq : qs.get ⟨i, hi⟩ ∈ qs := List.get_mem _ _
  rw [answer_line ho ho' why reg token _ (hv _ hq)] at ha
  refine ⟨X, w, hgo, fun h => by rwa [if_pos h] at ha, fun ⟨t, e1, e2⟩ => ?_⟩
  rw [if_neg fun h => e2 (h t e1)] at ha
  exact (Except.ok.inj ha).symm

/-! ### Cases -/

/-- A request with texts that need escapes. -/
def sampleRequest : Tcp.Request := ⟨c!"CONCAT(:a, \"x\\n\")", some [(c!"b", .num (.float (.fin (1 / 2)))), (c!"a", .str c!"1\n{\"expression\":\"2\"}")], some false, some c!"s\"t"⟩

example : requestLine halves id sampleRequest =
    c!"{\"expression\":\"CONCAT(:a, \\\"x\\\\n\\\")\",\"variables\":{\"b\":0.5,\"a\":\"1\\n{\\\"expression\\\":\\\"2\\\"}\"},\"output_json\":false,\"token\":\"s\\\"t\"}" := by kernel_rfl

theorem sampleRequest_carried : ∀ vs, sampleRequest.variables = some vs → Carried halves vs ∧ depthMembers vs ≤ 125 := by
  intro vs h
  cases h
  refine ⟨⟨by decide, ?_⟩, by decide +kernel⟩
  intro m hm
  rcases List.mem_cons.1 hm with rfl | hm
  · exact .float half_back
  · rw [List.mem_singleton.1 hm]; exact .str _

example : Shuffles id ∧ Shuffles List.reverse := ⟨fun _ => .refl _, fun _ => List.reverse_perm _⟩

/-- A response with a document. -/
def sampleReply : Tcp.Response := ⟨true, some sampleTree, none, 41⟩

example : readReply halves (replyLine halves (.fin (1 / 2)) sampleReply) = some ⟨true, some sampleTree, none, .fin (1 / 2), 41⟩ := by kernel_rfl
example : readReply halves c!"{\"success\":false,\"error\":\"x\",\"execution_time_ms\":0,\"request_id\":7,\"more\":[]}" = some ⟨false, none, some c!"x", .zero false, 7⟩ := by kernel_rfl

/-- A whole run of the client. -/
example : run halvesExt (sendRequest halvesExt halves id (setup halves List.reverse (fun _ => []) Registry.empty (some c!"k")) (.fin (1 / 2)) 3) (some c!"k")
    [c!":b", c!"a=x", c!"b='it is \"so\"'"] = .printed (.str c!"it is \"so\"") := by kernel_rfl
example : run halvesExt (sendRequest halvesExt halves id (setup halves List.reverse (fun _ => []) Registry.empty (some c!"k")) (.fin (1 / 2)) 3) none [c!"1"] =
    .error c!"Unauthorized: invalid token" := by kernel_rfl
example : run halvesExt (sendRequest halvesExt halves id (setup halves List.reverse (fun _ => []) Registry.empty none) (.fin (1 / 2)) 3) none [c!":nope"] =
    .error c!"Missing variable: :nope" := by kernel_rfl

example : Wire.Spec.Ordinary halves (.arr [.num (.fin (1 / 2)), .dt 5, .str c!"a", .arr [.json c!"[["], .json c!"{\"a\":[0.5]}"]) := by
  intro v hv
  simp only [List.mem_cons, List.not_mem_nil, or_false] at hv
  rcases hv with rfl | rfl | rfl | rfl | rfl
  · exact fun _ => half_back
  · exact ⟨by decide, by decide⟩
  · trivial
  · trivial
  · intro j hj
    have : JsonText.parse halves c!"{\"a\":[0.5]}" = some (.obj [(c!"a", .arr [.num (.float (.fin (1 / 2)))])]) := by kernel_rfl
    cases (this.symm.trans hj)
    exact ⟨fun x hx => by rw [show x = .fin (1 / 2) by simpa [doubles, doublesMembers, doublesItems] using hx]; exact half_back, by decide +kernel⟩

/-- Arrays in each other. -/
def boxes : Nat → Json
  | 0 => .null
  | n + 1 => .arr [boxes n]

theorem boxes_sound (N : Floats) : ∀ n, Sound N (boxes n) ∧ depth (boxes n) = n
  | 0 => ⟨.null, rfl⟩
  | n + 1 => ⟨.arr (.cons (boxes_sound N n).1 .nil), by rw [boxes, depth, depthItems, depthItems, (boxes_sound N n).2]; simp⟩

/-- A document nested 126 deep cannot be sent. -/
example (X : Ext) (id : Nat) : Tcp.answer X (setup halves List.reverse (fun _ => c!"recursion limit") Registry.empty none)
      (requestLine halves _root_.id ⟨c!"1", some [(c!"a", boxes 126)], none, none⟩) id = .ok ⟨false, none, some (.invalid c!"recursion limit"), id⟩ :=
  C128_too_deep X halves _ _ (fun _ => .refl _) _ _ _ _ [(c!"a", boxes 126)] rfl
    ⟨by simp, fun m hm => by rw [List.mem_singleton.1 hm]; exact (boxes_sound _ _).1⟩ (by simp [depthMembers, (boxes_sound halves 126).2]) id

theorem sampleRequest_process (id : Nat) : (Tcp.process halvesExt Registry.empty sampleRequest id).map (fun r => (r.success, r.error, r.id)) = .ok (true, none, id) := by kernel_rfl

theorem oneRequest_process (id : Nat) : (Tcp.process halvesExt Registry.empty ⟨c!"1", none, none, none⟩ id).map (fun r => (r.success, r.error, r.id)) = .ok (true, none, id) := by kernel_rfl

/-- Two requests on one connection, the second with a wrong token. -/
example : ∃ c, (Tcp.Server.after (setup halves List.reverse (fun _ => []) Registry.empty (some c!"s\"t"))
      (.accept (Tcp.Spec.sends ([sampleRequest, ⟨c!"1", none, none, none⟩].map (requestLine halves id))) :: List.replicate 5 (.go 0 halvesExt true))).conns[0]? = some c ∧
    c.sent.map (fun r => (r.success, r.error)) = [(true, none), (false, some .unauthorized)] := by
  obtain ⟨c, h1, h2⟩ := C128_history halves id List.reverse (fun _ => .refl _) (fun _ => List.reverse_perm _) (fun _ => []) Registry.empty (some c!"s\"t")
    [sampleRequest, ⟨c!"1", none, none, none⟩] (by
      intro q hq
      simp only [List.mem_cons, List.not_mem_nil, or_false] at hq
      rcases hq with rfl | rfl
      · exact sampleRequest_carried
      · intro vs h; cases h) [] (List.replicate 5 (.go 0 halvesExt true)) (by
      intro X h
      simp at h) (by
      intro X w q id f h hq e
      have hX : X = halvesExt := by
        simp at h; exact h.2.1
      subst hX
      simp only [List.mem_cons, List.not_mem_nil, or_false] at hq
      rcases hq with rfl | rfl
      · have := sampleRequest_process id; rw [e] at this; cases this
      · have := oneRequest_process id; rw [e] at this; cases this) (by decide +kernel)
  refine ⟨c, h1, ?_⟩
  generalize c.sent = sent at h2
  cases h2 with
  | cons ha h2 =>
    cases h2 with
    | cons hb h2 =>
      cases h2
      obtain ⟨X, w, hgo, ha, -⟩ := ha
      obtain ⟨_, _, _, -, hb⟩ := hb
      have hX : X = halvesExt := by
        simp at hgo; exact hgo.2.1
      subst hX
      have e1 := ha (fun t ht => by cases ht; rfl)
      have e2 := hb ⟨_, rfl, by decide⟩
      have h3 := sampleRequest_process
      have h4 := Except.ok.inj ((congrArg (Except.map fun r => (r.success, r.error, r.id)) e1).symm.trans (h3 _))
      rw [List.map_cons, List.map_cons, List.map_nil, e2]
      simp only [Prod.mk.injEq] at h4
      rw [h4.1, h4.2.1]

end Wire
