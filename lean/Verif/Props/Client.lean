import Verif.Props.FrontEnds
import Verif.Model.Client
/-! C87: the command-line client of the TCP server. -/

open Client

namespace Client.Spec

/-- An argument after the expression. -/
inductive Word where
  | outputJson
  | json (text : Str)
  | token (text : Str)
  | set (name text : Str) (j : Json)

/-- How it is written; an option with a parameter takes two words. -/
def Word.words : Word → List Str
  | .outputJson => [c!"--output-json"]
  | .json t => [c!"--json", t]
  | .token t => [c!"--token", t]
  | .set n t _ => [n ++ '=' :: t]

/-- A name without `=`, and a text that is read as the value. -/
def Word.ok (X : Ext) : Word → Prop
  | .set n t j => '=' ∉ n ∧ parseValue X t = .ok j
  | _ => True

/-- The value given to a name: the last one. -/
def given (X : Ext) (as : List Word) : Env := fun n =>
  as.reverse.findSome? fun
    | .set m _ j => if m = n then some (Json.toValue X j) else none
    | _ => none

/-- The JSON given: the last one. -/
def document (as : List Word) : Option Str :=
  as.reverse.findSome? fun
    | .json t => some t
    | _ => none

/-- The token given: the last one. -/
def tokenOf (as : List Word) : Option Str :=
  as.reverse.findSome? fun
    | .token t => some t
    | _ => none

/-- Whether JSON output is asked for. -/
def wantsJson (as : List Word) : Bool := as.any fun
  | .outputJson => true
  | _ => false

/-- The server with this setup at the other end: the request is written as a line, the server answers it; a panic closes the connection. -/
def server (X : Ext) (S : Tcp.Setup) (encode : Tcp.Request → Str) (id : Nat) (q : Tcp.Request) : Option Tcp.Response :=
  match Tcp.answer X S (encode q) id with
  | .ok r => some r
  | .error _ => none

/-- What the client shows of a result. -/
def shown (X : Ext) (outputJson : Bool) : Res Value → Outcome
  | .ok v => .printed (Tcp.resultJson X (some outputJson) v)
  | .error (.err m a p) => .failed (some (.failed (.err m a p)))
  | .error (.panic _) => .noAnswer

end Client.Spec

namespace Client
open Client.Spec

theorem given_cons (X : Ext) (a : Word) (as : List Word) (n : Str) : given X (a :: as) n = (given X as n).or (match a with
    | .set m _ j => if m = n then some (Json.toValue X j) else none
    | _ => none) := by
  unfold given
  rw [List.reverse_cons, List.findSome?_append]
  cases a <;> simp [List.findSome?]
  split <;> simp_all

theorem document_cons (a : Word) (as : List Word) : document (a :: as) = (document as).or (match a with
    | .json t => some t
    | _ => none) := by
  unfold document
  rw [List.reverse_cons, List.findSome?_append]
  cases a <;> simp [List.findSome?]

theorem tokenOf_cons (a : Word) (as : List Word) : tokenOf (a :: as) = (tokenOf as).or (match a with
    | .token t => some t
    | _ => none) := by
  unfold tokenOf
  rw [List.reverse_cons, List.findSome?_append]
  cases a <;> simp [List.findSome?]

theorem put_ne (vars : List (Str × Json)) (n : Str) (j : Json) : put vars n j ≠ [] := by unfold put; simp

theorem members_put (X : Ext) (vars : List (Str × Json)) (n : Str) (j : Json) :
    FrontEnds.Spec.members X (put vars n j) = (FrontEnds.Spec.members X vars).insert n (Json.toValue X j) := by
  funext m
  unfold FrontEnds.Spec.members put Env.insert
  rw [List.reverse_append, List.reverse_singleton, List.singleton_append]
  by_cases hm : n = m
  · subst hm; simp
  · rw [List.find?_cons_of_neg (by simpa using hm), if_neg (Ne.symm hm), ← List.filter_reverse, List.find?_filter]
    congr 2
    funext p
    by_cases hp : p.1 = m
    · simp [hp, Ne.symm hm]
    · simp [hp]

theorem put_nodup (vars : List (Str × Json)) (n : Str) (j : Json) (h : (vars.map Prod.fst).Nodup) : ((put vars n j).map Prod.fst).Nodup := by
  unfold put
  rw [List.map_append, List.nodup_append]
  refine ⟨h.sublist (List.Sublist.map _ List.filter_sublist), by simp, ?_⟩
  intro a ha b hb e
  obtain ⟨m, hm, rfl⟩ := List.mem_map.1 ha
  have := (List.mem_filter.1 hm).2
  simp only [List.map_cons, List.map_nil, List.mem_singleton] at hb
  rw [e, hb] at this
  simp at this

theorem parseArgs_words (X : Ext) (as : List Word) (rest : List Str) : ∀ (a : Args), (∀ x ∈ as, x.ok X) →
    ∃ vars, parseArgs X (as.flatMap Word.words ++ rest) a =
      parseArgs X rest ⟨(document as).or a.json, a.outputJson || wantsJson as, (tokenOf as).or a.token, vars⟩ ∧
      (FrontEnds.Spec.members X vars = fun n => (given X as n).or (FrontEnds.Spec.members X a.vars n)) ∧
      (∀ m ∈ vars, m ∈ a.vars ∨ ∃ t, Word.set m.1 t m.2 ∈ as) ∧ ((a.vars.map Prod.fst).Nodup → (vars.map Prod.fst).Nodup) := by
  induction as with
  | nil =>
    intro a _
    exact ⟨a.vars, by simp [document, wantsJson, tokenOf], by simp [given], fun m hm => .inl hm, id⟩
  | cons x as ih =>
    intro a h
    rw [List.flatMap_cons, List.append_assoc]
    have h' := fun y hy => h y (List.mem_cons_of_mem x hy)
    rcases a with ⟨aj, ao, at', av⟩
    cases x with
    | outputJson =>
      obtain ⟨vars, e, hv, hm, hn⟩ := ih ⟨aj, true, at', av⟩ h'
      refine ⟨vars, ?_, by rw [hv]; funext n; simp [given_cons], fun m h => (hm m h).imp_right fun ⟨t, h⟩ => ⟨t, List.mem_cons_of_mem _ h⟩, hn⟩
      simp only [Word.words, List.cons_append, List.nil_append]
      conv => lhs; unfold parseArgs
      rw [if_neg (by decide), if_pos rfl, e]
      congr 1
      simp [document_cons, tokenOf_cons, wantsJson]
    | json t =>
      obtain ⟨vars, e, hv, hm, hn⟩ := ih ⟨some t, ao, at', av⟩ h'
      refine ⟨vars, ?_, by rw [hv]; funext n; simp [given_cons], fun m h => (hm m h).imp_right fun ⟨t, h⟩ => ⟨t, List.mem_cons_of_mem _ h⟩, hn⟩
      simp only [Word.words, List.cons_append, List.nil_append]
      conv => lhs; unfold parseArgs
      rw [if_pos rfl]
      simp only
      rw [e]
      congr 1
      simp only [document_cons, tokenOf_cons, wantsJson, List.any_cons, Bool.false_or, Option.or_none, Option.or_assoc, Option.some_or]
    | token t =>
      obtain ⟨vars, e, hv, hm, hn⟩ := ih ⟨aj, ao, some t, av⟩ h'
      refine ⟨vars, ?_, by rw [hv]; funext n; simp [given_cons], fun m h => (hm m h).imp_right fun ⟨t, h⟩ => ⟨t, List.mem_cons_of_mem _ h⟩, hn⟩
      simp only [Word.words, List.cons_append, List.nil_append]
      conv => lhs; unfold parseArgs
      rw [if_neg (by decide), if_neg (by decide), if_pos rfl]
      simp only
      rw [e]
      congr 1
      simp only [document_cons, tokenOf_cons, wantsJson, List.any_cons, Bool.false_or, Option.or_none, Option.or_assoc, Option.some_or]
    | set n t j =>
      obtain ⟨h1, h2⟩ := h _ List.mem_cons_self
      obtain ⟨vars, e, hv, hm, hn⟩ := ih ⟨aj, ao, at', put av n j⟩ h'
      refine ⟨vars, ?_, ?_, fun m h => ?_, fun h => hn (put_nodup _ _ _ h)⟩
      · have hq : '=' ∈ n ++ '=' :: t := by simp
        have d1 : n ++ '=' :: t ≠ c!"--json" := fun h => absurd (h ▸ hq) (by decide)
        have d2 : n ++ '=' :: t ≠ c!"--output-json" := fun h => absurd (h ▸ hq) (by decide)
        have d3 : n ++ '=' :: t ≠ c!"--token" := fun h => absurd (h ▸ hq) (by decide)
        have d4 : Str.splitOnce c!"=" (n ++ '=' :: t) = some (n, t) := by
          rw [splitOnce_over '=' [] n ('=' :: t) fun c hc h => h1 (h ▸ hc), show '=' :: t = '=' :: ([] ++ t) from rfl, splitOnce_here]
          simp
        simp only [Word.words, List.cons_append, List.nil_append]
        conv => lhs; unfold parseArgs
        rw [if_neg d1, if_neg d2, if_neg d3, d4]
        simp only [h2]
        rw [e]
        congr 1
        simp only [document_cons, tokenOf_cons, wantsJson, List.any_cons, Bool.false_or, Option.or_none]
      · rw [hv]
        funext m
        simp only [members_put, given_cons, Env.insert]
        by_cases hm : n = m
        · subst hm; simp
        · simp [hm, Ne.symm hm]
      · rcases hm m h with h | ⟨t', h⟩
        · rcases List.mem_append.1 h with h | h
          · exact .inl (List.mem_filter.1 h).1
          · rw [List.mem_singleton.1 h]; exact .inr ⟨t, List.mem_cons_self⟩
        · exact .inr ⟨t', List.mem_cons_of_mem _ h⟩

/-- The server's answer to a request that carries its token. -/
theorem process_shown (X : Ext) (reg : Registry) (expr : Str) (vs : Option (List (Str × Json))) (oj : Bool) (tok : Option Str) (id : Nat) (env : Env)
    (h : (match vs with | some js => Tcp.bind X js (fun _ => none) | none => fun _ => none) = env) :
    outcome (match Tcp.process X reg ⟨expr, vs, some oj, tok⟩ id with | .ok r => some r | .error _ => none) = shown X oj (FrontEnds.Spec.worth X reg expr env) := by
  subst h
  unfold Tcp.process FrontEnds.Spec.worth
  simp only
  cases hc : (Str.contains expr c!";" || Str.contains expr c!":=") with
  | false =>
    simp only [Bool.false_eq_true, if_false]
    rcases Lib.evaluateWithCustom X reg expr _ with (_ | _) | v <;> rfl
  | true =>
    simp only [if_true]
    rcases Lib.evaluateWithAssignments X expr _ with (_ | _) | v <;> rfl

/-- **C87.** A run of the client without `--json`, against a server whose token it gives (or that has none), shows what the expression is worth
with exactly the variables given, the last one for each name, wherever the options stand. -/
theorem C87_variables (X : Ext) (S : Tcp.Setup) (encode : Tcp.Request → Str) (hS : ∀ q, S.decode (encode q) = .ok q) (id : Nat) (env : Option Str)
    (expr : Str) (as : List Word) (h : ∀ a ∈ as, a.ok X) (hj : document as = none) (hb : as = [] ∨ expr ≠ c!"--benchmark")
    (ht : ∀ t, S.token = some t → ((tokenOf as).or env).getD [] = t) :
    run X (server X S encode id) env (expr :: as.flatMap Word.words) = shown X (wantsJson as) (FrontEnds.Spec.worth X S.reg expr (given X as)) := by
  obtain ⟨vars, e, hv, -⟩ := parseArgs_words X as [] ⟨none, false, env, []⟩ h
  rw [List.append_nil] at e
  have hb' : ¬ (as.flatMap Word.words ≠ [] ∧ expr = c!"--benchmark") := by
    rintro ⟨h1, h2⟩
    rcases hb with rfl | hb
    · simp at h1
    · exact hb h2
  unfold run
  simp only
  rw [if_neg hb', e]
  simp only [parseArgs, hj, Option.or_none, Bool.false_or, request, server, Tcp.answer, hS]
  have hv' : FrontEnds.Spec.members X vars = given X as := by
    rw [hv]; funext n; simp [FrontEnds.Spec.members]
  have henv : (match (if vars.isEmpty then none else some vars) with | some js => Tcp.bind X js (fun _ => none) | none => fun _ => none) = given X as := by
    rw [← hv']
    cases vars with
    | nil => funext n; simp [FrontEnds.Spec.members]
    | cons m ms => funext n; simp [FrontEnds.tcp_members]
  cases hst : S.token with
  | none => exact process_shown X S.reg expr _ _ _ id _ henv
  | some t =>
    simp only [ht t hst, ne_eq, not_true_eq_false, if_false]
    exact process_shown X S.reg expr _ _ _ id _ henv

/-- **C87.** With `--json` the members of the document are the variables, and those given one by one are dropped. -/
theorem C87_document (X : Ext) (S : Tcp.Setup) (encode : Tcp.Request → Str) (hS : ∀ q, S.decode (encode q) = .ok q) (id : Nat) (env : Option Str)
    (expr text : Str) (as : List Word) (h : ∀ a ∈ as, a.ok X) (hj : document as = some text) (hb : expr ≠ c!"--benchmark")
    (ht : ∀ t, S.token = some t → ((tokenOf as).or env).getD [] = t) :
    run X (server X S encode id) env (expr :: as.flatMap Word.words) = match X.jsonParse text with
      | .ok (.obj ms) => shown X (wantsJson as) (FrontEnds.Spec.worth X S.reg expr (FrontEnds.Spec.members X ms))
      | _ => .refused := by
  obtain ⟨vars, e, hv, -⟩ := parseArgs_words X as [] ⟨none, false, env, []⟩ h
  rw [List.append_nil] at e
  unfold run
  simp only
  rw [if_neg (fun h => hb h.2), e]
  simp only [parseArgs, hj, Option.some_or, Bool.false_or, request]
  rcases hp : X.jsonParse text with f | j
  · rfl
  · cases j with
    | obj ms =>
      simp only [server, Tcp.answer, hS]
      have henv : (Tcp.bind X ms fun _ => none) = FrontEnds.Spec.members X ms := by
        funext n; simp [FrontEnds.tcp_members]
      cases hst : S.token with
      | none => exact process_shown X S.reg expr (some ms) _ _ id _ henv
      | some t =>
        simp only [ht t hst, ne_eq, not_true_eq_false, if_false]
        exact process_shown X S.reg expr (some ms) _ _ id _ henv
    | _ => rfl

/-- **C87.** Without the right token nothing is evaluated. -/
theorem C87_token (X : Ext) (S : Tcp.Setup) (encode : Tcp.Request → Str) (hS : ∀ q, S.decode (encode q) = .ok q) (id : Nat) (env : Option Str)
    (expr t : Str) (as : List Word) (h : ∀ a ∈ as, a.ok X) (hj : document as = none) (hb : expr ≠ c!"--benchmark")
    (hst : S.token = some t) (ht : ((tokenOf as).or env).getD [] ≠ t) :
    run X (server X S encode id) env (expr :: as.flatMap Word.words) = .failed (some .unauthorized) := by
  obtain ⟨vars, e, -⟩ := parseArgs_words X as [] ⟨none, false, env, []⟩ h
  rw [List.append_nil] at e
  unfold run
  simp only
  rw [if_neg (fun h => hb h.2), e]
  simp only [parseArgs, hj, Option.or_none, Bool.false_or, request, server, Tcp.answer, hS, hst, if_pos ht]
  rfl

/-- **C87.** The client crashes on the texts that are a lone quote, and on no others. -/
theorem C87_panics_iff (X : Ext) (s : Str) : (∃ f, parseValue X s = .error f) ↔ s = c!"\"" ∨ s = c!"'" := by
  unfold parseValue
  by_cases hq : ((Str.startsWith s c!"\"" && Str.endsWith s c!"\"") || (Str.startsWith s c!"'" && Str.endsWith s c!"'")) = true
  · rw [if_pos hq]
    rcases Bool.or_eq_true_iff.1 hq with h | h
    all_goals
      rcases Cli.wrapped.1 h with ⟨h, _⟩ | ⟨t, h⟩
      · subst h
        rw [Cli.between_single (by decide)]
        simp [bind, Except.bind, panics]
      · subst h
        rw [Cli.between_wrapped (by decide) (by decide)]
        simp [bind, Except.bind, pure, Except.pure]
  · rw [if_neg hq]
    constructor
    · rintro ⟨f, hf⟩
      repeat' split at hf
      all_goals cases hf
    · rintro (rfl | rfl) <;> exact absurd (by decide) hq

/-- The values the server reads from what the client sends, for texts that are not lists, the words `true`, `false`, `null` in capitals, or numbers that are
not finite: the same as those the command-line tool `sk` reads. -/
theorem C87_values_partial (X : Ext) (s : Str) (hl : s.head? ≠ some '[') (hw : ∀ w ∈ [c!"true", c!"false", c!"null"], X.lower s = w → s = w)
    (hf : ∀ n, F64.parse s = some n → n.isFinite = true) :
    (parseValue X s).map (Json.toValue X) = Cli.parseValue X s := by
  rw [Cli.parseValue_eq]
  unfold parseValue
  have hb : ¬ (Str.startsWith s c!"[" && Str.endsWith s c!"]") = true := Cli.not_wrapped hl
  have lw : ∀ w ∈ [c!"true", c!"false", c!"null"], X.lower w = w := by
    intro w hw
    simp only [List.mem_cons, List.not_mem_nil, or_false] at hw
    rcases hw with rfl | rfl | rfl <;> kernel_rfl
  have e : ∀ w ∈ [c!"true", c!"false", c!"null"], (X.lower s = w) = (s = w) := by
    intro w hm
    refine propext ⟨hw w hm, ?_⟩
    rintro rfl
    exact lw _ hm
  simp only [e _ (List.mem_cons_self), e _ (List.mem_cons_of_mem _ List.mem_cons_self), e _ (List.mem_cons_of_mem _ (List.mem_cons_of_mem _ List.mem_cons_self)), if_neg hb]
  split
  · rcases Cli.between s with f | t <;> rfl
  · split
    · rfl
    · split
      · rfl
      · split
        · rfl
        · cases hp : F64.parse s with
          | none => rfl
          | some n => simp only [hf n hp, if_true]; rfl

/-- Where they differ: capital words, lists with items that are no JSON, infinities. -/
theorem C87_values_differ (X : Ext) (e : Str) (hp : X.jsonParse c!"[a]" = .error e) :
    (parseValue X c!"TRUE" = .ok (.str c!"TRUE") ∧ Cli.parseValue X c!"TRUE" = .ok (.bool true)) ∧
    (parseValue X c!"[a]" = .ok (.str c!"[a]") ∧ Cli.parseValue X c!"[a]" = .ok (.arr [.str c!"a"])) ∧
    (parseValue X c!"inf" = .ok (.num (.int 0)) ∧ Cli.parseValue X c!"inf" = .ok (.num (.inf false))) := by
  refine ⟨⟨by kernel_rfl, by kernel_rfl⟩, ⟨?_, by kernel_rfl⟩, by kernel_rfl, by kernel_rfl⟩
  unfold parseValue
  rw [if_neg (by decide), if_neg (by decide), if_neg (by decide), if_neg (by decide), if_pos (by decide), hp]

/-- **C87.** The client shows what `sk` computes locally, given the same arguments, if the texts of the values are read alike (`C87_values_partial`). -/
theorem C87_same_as_sk_partial (X : Ext) (S : Tcp.Setup) (encode : Tcp.Request → Str) (hS : ∀ q, S.decode (encode q) = .ok q) (id : Nat)
    (ht : S.token = none) (expr : Str) (hb : expr ≠ c!"--benchmark") (as : List (Str × Str × Value))
    (h : ∀ a ∈ as, '=' ∉ a.1 ∧ Cli.parseValue X a.2.1 = .ok a.2.2 ∧ (parseValue X a.2.1).map (Json.toValue X) = Cli.parseValue X a.2.1) :
    ∃ r : Res Value,
      Cli.run X S.reg (expr :: as.map fun a => a.1 ++ '=' :: a.2.1) = Cli.outcome false r ∧
      run X (server X S encode id) none (expr :: as.map fun a => a.1 ++ '=' :: a.2.1) = shown X false r := by
  have hex : ∀ a ∈ as, ∃ j, parseValue X a.2.1 = .ok j ∧ Json.toValue X j = a.2.2 := by
    intro a ha
    obtain ⟨-, h2, h3⟩ := h a ha
    rw [h2] at h3
    rcases hp : parseValue X a.2.1 with f | j
    · rw [hp] at h3; cases h3
    · rw [hp] at h3; exact ⟨j, rfl, by simpa [Except.map] using h3⟩
  have hws : ∃ ws : List Word, (∀ w ∈ ws, w.ok X) ∧ document ws = none ∧ wantsJson ws = false ∧
      (ws.flatMap Word.words = as.map fun a => a.1 ++ '=' :: a.2.1) ∧
      given X ws = Cli.Spec.given (as.map fun a => .set a.1 a.2.1 a.2.2) := by
    clear hS ht hb
    induction as with
    | nil => exact ⟨[], by simp, rfl, rfl, rfl, by funext n; simp [given, Cli.Spec.given]⟩
    | cons a as ih =>
      obtain ⟨ws, i1, i2, i3, i4, i5⟩ := ih (fun b hb => h b (List.mem_cons_of_mem _ hb)) (fun b hb => hex b (List.mem_cons_of_mem _ hb))
      obtain ⟨j, hj1, hj2⟩ := hex a List.mem_cons_self
      refine ⟨.set a.1 a.2.1 j :: ws, ?_, ?_, ?_, ?_, ?_⟩
      · intro w hw
        rcases List.mem_cons.1 hw with rfl | hw
        · exact ⟨(h a List.mem_cons_self).1, hj1⟩
        · exact i1 w hw
      · rw [document_cons, i2]; rfl
      · simpa [wantsJson] using i3
      · simp [List.flatMap_cons, Word.words, i4]
      · funext n
        rw [given_cons, i5, List.map_cons, Cli.given_cons]
        simp only [hj2]
  obtain ⟨ws, w1, w2, w3, w4, w5⟩ := hws
  refine ⟨FrontEnds.Spec.worth X S.reg expr (given X ws), ?_, ?_⟩
  · have := Cli.C69_variables X S.reg expr (as.map fun a => .set a.1 a.2.1 a.2.2) (by
      intro a ha
      obtain ⟨b, hb, rfl⟩ := List.mem_map.1 ha
      exact ⟨(h b hb).1, (h b hb).2.1⟩) (by
      unfold Cli.Spec.document
      rw [List.findSome?_eq_none_iff]
      intro x hx
      obtain ⟨b, hb, rfl⟩ := List.mem_map.1 (List.mem_reverse.1 hx)
      rfl)
    rw [show (as.map fun a => Cli.Spec.Word.set a.1 a.2.1 a.2.2).flatMap Cli.Spec.Word.words = as.map fun a => a.1 ++ '=' :: a.2.1 by
      clear * -
      induction as with
      | nil => rfl
      | cons a as ih => rw [List.map_cons, List.flatMap_cons, ih]; rfl] at this
    rw [this, w5]
    have hw : Cli.Spec.wantsJson (as.map fun a => .set a.1 a.2.1 a.2.2) = false := by
      unfold Cli.Spec.wantsJson
      rw [List.any_map]
      simp
    rw [hw]
    rfl
  · rw [← w4, C87_variables X S encode hS id none expr ws w1 w2 (.inr hb) (by rw [ht]; intro t h; cases h), w3]

/-- Not vacuous: the later of two assignments counts, and the server wants a token. -/
example (X : Ext) (S : Tcp.Setup) (encode : Tcp.Request → Str) (hS : ∀ q, S.decode (encode q) = .ok q) (ht : S.token = some c!"k") (hr : S.reg = Registry.empty) :
    run X (server X S encode 7) (some c!"old") [c!":a + :b", c!"a=1", c!"--token", c!"k", c!"b=2", c!"a=40"] = .printed (.num (.float (F64.ofNat 42))) := by
  have := C87_variables X S encode hS 7 (some c!"old") c!":a + :b"
    [.set c!"a" c!"1" (.num (.float (F64.ofNat 1))), .token c!"k", .set c!"b" c!"2" (.num (.float (F64.ofNat 2))), .set c!"a" c!"40" (.num (.float (F64.ofNat 40)))]
    (by
      intro a ha
      simp only [List.mem_cons, List.not_mem_nil, or_false] at ha
      rcases ha with rfl | rfl | rfl | rfl
      · exact ⟨by decide, by kernel_rfl⟩
      · trivial
      · exact ⟨by decide, by kernel_rfl⟩
      · exact ⟨by decide, by kernel_rfl⟩) rfl (.inr (by decide)) (by rw [ht]; intro t h; cases h; rfl)
  refine this.trans ?_
  rw [hr]
  kernel_rfl

/-- Not vacuous: a text that is read alike. -/
example (X : Ext) : (parseValue X c!"12.5").map (Json.toValue X) = Cli.parseValue X c!"12.5" := by kernel_rfl

end Client
