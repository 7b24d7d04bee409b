import Verif.Model.Console
import Verif.Props.Startup
/-! C124: what the servers print when they are started. -/

namespace Console

open Startup Startup.Spec

/-! ### Specification -/
namespace Spec

/-- The option with its token, if it has one, replaced. -/
def retoken (f : Str → Str) : Opt → Opt
  | .token v => .token (f v)
  | .adminToken v => .adminToken (f v)
  | o => o

/-- Nothing the server needs from the machine fails. -/
def Works (m : Machine) (daemon : Bool) : Prop :=
  m.bind = none ∧ m.nonblocking = none ∧ (daemon = true → m.detach = none ∧ m.pidFileFails = false)

/-- The line that says that nothing is protected. -/
def unprotected : Str := c!"⚠️  This server is UNPROTECTED and should not be exposed to networks."
/-- The lines that say that one token opens everything. -/
def oneToken : List Str :=
  [c!"⚠️  WARNING: Admin token and eval token are the same!", c!"⚠️  WARNING: Admin token inherited from eval token!",
   c!"⚠️  WARNING: Eval token inherited from admin token!"]

/-- The messages for an option without its value, or with a number of threads that is none. -/
def incomplete : List Str :=
  [c!"Error: --host requires an address", c!"Error: --host requires an address (e.g. 0.0.0.0)", c!"Error: --threads requires a number", c!"Error: Invalid thread count",
   c!"Error: Thread count must be greater than 0", c!"Error: --pid-file requires a filename", c!"Error: --log-file requires a filename",
   c!"Error: --token requires a value", c!"Error: --admin-token requires a value"]

end Spec

open Console.Spec

/-! ### Proofs -/

theorem httpArgs_toOption (o : HttpOptions) (ws : List Str) : (httpArgs o ws).toOption = Startup.httpArgs o ws := by
  fun_induction httpArgs o ws <;> rw [Startup.httpArgs.eq_def] <;> simp_all [Except.toOption]

theorem tcpArgs_toOption (o : TcpOptions) (ws : List Str) : (tcpArgs o ws).toOption = Startup.tcpArgs o ws := by
  fun_induction tcpArgs o ws <;> rw [Startup.tcpArgs.eq_def] <;> simp_all [Except.toOption]

theorem httpArgs_ok {o : HttpOptions} {ws : List Str} {r : HttpOptions} : httpArgs o ws = .ok r ↔ Startup.httpArgs o ws = some r := by
  rw [← httpArgs_toOption]
  cases httpArgs o ws <;> simp [Except.toOption]

theorem tcpArgs_ok {o : TcpOptions} {ws : List Str} {r : TcpOptions} : tcpArgs o ws = .ok r ↔ Startup.tcpArgs o ws = some r := by
  rw [← tcpArgs_toOption]
  cases tcpArgs o ws <;> simp [Except.toOption]

/-- A line that was accepted. -/
theorem httpMain_ok {m : Machine} {p : Str} {words : List Str} {port : Nat} {o : HttpOptions} (hp : parsePort p = some port) (ho : httpArgs (httpDefaults m.cpus) words = .ok o) :
    httpMain m (p :: words) =
      if o.daemon then
        match m.detach with
        | some f => ⟨httpDaemonLines port o (Http.tokens o.token o.adminToken).1 (Http.tokens o.token o.adminToken).2 (warnings o.token o.adminToken) ++ (detached f).1, some (detached f).2, none⟩
        | none =>
          if m.pidFileFails then ⟨httpDaemonLines port o (Http.tokens o.token o.adminToken).1 (Http.tokens o.token o.adminToken).2 (warnings o.token o.adminToken), some 0, none⟩
          else match listen m o.host port with
            | .error _ => ⟨httpDaemonLines port o (Http.tokens o.token o.adminToken).1 (Http.tokens o.token o.adminToken).2 (warnings o.token o.adminToken), some 0, none⟩
            | .ok _ => ⟨httpDaemonLines port o (Http.tokens o.token o.adminToken).1 (Http.tokens o.token o.adminToken).2 (warnings o.token o.adminToken), some 0,
                some ⟨port, o, ⟨(Http.tokens o.token o.adminToken).1, (Http.tokens o.token o.adminToken).2, m.hooksDir.getD c!"hooks", m.cwd⟩⟩⟩
      else
        match listen m o.host port with
        | .error e => ⟨loaded false m ++ [e], some 1, none⟩
        | .ok _ => ⟨loaded false m ++ httpStartupLines port o (Http.tokens o.token o.adminToken).1 (Http.tokens o.token o.adminToken).2 (warnings o.token o.adminToken), none,
            some ⟨port, o, ⟨(Http.tokens o.token o.adminToken).1, (Http.tokens o.token o.adminToken).2, m.hooksDir.getD c!"hooks", m.cwd⟩⟩⟩ := by
  simp only [httpMain, hp, ho]
  rfl

theorem listen_ok {m : Machine} {h : Str} {p : Nat} {u : Unit} : listen m h p = .ok u ↔ m.bind = none ∧ m.nonblocking = none := by
  unfold listen
  cases m.bind <;> cases m.nonblocking <;> simp

theorem listen_error {m : Machine} {h : Str} {p : Nat} {e : Str} (he : listen m h p = .error e) : c!"Error: " <+: e := by
  unfold listen at he
  cases hb : m.bind with
  | some b => rw [hb] at he; cases he; simp
  | none =>
    cases hn : m.nonblocking with
    | some b => rw [hb, hn] at he; cases he; simp
    | none => rw [hb, hn] at he; cases he

theorem httpArgs_refused {o : HttpOptions} {ws : List Str} {e : Str} (h : httpArgs o ws = .error e) :
    e ∈ incomplete ∨ ∃ os before w after, ws = before ++ w :: after ∧ Line HttpWords os before ∧ e = c!"Error: Unknown argument: " ++ w := by
  have app : ∀ (op : Opt) (a : List Str) (ws : List Str), HttpWords op a →
      (e ∈ incomplete ∨ ∃ os before w after, ws = before ++ w :: after ∧ Line HttpWords os before ∧ e = c!"Error: Unknown argument: " ++ w) →
      (e ∈ incomplete ∨ ∃ os before w after, a ++ ws = before ++ w :: after ∧ Line HttpWords os before ∧ e = c!"Error: Unknown argument: " ++ w) := by
    rintro op a ws ha (h | ⟨os, b, w, af, rfl, hl, he⟩)
    · exact .inl h
    · exact .inr ⟨op :: os, a ++ b, w, af, by simp, .cons ha hl, he⟩
  fun_induction httpArgs o ws with
  | case1 => cases h
  | case2 d w rest hw ih => exact app .daemon [w] rest (.daemon (by simpa using hw)) (ih h)
  | case3 d w _ hw v rest ih => exact app (.host v) [w, v] rest (.host v (by simpa using hw)) (ih h)
  | case6 d w _ _ hw v rest n hn h0 ih => exact app (.threads n) [w, v] rest (.threads (by simpa using hw) hn (by omega)) (ih h)
  | case9 d v rest _ _ _ ih => exact app (.pidFile v) [_, v] rest (.pidFile v) (ih h)
  | case11 d v rest _ _ _ _ ih => exact app (.logFile v) [_, v] rest (.logFile v) (ih h)
  | case13 d v rest _ _ _ _ _ ih => exact app (.token v) [_, v] rest (.token v) (ih h)
  | case15 d v rest _ _ _ _ _ _ ih => exact app (.adminToken v) [_, v] rest (.adminToken v) (ih h)
  | case17 d w rest => cases h; exact .inr ⟨[], [], w, rest, rfl, .nil, rfl⟩
  | _ => cases h; exact .inl (by decide +kernel)

theorem incomplete_error : ∀ e ∈ incomplete, c!"Error: " <+: e := by decide +kernel

theorem httpArgs_error {o : HttpOptions} {ws : List Str} {e : Str} (h : httpArgs o ws = .error e) : c!"Error: " <+: e := by
  rcases httpArgs_refused h with h | ⟨_, _, w, _, _, _, rfl⟩
  · exact incomplete_error e h
  · simp

/-- **C124.** Which server runs after `sk_http_server` has been started: the one its command line asks for (C92), unless something the machine must do for it fails. A folder of functions that
cannot be loaded does not prevent it. -/
theorem C124_http_runs (m : Machine) (p : Str) (words : List Str) (s : HttpServer) :
    (httpMain m (p :: words)).server = some s ↔ httpServer m.cpus m.hooksDir m.cwd (p :: words) = some s ∧ Works m s.options.daemon := by
  unfold httpServer
  simp only
  cases hp : parsePort p with
  | none => simp [httpMain, hp]
  | some port =>
    simp only
    cases ho : httpArgs (httpDefaults m.cpus) words with
    | error e =>
      have : Startup.httpArgs (httpDefaults m.cpus) words = none := by rw [← httpArgs_toOption, ho]; rfl
      simp [httpMain, hp, ho, this]
    | ok o =>
      rw [httpMain_ok hp ho, httpArgs_ok.1 ho]
      simp only [Option.some.injEq]
      cases hd : o.daemon with
      | false =>
        simp only [Bool.false_eq_true, if_false]
        cases hl : listen m o.host port with
        | error e =>
          simp only [reduceCtorEq, false_iff, not_and]
          rintro rfl ⟨h1, h2, _⟩
          rw [(listen_ok (u := ())).2 ⟨h1, h2⟩] at hl
          cases hl
        | ok u =>
          simp only [Option.some.injEq]
          constructor
          · rintro rfl; exact ⟨rfl, (listen_ok.1 hl).1, (listen_ok.1 hl).2, by simp [hd]⟩
          · exact fun h => h.1
      | true =>
        simp only [if_true]
        cases hm : m.detach with
        | some f =>
          simp only [reduceCtorEq, false_iff, not_and]
          rintro rfl ⟨_, _, h⟩
          rw [(h hd).1] at hm
          cases hm
        | none =>
          simp only
          cases hf : m.pidFileFails with
          | true =>
            simp only [if_true, reduceCtorEq, false_iff, not_and]
            rintro rfl ⟨_, _, h⟩
            rw [(h hd).2] at hf
            cases hf
          | false =>
            simp only [Bool.false_eq_true, if_false]
            cases hl : listen m o.host port with
            | error e =>
              simp only [reduceCtorEq, false_iff, not_and]
              rintro rfl ⟨h1, h2, _⟩
              rw [(listen_ok (u := ())).2 ⟨h1, h2⟩] at hl
              cases hl
            | ok u =>
              simp only [Option.some.injEq]
              constructor
              · rintro rfl; exact ⟨rfl, (listen_ok.1 hl).1, (listen_ok.1 hl).2, fun _ => ⟨hm, hf⟩⟩
              · exact fun h => h.1

theorem map_last {α β : Type} (f : Opt → Option α) (h : α → β) (k : Opt → Option β) (r : Opt → Opt) (hr : ∀ o, k (r o) = (f o).map h) (os : List Opt) :
    last k (os.map r) = (last f os).map h := by
  induction os with
  | nil => rfl
  | cons o os ih => rw [List.map_cons, last_cons, last_cons, ih, hr]; cases last f os <;> simp

theorem last_retoken (f : Str → Str) (os : List Opt) :
    last tokenOf (os.map (retoken f)) = (last tokenOf os).map f ∧ last adminTokenOf (os.map (retoken f)) = (last adminTokenOf os).map f ∧
    last isDaemon (os.map (retoken f)) = last isDaemon os ∧ last pidFileOf (os.map (retoken f)) = last pidFileOf os ∧
    last hostOf (os.map (retoken f)) = last hostOf os ∧ last threadsOf (os.map (retoken f)) = last threadsOf os := by
  refine ⟨map_last tokenOf f tokenOf (retoken f) (by rintro ⟨⟩ <;> rfl) os, map_last adminTokenOf f adminTokenOf (retoken f) (by rintro ⟨⟩ <;> rfl) os, ?_, ?_, ?_, ?_⟩
  · exact (map_last isDaemon id isDaemon (retoken f) (by rintro ⟨⟩ <;> rfl) os).trans (by simp)
  · exact (map_last pidFileOf id pidFileOf (retoken f) (by rintro ⟨⟩ <;> rfl) os).trans (by simp)
  · exact (map_last hostOf id hostOf (retoken f) (by rintro ⟨⟩ <;> rfl) os).trans (by simp)
  · exact (map_last threadsOf id threadsOf (retoken f) (by rintro ⟨⟩ <;> rfl) os).trans (by simp)

/-- **C124.** No token is printed: with other tokens on the command line (different ones staying different, equal ones equal) the terminal shows exactly the same, the exit status is the same,
and a server runs or not as before. -/
theorem C124_http_tokens_unseen (m : Machine) (f : Str → Str) (hf : Function.Injective f) (p : Str) (os : List Opt) (words words' : List Str)
    (h : Line HttpWords os words) (h' : Line HttpWords (os.map (retoken f)) words') :
    (httpMain m (p :: words')).terminal = (httpMain m (p :: words)).terminal ∧ (httpMain m (p :: words')).status = (httpMain m (p :: words)).status ∧
    (httpMain m (p :: words')).server.isSome = (httpMain m (p :: words)).server.isSome := by
  cases hp : parsePort p with
  | none => simp [httpMain, hp]
  | some port =>
    have ho := httpArgs_ok.2 ((httpArgs_eq (httpDefaults m.cpus) words _).2 ⟨os, h, rfl⟩)
    have ho' := httpArgs_ok.2 ((httpArgs_eq (httpDefaults m.cpus) words' _).2 ⟨_, h', rfl⟩)
    rw [httpMain_ok hp ho, httpMain_ok hp ho']
    obtain ⟨h1, h2, h3, h4, h5, h6⟩ := last_retoken f os
    simp only [httpMeans, h1, h2, h3, h4, h5, h6, httpDefaults, Option.or_none, Bool.or_false]
    have hw : warnings ((last tokenOf os).map f) ((last adminTokenOf os).map f) = warnings (last tokenOf os) (last adminTokenOf os) := by
      have hb : ∀ a b, (f a == f b) = (a == b) := fun a b => by rw [Bool.eq_iff_iff]; simp [hf.eq_iff]
      cases last tokenOf os <;> cases last adminTokenOf os <;> simp [warnings, hb]
    have ht : ∀ a b : Option Str, (Http.tokens (a.map f) (b.map f)).1.isSome = (Http.tokens a b).1.isSome ∧ (Http.tokens (a.map f) (b.map f)).2.isSome = (Http.tokens a b).2.isSome := by
      rintro ⟨⟩ ⟨⟩ <;> exact ⟨rfl, rfl⟩
    simp only [hw, httpDaemonLines, httpStartupLines, (ht _ _).1, (ht _ _).2]
    cases (last isDaemon os).isSome <;> cases m.detach <;> cases m.pidFileFails <;> cases listen m ((last hostOf os).getD c!"127.0.0.1") port <;> simp

/-- The warnings on the terminal of a server that runs are those of the tokens. -/
theorem mem_terminal {m : Machine} {p : Str} {words : List Str} {s : HttpServer} (h : (httpMain m (p :: words)).server = some s) {l : Str} (hl : l.head? = some '⚠') :
    l ∈ (httpMain m (p :: words)).terminal ↔ l ∈ (warnings s.options.token s.options.adminToken).print := by
  cases hp : parsePort p with
  | none => simp [httpMain, hp] at h
  | some port =>
    cases ho : httpArgs (httpDefaults m.cpus) words with
    | error e => simp [httpMain, hp, ho] at h
    | ok o =>
      have ne : ∀ a : Str, a.head? ≠ some '⚠' → l ≠ a := fun a ha he => ha (he ▸ hl)
      have ne2 : ∀ (c : Bool) (a : Str), a.head? ≠ some '⚠' → ¬ l ∈ (if c = true then [a] else []) := by
        intro c a ha hm
        cases c
        · simp at hm
        · simp only [if_true, List.mem_singleton] at hm; exact ne a ha hm
      have nl : l ∉ loaded false m := by
        intro hm
        unfold loaded at hm
        cases hf : m.functions with
        | ok n =>
          simp only [hf, Bool.not_false, and_true] at hm
          by_cases hn : 0 < n
          · rw [if_pos hn, List.mem_singleton] at hm; exact ne _ (by simp) hm
          · rw [if_neg hn] at hm; simp at hm
        | error e =>
          simp only [hf, Bool.not_false, if_true, List.mem_singleton] at hm
          exact ne _ (by simp) hm
      have hD : ∀ w, l ∈ httpDaemonLines port o (Http.tokens o.token o.adminToken).1 (Http.tokens o.token o.adminToken).2 w ↔ l ∈ w.print := by
        intro w
        unfold httpDaemonLines
        simp only [List.mem_append, List.mem_cons, List.not_mem_nil, or_false]
        constructor
        · rintro (((hm | hm) | hm) | hm)
          · rcases hm with hm | hm <;> exact absurd hm (ne _ (by simp))
          · exact absurd hm (ne2 _ _ (by simp))
          · exact absurd hm (ne2 _ _ (by simp))
          · exact hm
        · exact .inr
      have hS : ∀ w, l ∈ httpStartupLines port o (Http.tokens o.token o.adminToken).1 (Http.tokens o.token o.adminToken).2 w ↔ l ∈ w.print := by
        intro w
        unfold httpStartupLines
        simp only [List.mem_append, List.mem_cons, List.not_mem_nil, or_false]
        constructor
        · rintro ((((hm | hm) | hm) | hm) | hm)
          · rcases hm with hm | hm <;> exact absurd hm (ne _ (by simp))
          · exact absurd hm (ne2 _ _ (by simp))
          · exact absurd hm (ne2 _ _ (by simp))
          · exact hm
          · rcases hm with hm | hm | hm <;> exact absurd hm (ne _ (by simp))
        · exact fun hm => .inl (.inr hm)
      rw [httpMain_ok hp ho] at h ⊢
      cases hd : o.daemon with
      | false =>
        simp only [hd, Bool.false_eq_true, if_false] at h ⊢
        cases hli : listen m o.host port with
        | error e => rw [hli] at h; cases h
        | ok u =>
          rw [hli] at h
          cases h
          simp only [List.mem_append, nl, false_or]
          exact hS _
      | true =>
        simp only [hd, if_true] at h ⊢
        cases hm : m.detach with
        | some f => rw [hm] at h; cases h
        | none =>
          simp only [hm] at h ⊢
          cases hf : m.pidFileFails with
          | true => rw [hf] at h; cases h
          | false =>
            simp only [hf, Bool.false_eq_true, if_false] at h ⊢
            cases hli : listen m o.host port with
            | error e => rw [hli] at h; cases h
            | ok u =>
              rw [hli] at h
              cases h
              exact hD _

/-- The tokens of a server that runs. -/
theorem server_tokens {m : Machine} {p : Str} {words : List Str} {s : HttpServer} (h : (httpMain m (p :: words)).server = some s) :
    s.config.authToken = s.options.token.or s.options.adminToken ∧ s.config.adminToken = s.options.adminToken.or s.options.token := by
  have h := ((C124_http_runs m p words s).1 h).1
  unfold httpServer at h
  simp only at h
  cases hp : parsePort p with
  | none => rw [hp] at h; cases h
  | some port =>
    cases ho : Startup.httpArgs (httpDefaults m.cpus) words with
    | none => rw [hp, ho] at h; cases h
    | some o =>
      rw [hp, ho] at h
      cases h
      simp only
      cases o.token <;> cases o.adminToken <;> exact ⟨rfl, rfl⟩

theorem mem_print_unprotected (a b : Option Str) : unprotected ∈ (warnings a b).print ↔ a = none ∧ b = none := by
  cases a with
  | none => cases b with
    | none => simp only [and_self, iff_true]; decide +kernel
    | some b => simp only [reduceCtorEq, and_false, iff_false, warnings]; decide +kernel
  | some a => cases b with
    | none => simp only [reduceCtorEq, false_and, iff_false, warnings]; decide +kernel
    | some b =>
      simp only [reduceCtorEq, false_and, iff_false, warnings]
      cases a == b <;> decide +kernel

/-- **C124.** The server that runs has said that it is unprotected exactly if a request without an authorization header may have expressions evaluated, and exactly if it may manage functions.
*Partial*: for tokens that are not empty, see `C124_empty_token`. -/
theorem C124_unprotected_partial (X : Ext) (hX : _root_.Spec.LowersWords X) (m : Machine) (p : Str) (words : List Str) (s : HttpServer)
    (h : (httpMain m (p :: words)).server = some s) (h1 : s.config.authToken ≠ some []) (h2 : s.config.adminToken ≠ some []) (request : Str)
    (hr : ∀ l ∈ Str.lines request, ∀ t, ¬ _root_.Spec.AuthLine l t) :
    (unprotected ∈ (httpMain m (p :: words)).terminal ↔ Http.passes X request s.config.authToken = .ok true) ∧
    (unprotected ∈ (httpMain m (p :: words)).terminal ↔ Http.passes X request s.config.adminToken = .ok true) := by
  have key : ∀ c : Option Str, c ≠ some [] → (Http.passes X request c = .ok true ↔ c = none) := by
    intro c hc
    cases c with
    | none => simp [Http.passes]
    | some t =>
      simp only [reduceCtorEq, iff_false]
      rw [(_root_.C54_passes X hX request t).2]
      rintro (⟨before, line, after, e, _, ha⟩ | ⟨rfl, _⟩)
      · exact hr line (by rw [e]; simp) t ha
      · exact hc rfl
  rw [key _ h1, key _ h2, mem_terminal h rfl, mem_print_unprotected, (server_tokens h).1, (server_tokens h).2]
  cases s.options.token <;> cases s.options.adminToken <;> simp

/-- **C124.** The server that runs has said that one token opens everything exactly if that is so. -/
theorem C124_one_token (m : Machine) (p : Str) (words : List Str) (s : HttpServer) (h : (httpMain m (p :: words)).server = some s) :
    (∃ l ∈ oneToken, l ∈ (httpMain m (p :: words)).terminal) ↔ ∃ t, s.config.authToken = some t ∧ s.config.adminToken = some t := by
  have hmem : (∃ l ∈ oneToken, l ∈ (httpMain m (p :: words)).terminal) ↔ ∃ l ∈ oneToken, l ∈ (warnings s.options.token s.options.adminToken).print := by
    have : ∀ l ∈ oneToken, l.head? = some '⚠' := by decide +kernel
    constructor
    · rintro ⟨l, hl, hm⟩; exact ⟨l, hl, (mem_terminal h (this l hl)).1 hm⟩
    · rintro ⟨l, hl, hm⟩; exact ⟨l, hl, (mem_terminal h (this l hl)).2 hm⟩
  rw [hmem, (server_tokens h).1, (server_tokens h).2]
  cases s.options.token with
  | none => cases s.options.adminToken with
    | none => simp only [Option.or_none, reduceCtorEq, false_and, exists_false, iff_false]; decide +kernel
    | some b => simp only [Option.none_or, Option.some_or, Option.some.injEq, and_self, exists_eq', iff_true, warnings]; decide +kernel
  | some a => cases s.options.adminToken with
    | none => simp only [Option.or_none, Option.none_or, Option.some.injEq, and_self, exists_eq', iff_true, warnings]; decide +kernel
    | some b =>
      simp only [Option.some_or, Option.some.injEq, warnings]
      by_cases hab : a = b
      · subst hab
        simp only [beq_self_eq_true, and_self, exists_eq', iff_true]
        decide +kernel
      · have : (a == b) = false := by simpa using hab
        rw [this]
        constructor
        · intro hm; exfalso; revert hm; decide +kernel
        · rintro ⟨t, rfl, rfl⟩; exact absurd rfl hab

/-- **C124.** How a start in the foreground ends: a server runs and the process goes on, or the process ends with status 1 and the last line on the terminal is the reason. -/
theorem C124_http_foreground (m : Machine) (p : Str) (words : List Str) (hd : ∀ s, httpServer m.cpus m.hooksDir m.cwd (p :: words) = some s → s.options.daemon = false) :
    ((httpMain m (p :: words)).server.isSome ∧ (httpMain m (p :: words)).status = none) ∨
    ((httpMain m (p :: words)).server = none ∧ (httpMain m (p :: words)).status = some 1 ∧
      ∃ l, (httpMain m (p :: words)).terminal.getLast? = some l ∧ c!"Error: " <+: l) := by
  cases hp : parsePort p with
  | none => right; simp [httpMain, hp]
  | some port =>
    cases ho : httpArgs (httpDefaults m.cpus) words with
    | error e =>
      right
      simp only [httpMain, hp, ho, List.getLast?_singleton, Option.some.injEq, exists_eq_left', true_and]
      exact httpArgs_error ho
    | ok o =>
      have : o.daemon = false := by
        have := hd ⟨port, o, _⟩ (by unfold httpServer; simp only [hp, httpArgs_ok.1 ho]; rfl)
        exact this
      rw [httpMain_ok hp ho]
      simp only [this, Bool.false_eq_true, if_false]
      cases hl : listen m o.host port with
      | ok u => left; simp
      | error e =>
        right
        simp only [true_and]
        exact ⟨e, by simp, listen_error hl⟩

/-- **C124.** A command line that is refused: one line on the terminal, status 1, no server. Of the words given, the line repeats at most one, which stands where the name of an option should be. -/
theorem C124_http_refused (m : Machine) (p : Str) (words : List Str) (h : httpServer m.cpus m.hooksDir m.cwd (p :: words) = none) :
    (httpMain m (p :: words)).server = none ∧ (httpMain m (p :: words)).status = some 1 ∧ ∃ l, (httpMain m (p :: words)).terminal = [l] ∧
      (l = c!"Error: Invalid port number" ∨ l ∈ incomplete ∨
        ∃ os before w after, words = before ++ w :: after ∧ Line HttpWords os before ∧ l = c!"Error: Unknown argument: " ++ w) := by
  unfold httpServer at h
  simp only at h
  cases hp : parsePort p with
  | none => simp [httpMain, hp]
  | some port =>
    cases ho : httpArgs (httpDefaults m.cpus) words with
    | error e =>
      simp only [httpMain, hp, ho, true_and]
      exact ⟨e, rfl, .inr (httpArgs_refused ho)⟩
    | ok o => rw [hp, httpArgs_ok.1 ho] at h; cases h

/-! ### The TCP server -/

theorem tcpMain_ok {m : Machine} {p : Str} {words : List Str} {port : Nat} {o : TcpOptions} (hp : parsePort p = some port)
    (ho : tcpArgs (tcpDefaults m.cpus m.envHost m.envToken) words = .ok o) :
    tcpMain m (p :: words) =
      if o.daemon then
        match m.detach with
        | some f => ⟨tcpDaemonLines port o ++ (detached f).1, some (detached f).2, none⟩
        | none =>
          if m.pidFileFails then ⟨tcpDaemonLines port o, some 0, none⟩
          else match listen m o.host port with
            | .error _ => ⟨tcpDaemonLines port o, some 0, none⟩
            | .ok _ => ⟨tcpDaemonLines port o, some 0, if o.threads = 0 then none else some (port, o)⟩
      else
        match listen m o.host port with
        | .error e => ⟨loaded false m ++ [e], some 1, none⟩
        | .ok _ =>
          if o.threads = 0 then ⟨loaded false m ++ tcpStartupLines port o ++ m.panicText, some 101, none⟩
          else ⟨loaded false m ++ tcpStartupLines port o, none, some (port, o)⟩ := by
  simp only [tcpMain, hp, ho]
  rfl

/-- **C124.** Which server runs after `sk_server` has been started. -/
theorem C124_tcp_runs (m : Machine) (p : Str) (words : List Str) (port : Nat) (o : TcpOptions) :
    (tcpMain m (p :: words)).server = some (port, o) ↔ tcpServer m.cpus m.envHost m.envToken (p :: words) = .running port o ∧ Works m o.daemon := by
  unfold tcpServer
  simp only
  cases hp : parsePort p with
  | none => simp [tcpMain, hp]
  | some port' =>
    simp only
    cases ho : tcpArgs (tcpDefaults m.cpus m.envHost m.envToken) words with
    | error e =>
      have : Startup.tcpArgs (tcpDefaults m.cpus m.envHost m.envToken) words = none := by rw [← tcpArgs_toOption, ho]; rfl
      simp [tcpMain, hp, ho, this]
    | ok o' =>
      rw [tcpMain_ok hp ho, tcpArgs_ok.1 ho]
      simp only
      by_cases h0 : o'.threads = 0
      · simp only [if_pos h0, reduceCtorEq, false_and, iff_false]
        cases o'.daemon <;> cases m.detach <;> cases m.pidFileFails <;> cases listen m o'.host port' <;> simp
      simp only [if_neg h0, TcpStart.running.injEq]
      have hne : ∀ e, listen m o'.host port' = .error e → ¬ (m.bind = none ∧ m.nonblocking = none) := by
        intro e he hm
        rw [(listen_ok (u := ())).2 hm] at he
        cases he
      cases hd : o'.daemon with
      | false =>
        cases hl : listen m o'.host port' with
        | error e =>
          simp only [Bool.false_eq_true, if_false, reduceCtorEq, false_iff, not_and, and_imp]
          rintro rfl rfl ⟨h1, h2, _⟩
          exact hne e hl ⟨h1, h2⟩
        | ok u =>
          simp only [Bool.false_eq_true, if_false, Option.some.injEq, Prod.mk.injEq]
          constructor
          · rintro ⟨rfl, rfl⟩; exact ⟨⟨rfl, rfl⟩, (listen_ok.1 hl).1, (listen_ok.1 hl).2, by simp [hd]⟩
          · exact fun h => h.1
      | true =>
        cases hm : m.detach with
        | some f =>
          simp only [if_true, reduceCtorEq, false_iff, not_and, and_imp]
          rintro rfl rfl ⟨_, _, h⟩
          rw [(h hd).1] at hm
          cases hm
        | none =>
          cases hf : m.pidFileFails with
          | true =>
            simp only [if_true, reduceCtorEq, false_iff, not_and, and_imp]
            rintro rfl rfl ⟨_, _, h⟩
            rw [(h hd).2] at hf
            cases hf
          | false =>
            cases hl : listen m o'.host port' with
            | error e =>
              simp only [if_true, Bool.false_eq_true, if_false, reduceCtorEq, false_iff, not_and, and_imp]
              rintro rfl rfl ⟨h1, h2, _⟩
              exact hne e hl ⟨h1, h2⟩
            | ok u =>
              simp only [if_true, Bool.false_eq_true, if_false, Option.some.injEq, Prod.mk.injEq]
              constructor
              · rintro ⟨rfl, rfl⟩; exact ⟨⟨rfl, rfl⟩, (listen_ok.1 hl).1, (listen_ok.1 hl).2, fun _ => ⟨hm, hf⟩⟩
              · exact fun h => h.1

/-- **C124.** `sk_server` prints no token either, be it given on the command line or in the environment. -/
theorem C124_tcp_tokens_unseen (m : Machine) (f : Str → Str) (p : Str) (os : List Opt) (words words' : List Str)
    (h : Line TcpWords os words) (h' : Line TcpWords (os.map (retoken f)) words') :
    (tcpMain { m with envToken := m.envToken.map f } (p :: words')).terminal = (tcpMain m (p :: words)).terminal ∧
    (tcpMain { m with envToken := m.envToken.map f } (p :: words')).status = (tcpMain m (p :: words)).status ∧
    (tcpMain { m with envToken := m.envToken.map f } (p :: words')).server.isSome = (tcpMain m (p :: words)).server.isSome := by
  cases hp : parsePort p with
  | none => simp [tcpMain, hp]
  | some port =>
    have ho := tcpArgs_ok.2 ((tcpArgs_eq (tcpDefaults m.cpus m.envHost m.envToken) words _).2 ⟨os, h, rfl⟩)
    have ho' := tcpArgs_ok.2 ((tcpArgs_eq (tcpDefaults m.cpus m.envHost (m.envToken.map f)) words' _).2 ⟨_, h', rfl⟩)
    rw [tcpMain_ok hp ho, tcpMain_ok (m := { m with envToken := m.envToken.map f }) hp ho']
    obtain ⟨h1, h2, h3, h4, h5, h6⟩ := last_retoken f os
    have hor : ((last tokenOf os).map f).or (m.envToken.map f) = ((last tokenOf os).or m.envToken).map f := by
      cases last tokenOf os <;> simp
    simp only [tcpMeans, h1, h3, h4, h5, h6, tcpDefaults, hor, Bool.or_false, tcpDaemonLines, tcpStartupLines, Option.isSome_map]
    have hl : ∀ host, listen { m with envToken := m.envToken.map f } host port = listen m host port := fun _ => rfl
    have hlo : loaded false { m with envToken := m.envToken.map f } = loaded false m := rfl
    rw [hl, hlo]
    cases (last isDaemon os).isSome <;> cases m.detach <;> cases m.pidFileFails <;> cases listen m ((last hostOf os).getD (m.envHost.getD c!"127.0.0.1")) port <;>
      by_cases h0 : (last threadsOf os).getD m.cpus = 0 <;> simp [h0]

/-- **C124.** `sk_server` in the foreground says that it wants a token exactly if it does. -/
theorem C124_tcp_enabled (m : Machine) (p : Str) (words : List Str) (port : Nat) (o : TcpOptions) (h : (tcpMain m (p :: words)).server = some (port, o))
    (hd : o.daemon = false) : c!"🔒 Token auth: enabled" ∈ (tcpMain m (p :: words)).terminal ↔ o.token.isSome := by
  cases hp : parsePort p with
  | none => simp [tcpMain, hp] at h
  | some port' =>
    cases ho : tcpArgs (tcpDefaults m.cpus m.envHost m.envToken) words with
    | error e => simp [tcpMain, hp, ho] at h
    | ok o' =>
      have hoo : o' = o := by
        have := ((C124_tcp_runs m p words port o).1 h).1
        unfold tcpServer at this
        simp only [hp, tcpArgs_ok.1 ho] at this
        by_cases h0 : o'.threads = 0
        · rw [if_pos h0] at this; cases this
        · rw [if_neg h0] at this; cases this; rfl
      subst hoo
      rw [tcpMain_ok hp ho] at h ⊢
      simp only [hd, Bool.false_eq_true, if_false] at h ⊢
      cases hl : listen m o'.host port' with
      | error e => rw [hl] at h; cases h
      | ok u =>
        rw [hl] at h
        by_cases h0 : o'.threads = 0
        · simp only [if_pos h0] at h; cases h
        simp only [if_neg h0]
        have nl : c!"🔒 Token auth: enabled" ∉ loaded false m := by
          unfold loaded
          cases m.functions with
          | ok n => by_cases hn : 0 < n <;> simp [hn]
          | error e => simp
        simp only [List.mem_append, nl, false_or, tcpStartupLines]
        cases o'.token <;> simp

/-! ### Cases, and what is not so -/

/-- A machine on which everything works. -/
def fine : Machine := ⟨4, none, none, none, [], none, false, .ok 2, none, none, []⟩

/-- **C124 fails** for an empty token: the server says that a token is required, does not warn, and a request without a header may do everything. -/
theorem C124_empty_token (X : Ext) : ∃ s, (httpMain fine [c!"5074", c!"--token", c!""]).server = some s ∧
    c!"🔒 Eval token auth: enabled" ∈ (httpMain fine [c!"5074", c!"--token", c!""]).terminal ∧ unprotected ∉ (httpMain fine [c!"5074", c!"--token", c!""]).terminal ∧
    Http.passes X c!"GET /eval?expr=1 HTTP/1.1\r\n\r\n" s.config.authToken = .ok true ∧
    Http.passes X c!"DELETE /cache HTTP/1.1\r\n\r\n" s.config.adminToken = .ok true :=
  ⟨_, rfl, by decide +kernel, by decide +kernel, by kernel_rfl, by kernel_rfl⟩

/-- **C124 fails** in the background: the port is taken, and the terminal and the status are the same as if the server ran. -/
theorem C124_daemon_silent :
    (httpMain { fine with bind := some c!"Address in use" } [c!"5074", c!"-d"]).server = none ∧ (httpMain fine [c!"5074", c!"-d"]).server.isSome ∧
    (httpMain { fine with bind := some c!"Address in use" } [c!"5074", c!"-d"]).terminal = (httpMain fine [c!"5074", c!"-d"]).terminal ∧
    (httpMain { fine with bind := some c!"Address in use" } [c!"5074", c!"-d"]).status = (httpMain fine [c!"5074", c!"-d"]).status ∧
    (httpMain fine [c!"5074", c!"-d"]).status = some 0 := ⟨rfl, rfl, rfl, rfl, rfl⟩

/-- **C124 fails** for `sk_server`: open to all interfaces and without a token it says no word of it; in the background it does not say whether it wants a token. -/
theorem C124_tcp_no_warning :
    (tcpMain fine [c!"8080", c!"--host", c!"0.0.0.0"]).terminal =
      [c!"Loaded 2 custom JavaScript function(s)", c!"🚀 Skillet Server started on 0.0.0.0:8080", c!"📊 Worker threads: 4",
       c!"🔧 Ready for high-throughput expression evaluation", c!""] ∧
    (tcpMain fine [c!"8080", c!"-d", c!"--token", c!"s"]).terminal = (tcpMain fine [c!"8080", c!"-d"]).terminal := ⟨by decide +kernel, by decide +kernel⟩

/-- **C124 fails** for `sk_server` with no threads: it says that it has started and is ready, and ends. -/
theorem C124_tcp_no_threads : (tcpMain fine [c!"8080", c!"0"]).server = none ∧ (tcpMain fine [c!"8080", c!"0"]).status = some 101 ∧
    c!"🚀 Skillet Server started on 127.0.0.1:8080" ∈ (tcpMain fine [c!"8080", c!"0"]).terminal ∧
    c!"🔧 Ready for high-throughput expression evaluation" ∈ (tcpMain fine [c!"8080", c!"0"]).terminal := ⟨rfl, rfl, by decide +kernel, by decide +kernel⟩

/-- Cases of the theorems: a server without tokens, one with one token, one with two, one whose folder of functions cannot be loaded, refused lines. -/
example : (httpMain fine [c!"5074"]).terminal =
    [c!"Loaded 2 custom JavaScript function(s)", c!"🚀 Skillet HTTP Server started on http://127.0.0.1:5074", c!"🧵 Worker threads: 4",
     c!"⚠️  WARNING: Running in DEVELOPMENT MODE - no authentication required!", unprotected,
     c!"🌐 Ready for HTTP requests", c!"📖 Visit http://127.0.0.1:5074 for API documentation", c!""] := by decide +kernel
example : ((httpMain fine [c!"5074", c!"--token", c!"a"]).terminal.drop 3).take 3 =
    [c!"🔒 Eval token auth: enabled", c!"🔐 Admin token auth: enabled", c!"⚠️  WARNING: Admin token inherited from eval token!"] := by decide +kernel
example : (∀ l ∈ oneToken, l ∉ (httpMain fine [c!"5074", c!"--token", c!"a", c!"--admin-token", c!"b"]).terminal) ∧
    (httpMain fine [c!"5074", c!"--token", c!"a", c!"--admin-token", c!"b"]).server.isSome := ⟨by decide +kernel, rfl⟩
example : (httpMain { fine with functions := .error c!"no" } [c!"5074"]).server.isSome ∧
    c!"Warning: Failed to load JavaScript functions: no" ∈ (httpMain { fine with functions := .error c!"no" } [c!"5074"]).terminal := ⟨rfl, by decide +kernel⟩
example : (httpMain fine [c!"5074", c!"--token", c!"my", c!"secret"]).terminal = [c!"Error: Unknown argument: secret"] ∧
    httpServer fine.cpus fine.hooksDir fine.cwd [c!"5074", c!"--token", c!"my", c!"secret"] = none := ⟨by decide +kernel, rfl⟩
example : (httpMain { fine with bind := some c!"in use" } [c!"5074", c!"-t", c!"2"]).terminal.getLast? = some c!"Error: Failed to bind to 127.0.0.1:5074: in use" := by decide +kernel
example : Line HttpWords [.token c!"a"] [c!"--token", c!"a"] ∧ Line HttpWords ([.token c!"a"].map (retoken (c!"x" ++ ·))) [c!"--token", c!"xa"] :=
  ⟨.cons (ws := [_, _]) (.token _) .nil, .cons (ws := [_, _]) (.token _) .nil⟩
example : (tcpMain { fine with envToken := some c!"t" } [c!"8080", c!"16"]).server = some (8080, ⟨some c!"t", false, c!"skillet-server.pid", c!"127.0.0.1", 16⟩) := by decide +kernel

end Console
