import Verif.Model.Startup
import Verif.Model.TcpServer
import Verif.Props.HttpAuth
/-! C92: the command lines of the servers. -/

namespace Startup

/-! ### Specification -/
namespace Spec

/-- What can be asked for on a command line. -/
inductive Opt where
  | daemon
  | host (v : Str)
  | threads (n : Nat)
  | pidFile (v : Str)
  | logFile (v : Str)
  | token (v : Str)
  | adminToken (v : Str)

/-- How an option is written for `sk_http_server`. -/
inductive HttpWords : Opt → List Str → Prop
  | daemon {w : Str} : w ∈ [c!"-d", c!"--daemon"] → HttpWords .daemon [w]
  | host {w : Str} (v : Str) : w ∈ [c!"-H", c!"--host"] → HttpWords (.host v) [w, v]
  | threads {w v : Str} {n : Nat} : w ∈ [c!"-t", c!"--threads"] → Str.parseUsize v = some n → 0 < n → HttpWords (.threads n) [w, v]
  | pidFile (v : Str) : HttpWords (.pidFile v) [c!"--pid-file", v]
  | logFile (v : Str) : HttpWords (.logFile v) [c!"--log-file", v]
  | token (v : Str) : HttpWords (.token v) [c!"--token", v]
  | adminToken (v : Str) : HttpWords (.adminToken v) [c!"--admin-token", v]

/-- How an option is written for `sk_server`: the number of threads is just a number, and there is no admin token. -/
inductive TcpWords : Opt → List Str → Prop
  | daemon {w : Str} : w ∈ [c!"-d", c!"--daemon"] → TcpWords .daemon [w]
  | host {w : Str} (v : Str) : w ∈ [c!"-H", c!"--host"] → TcpWords (.host v) [w, v]
  | threads {v : Str} {n : Nat} : Str.parseUsize v = some n → TcpWords (.threads n) [v]
  | pidFile (v : Str) : TcpWords (.pidFile v) [c!"--pid-file", v]
  | logFile (v : Str) : TcpWords (.logFile v) [c!"--log-file", v]
  | token (v : Str) : TcpWords (.token v) [c!"--token", v]

/-- A command line is a sequence of options, each written in its way. -/
inductive Line (written : Opt → List Str → Prop) : List Opt → List Str → Prop
  | nil : Line written [] []
  | cons {o : Opt} {ws : List Str} {os : List Opt} {rest : List Str} : written o ws → Line written os rest → Line written (o :: os) (ws ++ rest)

/-- The last value given for something, if it is given. -/
def last {α : Type} (f : Opt → Option α) (os : List Opt) : Option α := (os.filterMap f).getLast?

def isDaemon : Opt → Option Unit | .daemon => some () | _ => none
def hostOf : Opt → Option Str | .host v => some v | _ => none
def threadsOf : Opt → Option Nat | .threads n => some n | _ => none
def pidFileOf : Opt → Option Str | .pidFile v => some v | _ => none
def tokenOf : Opt → Option Str | .token v => some v | _ => none
def adminTokenOf : Opt → Option Str | .adminToken v => some v | _ => none

end Spec

open Startup.Spec

/-! ### Proofs -/

theorem last_cons {α : Type} (f : Opt → Option α) (o : Opt) (os : List Opt) : last f (o :: os) = (last f os).or (f o) := by
  unfold last
  cases hf : f o with
  | none => rw [List.filterMap_cons_none hf]; simp
  | some a =>
    rw [List.filterMap_cons_some hf, List.getLast?_cons]
    cases (os.filterMap f).getLast? <;> rfl

/-- One option takes effect. -/
def httpApply (o : HttpOptions) : Opt → HttpOptions
  | .daemon => { o with daemon := true }
  | .host v => { o with host := v }
  | .threads n => { o with threads := n }
  | .pidFile v => { o with pidFile := v }
  | .logFile _ => o
  | .token v => { o with token := some v }
  | .adminToken v => { o with adminToken := some v }

def httpMeans (d : HttpOptions) (os : List Opt) : HttpOptions :=
  ⟨(last tokenOf os).or d.token, (last adminTokenOf os).or d.adminToken, (last isDaemon os).isSome || d.daemon, (last pidFileOf os).getD d.pidFile,
    (last hostOf os).getD d.host, (last threadsOf os).getD d.threads⟩

theorem httpMeans_cons (d : HttpOptions) (o : Opt) (os : List Opt) : httpMeans d (o :: os) = httpMeans (httpApply d o) os := by
  unfold httpMeans
  simp only [last_cons]
  cases o <;> simp only [tokenOf, adminTokenOf, isDaemon, pidFileOf, hostOf, threadsOf, httpApply, Option.or_none, HttpOptions.mk.injEq, true_and, and_true] <;>
    cases last _ os <;> simp

theorem httpArgs_eq (d : HttpOptions) (words : List Str) (o : HttpOptions) :
    httpArgs d words = some o ↔ ∃ os, Line HttpWords os words ∧ o = httpMeans d os := by
  constructor
  · intro h
    fun_induction httpArgs d words with
    | case1 d => cases h; exact ⟨[], .nil, by simp [httpMeans, last]⟩
    | case2 d w rest hw ih =>
      obtain ⟨os, h1, rfl⟩ := ih h
      exact ⟨.daemon :: os, .cons (ws := [w]) (.daemon (by simpa using hw)) h1, by rw [httpMeans_cons]; rfl⟩
    | case3 d w _ hw v rest ih =>
      obtain ⟨os, h1, rfl⟩ := ih h
      exact ⟨.host v :: os, .cons (ws := [w, v]) (.host v (by simpa using hw)) h1, by rw [httpMeans_cons]; rfl⟩
    | case6 d w _ _ hw v rest n hn h0 ih =>
      obtain ⟨os, h1, rfl⟩ := ih h
      exact ⟨.threads n :: os, .cons (ws := [w, v]) (.threads (by simpa using hw) hn (by omega)) h1, by rw [httpMeans_cons]; rfl⟩
    | case9 d v rest _ _ _ ih =>
      obtain ⟨os, h1, rfl⟩ := ih h
      exact ⟨.pidFile v :: os, .cons (ws := [_, v]) (.pidFile v) h1, by rw [httpMeans_cons]; rfl⟩
    | case11 d v rest _ _ _ _ ih =>
      obtain ⟨os, h1, rfl⟩ := ih h
      exact ⟨.logFile v :: os, .cons (ws := [_, v]) (.logFile v) h1, by rw [httpMeans_cons]; rfl⟩
    | case13 d v rest _ _ _ _ _ ih =>
      obtain ⟨os, h1, rfl⟩ := ih h
      exact ⟨.token v :: os, .cons (ws := [_, v]) (.token v) h1, by rw [httpMeans_cons]; rfl⟩
    | case15 d v rest _ _ _ _ _ _ ih =>
      obtain ⟨os, h1, rfl⟩ := ih h
      exact ⟨.adminToken v :: os, .cons (ws := [_, v]) (.adminToken v) h1, by rw [httpMeans_cons]; rfl⟩
    | _ => cases h
  · rintro ⟨os, hl, rfl⟩
    induction hl generalizing d with
    | nil => simp [httpArgs, httpMeans, last]
    | cons hw _ ih =>
      rw [httpMeans_cons, ← ih]
      cases hw with
      | daemon hw => simp only [List.mem_cons, List.not_mem_nil, or_false] at hw; rcases hw with rfl | rfl <;> rw [List.cons_append, httpArgs.eq_def] <;> simp [httpApply]
      | host v hw => simp only [List.mem_cons, List.not_mem_nil, or_false] at hw; rcases hw with rfl | rfl <;> simp [httpArgs, httpApply]
      | threads hw hn h0 =>
        simp only [List.mem_cons, List.not_mem_nil, or_false] at hw
        rcases hw with rfl | rfl <;> simp [httpArgs, hn, Nat.pos_iff_ne_zero.1 h0, httpApply]
      | pidFile v => simp [httpArgs, httpApply]
      | logFile v => simp [httpArgs, httpApply]
      | token v => simp [httpArgs, httpApply]
      | adminToken v => simp [httpArgs, httpApply]

/-- **C92.** What `sk_http_server` does with the words after the port: it starts if they are a sequence of options and runs with the last value given for each, and with the default
where none is given. Any other line is refused. -/
theorem C92_http_options (cpus : Nat) (words : List Str) (o : HttpOptions) :
    httpArgs (httpDefaults cpus) words = some o ↔ ∃ os, Line HttpWords os words ∧
      o.token = last tokenOf os ∧ o.adminToken = last adminTokenOf os ∧ o.host = (last hostOf os).getD c!"127.0.0.1" ∧
      o.threads = (last threadsOf os).getD cpus ∧ o.pidFile = (last pidFileOf os).getD c!"skillet-http-server.pid" ∧
      o.daemon = (last isDaemon os).isSome := by
  rw [httpArgs_eq]
  constructor
  · rintro ⟨os, h, rfl⟩
    exact ⟨os, h, by simp [httpMeans, httpDefaults]⟩
  · rintro ⟨os, h, h1, h2, h3, h4, h5, h6⟩
    refine ⟨os, h, ?_⟩
    obtain ⟨_, _, _, _, _, _⟩ := o
    simp only at h1 h2 h3 h4 h5 h6
    simp [httpMeans, httpDefaults, h1, h2, h3, h4, h5, h6]

/-- **C92.** The tokens the server checks: each that is given, and the other one in place of one that is not. -/
theorem C92_http_tokens (cpus : Nat) (hooks : Option Str) (cwd : Http.Path) (port : Str) (words : List Str) (s : HttpServer)
    (h : httpServer cpus hooks cwd (port :: words) = some s) :
    ∃ os, Line HttpWords os words ∧ s.config.authToken = (last tokenOf os).or (last adminTokenOf os) ∧
      s.config.adminToken = (last adminTokenOf os).or (last tokenOf os) := by
  unfold httpServer at h
  simp only at h
  cases hp : parsePort port with
  | none => rw [hp] at h; cases h
  | some p =>
    cases ha : httpArgs (httpDefaults cpus) words with
    | none => rw [hp, ha] at h; cases h
    | some o =>
      rw [hp, ha] at h
      cases h
      obtain ⟨os, h1, h2, h3, _⟩ := (C92_http_options cpus words o).1 ha
      refine ⟨os, h1, ?_⟩
      rw [← h2, ← h3]
      cases o.token <;> cases o.adminToken <;> exact ⟨rfl, rfl⟩

theorem last_mem {α : Type} {f : Opt → Option α} {os : List Opt} {a : α} (h : last f os = some a) : ∃ o ∈ os, f o = some a := by
  have := List.mem_of_getLast? h
  simpa using this

theorem last_some {α : Type} {f : Opt → Option α} {os : List Opt} {o : Opt} {a : α} (ho : o ∈ os) (ha : f o = some a) : ∃ b, last f os = some b := by
  cases h : last f os with
  | some b => exact ⟨b, rfl⟩
  | none =>
    have : os.filterMap f = [] := by simpa [last] using h
    have hm : a ∈ os.filterMap f := List.mem_filterMap.2 ⟨o, ho, ha⟩
    rw [this] at hm
    simp at hm

/-- The tokens given on a command line. -/
def Spec.given (os : List Opt) (t : Str) : Prop := .token t ∈ os ∨ .adminToken t ∈ os

/-- **C92.** A server started with a token, whatever else is on the line and in whatever order: a request whose first authorization header carries none of the tokens given changes
nothing and gets nothing evaluated. -/
theorem C92_http_protected (X : Ext) (hX : _root_.Spec.LowersWords X) (H : Http.HttpExt) (cpus : Nat) (hooks : Option Str) (cwd : Http.Path) (port : Str) (words : List Str)
    (s : HttpServer) (h : httpServer cpus hooks cwd (port :: words) = some s) :
    ∃ os, Line HttpWords os words ∧ ∀ request site, (∃ t, given os t) →
      (∀ t, given os t → t ≠ [] ∧ ¬ _root_.Spec.FirstToken (Str.lines request) t) → (Http.handle X H s.config request site).2 = site := by
  obtain ⟨os, h1, h2, h3⟩ := C92_http_tokens cpus hooks cwd port words s h
  refine ⟨os, h1, fun request site ⟨t, ht⟩ hno => ?_⟩
  have key : ∀ c : Option Str, c ≠ none → (∀ t, c = some t → given os t) → Http.passes X request c ≠ .ok true := by
    intro c hc hg
    cases c with
    | none => exact absurd rfl hc
    | some u =>
      obtain ⟨hu, hf⟩ := hno u (hg u rfl)
      intro hp
      rcases (_root_.C54_passes X hX request u).2.1 hp with h | ⟨h, _⟩
      · exact hf h
      · exact hu h
  have mem1 : ∀ t, last tokenOf os = some t → given os t := by
    intro t ht
    obtain ⟨o, ho, hf⟩ := last_mem ht
    cases o <;> simp only [tokenOf, Option.some.injEq, reduceCtorEq] at hf
    subst hf
    exact .inl ho
  have mem2 : ∀ t, last adminTokenOf os = some t → given os t := by
    intro t ht
    obtain ⟨o, ho, hf⟩ := last_mem ht
    cases o <;> simp only [adminTokenOf, Option.some.injEq, reduceCtorEq] at hf
    subst hf
    exact .inr ho
  have hsome : last tokenOf os ≠ none ∨ last adminTokenOf os ≠ none := by
    rcases ht with ht | ht
    · obtain ⟨b, hb⟩ := last_some (f := tokenOf) ht rfl
      exact .inl (by rw [hb]; simp)
    · obtain ⟨b, hb⟩ := last_some (f := adminTokenOf) ht rfl
      exact .inr (by rw [hb]; simp)
  apply _root_.C55_nothing_without_tokens
  · apply key
    · rw [h3]; cases ha : last adminTokenOf os <;> cases hb : last tokenOf os <;> simp_all
    · intro t; rw [h3]
      cases ha : last adminTokenOf os with
      | none => exact fun e => mem1 t e
      | some a => exact fun e => mem2 t (by rw [ha]; exact e)
  · apply key
    · rw [h2]; cases ha : last adminTokenOf os <;> cases hb : last tokenOf os <;> simp_all
    · intro t; rw [h2]
      cases ha : last tokenOf os with
      | none => exact fun e => mem2 t e
      | some a => exact fun e => mem1 t (by rw [ha]; exact e)

/-! ### The TCP server -/

/-- One option takes effect. -/
def tcpApply (o : TcpOptions) : Opt → TcpOptions
  | .daemon => { o with daemon := true }
  | .host v => { o with host := v }
  | .threads n => { o with threads := n }
  | .pidFile v => { o with pidFile := v }
  | .token v => { o with token := some v }
  | _ => o

def tcpMeans (d : TcpOptions) (os : List Opt) : TcpOptions :=
  ⟨(last tokenOf os).or d.token, (last isDaemon os).isSome || d.daemon, (last pidFileOf os).getD d.pidFile, (last hostOf os).getD d.host, (last threadsOf os).getD d.threads⟩

theorem tcpMeans_cons (d : TcpOptions) (o : Opt) (os : List Opt) : tcpMeans d (o :: os) = tcpMeans (tcpApply d o) os := by
  unfold tcpMeans
  simp only [last_cons]
  cases o <;> simp only [tokenOf, isDaemon, pidFileOf, hostOf, threadsOf, tcpApply, Option.or_none, TcpOptions.mk.injEq, true_and, and_true] <;>
    cases last _ os <;> simp

theorem tcpArgs_eq (d : TcpOptions) (words : List Str) (o : TcpOptions) :
    tcpArgs d words = some o ↔ ∃ os, Line TcpWords os words ∧ o = tcpMeans d os := by
  constructor
  · intro h
    fun_induction tcpArgs d words with
    | case1 d => cases h; exact ⟨[], .nil, by simp [tcpMeans, last]⟩
    | case2 d w rest hw ih =>
      obtain ⟨os, h1, rfl⟩ := ih h
      exact ⟨.daemon :: os, .cons (ws := [w]) (.daemon (by simpa using hw)) h1, by rw [tcpMeans_cons]; rfl⟩
    | case3 d w _ hw v rest ih =>
      obtain ⟨os, h1, rfl⟩ := ih h
      exact ⟨.host v :: os, .cons (ws := [w, v]) (.host v (by simpa using hw)) h1, by rw [tcpMeans_cons]; rfl⟩
    | case5 d v rest _ _ ih =>
      obtain ⟨os, h1, rfl⟩ := ih h
      exact ⟨.pidFile v :: os, .cons (ws := [_, v]) (.pidFile v) h1, by rw [tcpMeans_cons]; rfl⟩
    | case7 d v rest _ _ _ ih =>
      obtain ⟨os, h1, rfl⟩ := ih h
      exact ⟨.logFile v :: os, .cons (ws := [_, v]) (.logFile v) h1, by rw [tcpMeans_cons]; rfl⟩
    | case9 d v rest _ _ _ _ ih =>
      obtain ⟨os, h1, rfl⟩ := ih h
      exact ⟨.token v :: os, .cons (ws := [_, v]) (.token v) h1, by rw [tcpMeans_cons]; rfl⟩
    | case11 d w rest _ _ _ _ _ n hn ih =>
      obtain ⟨os, h1, rfl⟩ := ih h
      exact ⟨.threads n :: os, .cons (ws := [w]) (.threads hn) h1, by rw [tcpMeans_cons]; rfl⟩
    | _ => cases h
  · rintro ⟨os, hl, rfl⟩
    induction hl generalizing d with
    | nil => simp [tcpArgs, tcpMeans, last]
    | cons hw _ ih =>
      rw [tcpMeans_cons, ← ih]
      cases hw with
      | daemon hw => simp only [List.mem_cons, List.not_mem_nil, or_false] at hw; rcases hw with rfl | rfl <;> rw [List.cons_append, tcpArgs.eq_def] <;> simp [tcpApply]
      | host v hw => simp only [List.mem_cons, List.not_mem_nil, or_false] at hw; rcases hw with rfl | rfl <;> simp [tcpArgs, tcpApply]
      | @threads v n hn =>
        have hne : ∀ w : Str, Str.parseUsize w = none → v ≠ w := by rintro w hw rfl; rw [hn] at hw; cases hw
        have e1 := hne c!"-d" (by decide)
        have e2 := hne c!"--daemon" (by decide)
        have e3 := hne c!"-H" (by decide)
        have e4 := hne c!"--host" (by decide)
        have e5 := hne c!"--pid-file" (by decide)
        have e6 := hne c!"--log-file" (by decide)
        have e7 := hne c!"--token" (by decide)
        rw [List.cons_append, List.nil_append, tcpArgs.eq_def]
        simp only [e1, e2, e3, e4, e5, e6, e7, or_self, if_false, hn, tcpApply]
      | pidFile v => simp [tcpArgs, tcpApply]
      | logFile v => simp [tcpArgs, tcpApply]
      | token v => simp [tcpArgs, tcpApply]

/-- **C92.** What `sk_server` does with the words after the port: as for the HTTP server, with defaults from the environment. -/
theorem C92_tcp_options (cpus : Nat) (envHost envToken : Option Str) (words : List Str) (o : TcpOptions) :
    tcpArgs (tcpDefaults cpus envHost envToken) words = some o ↔ ∃ os, Line TcpWords os words ∧
      o.token = (last tokenOf os).or envToken ∧ o.host = (last hostOf os).getD (envHost.getD c!"127.0.0.1") ∧
      o.threads = (last threadsOf os).getD cpus ∧ o.pidFile = (last pidFileOf os).getD c!"skillet-server.pid" ∧
      o.daemon = (last isDaemon os).isSome := by
  rw [tcpArgs_eq]
  constructor
  · rintro ⟨os, h, rfl⟩
    exact ⟨os, h, by simp [tcpMeans, tcpDefaults]⟩
  · rintro ⟨os, h, h1, h3, h4, h5, h6⟩
    refine ⟨os, h, ?_⟩
    obtain ⟨_, _, _, _, _⟩ := o
    simp only at h1 h3 h4 h5 h6
    simp [tcpMeans, tcpDefaults, h1, h3, h4, h5, h6]

/-- **C92.** A server that runs has the port, the folder of custom functions and the options it was given, and at least one worker. -/
theorem C92_started (cpus : Nat) (hcpus : 0 < cpus) (hooks envHost envToken : Option Str) (cwd : Http.Path) (port : Str) (words : List Str) :
    (∀ s, httpServer cpus hooks cwd (port :: words) = some s ↔
      Str.parseUsize port = some s.port ∧ s.port ≤ 65535 ∧ httpArgs (httpDefaults cpus) words = some s.options ∧
      s.config = ⟨s.options.token.or s.options.adminToken, s.options.adminToken.or s.options.token, hooks.getD c!"hooks", cwd⟩) ∧
    (∀ s, httpServer cpus hooks cwd (port :: words) = some s → 0 < s.options.threads) ∧
    (∀ n o, tcpServer cpus envHost envToken (port :: words) = .running n o ↔
      Str.parseUsize port = some n ∧ n ≤ 65535 ∧ tcpArgs (tcpDefaults cpus envHost envToken) words = some o ∧ 0 < o.threads) := by
  have hport : ∀ n, parsePort port = some n ↔ Str.parseUsize port = some n ∧ n ≤ 65535 := by
    intro n
    unfold parsePort
    cases Str.parseUsize port with
    | none => simp
    | some m =>
      simp only [Option.ite_none_right_eq_some, Option.some.injEq]
      constructor
      · rintro ⟨h, rfl⟩; exact ⟨rfl, by omega⟩
      · rintro ⟨rfl, h⟩; exact ⟨by omega, rfl⟩
  have hh : ∀ s, httpServer cpus hooks cwd (port :: words) = some s ↔
      Str.parseUsize port = some s.port ∧ s.port ≤ 65535 ∧ httpArgs (httpDefaults cpus) words = some s.options ∧
      s.config = ⟨s.options.token.or s.options.adminToken, s.options.adminToken.or s.options.token, hooks.getD c!"hooks", cwd⟩ := by
    intro s
    rw [← and_assoc, ← hport]
    unfold httpServer
    simp only
    cases parsePort port with
    | none => simp
    | some n =>
      simp only
      cases httpArgs (httpDefaults cpus) words with
      | none => simp
      | some o =>
        have ht : Http.tokens o.token o.adminToken = (o.token.or o.adminToken, o.adminToken.or o.token) := by
          cases o.token <;> cases o.adminToken <;> rfl
        simp only [ht, Option.some.injEq]
        obtain ⟨sp, so, sc⟩ := s
        constructor
        · intro h; cases h; exact ⟨rfl, rfl, rfl⟩
        · rintro ⟨rfl, rfl, h⟩; simp only at h; rw [h]
  refine ⟨hh, fun s h => ?_, fun n o => ?_⟩
  · obtain ⟨os, hl, -, -, -, h4, -, -⟩ := (C92_http_options cpus words s.options).1 ((hh s).1 h).2.2.1
    rw [h4]
    have : ∀ n ∈ os.filterMap threadsOf, 0 < n := by
      clear h h4 hh hport
      induction hl with
      | nil => simp
      | cons hw _ ih =>
        cases hw <;> simp only [List.filterMap_cons, threadsOf, List.mem_cons, forall_eq_or_imp] <;> first | exact ih | exact ⟨by assumption, ih⟩
    unfold last
    cases hg : (os.filterMap threadsOf).getLast? with
    | none => exact hcpus
    | some n => exact this n (List.mem_of_getLast? hg)
  · rw [← and_assoc, ← hport]
    unfold tcpServer
    simp only
    cases parsePort port with
    | none => simp
    | some m =>
      simp only
      cases tcpArgs (tcpDefaults cpus envHost envToken) words with
      | none => simp
      | some o' =>
        simp only [Option.some.injEq]
        split
        · rename_i h0
          simp only [reduceCtorEq, false_iff, not_and]
          rintro rfl rfl; omega
        · rename_i h0
          simp only [TcpStart.running.injEq]
          constructor
          · rintro ⟨rfl, rfl⟩; exact ⟨rfl, rfl, by omega⟩
          · rintro ⟨rfl, rfl, _⟩; exact ⟨rfl, rfl⟩

/-- **C92.** Zero threads: the HTTP server refuses, the TCP server panics. -/
theorem C92_no_threads (cpus : Nat) (hooks h t : Option Str) (cwd : Http.Path) :
    httpServer cpus hooks cwd [c!"5074", c!"--threads", c!"0"] = none ∧ tcpServer cpus h t [c!"5074", c!"0"] = .panicked := ⟨by kernel_rfl, by kernel_rfl⟩

/-- A forgotten value: the next word is taken for it, whatever it is. A server asked to log, and to require a token it is not given, runs without a token. -/
theorem C92_swallowed (hooks : Option Str) (cwd : Http.Path) :
    (httpServer 4 hooks cwd [c!"5074", c!"--log-file", c!"--token"]).map (fun s => (s.config.authToken, s.config.adminToken, s.options.host)) =
      some (none, none, c!"127.0.0.1") := by kernel_rfl

/-- Cases of the theorems. -/
example (hooks : Option Str) (cwd : Http.Path) :
    (httpServer 4 hooks cwd [c!"5074", c!"--token", c!"a", c!"-t", c!"8", c!"-H", c!"0.0.0.0", c!"--token", c!"b"]).map
      (fun s => (s.port, s.config.authToken, s.config.adminToken, s.options.host, s.options.threads)) =
      some (5074, some c!"b", some c!"b", c!"0.0.0.0", 8) := by kernel_rfl
example : Line HttpWords [.token c!"a", .daemon, .token c!"b"] [c!"--token", c!"a", c!"-d", c!"--token", c!"b"] :=
  .cons (ws := [_, _]) (.token _) <| .cons (ws := [_]) (.daemon (by decide)) <| .cons (ws := [_, _]) (.token _) .nil
example : tcpServer 4 none (some c!"env") [c!"8080", c!"16", c!"-d"] = .running 8080 ⟨some c!"env", true, c!"skillet-server.pid", c!"127.0.0.1", 16⟩ := by kernel_rfl

end Startup
