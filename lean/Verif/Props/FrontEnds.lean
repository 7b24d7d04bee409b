import Verif.Props.Cli
import Verif.Props.JsonVars
import Verif.Props.Independence
import Verif.Model.TcpServer
/-! C70: the command-line tool, the TCP server and the HTTP server agree. -/

open Lib Spec

namespace FrontEnds.Spec

/-- The variables a JSON object gives, under the names of its members; the last of equal names counts. -/
def members (X : Ext) (ms : List (Str × Json)) : Env := fun n => (ms.reverse.find? fun m => m.1 = n).map fun m => Json.toValue X m.2

/-- What a text is worth with these variables: a program of assignments is run as such, anything else is evaluated with the custom functions. -/
def worth (X : Ext) (reg : Registry) (expr : Str) (env : Env) : Res Value :=
  if Str.contains expr c!";" || Str.contains expr c!":=" then evaluateWithAssignments X expr env else evaluateWithCustom X reg expr env

/-- The expression is not about the variable `n`. -/
def NotMentioned (n : Str) (expr : Str) : Prop := ∀ e, parse expr = .ok e → n ∉ vars e

end FrontEnds.Spec

namespace FrontEnds
open FrontEnds.Spec

theorem worth_congr (X : Ext) (reg : Registry) (expr : Str) (env env' : Env) (h : ∀ e, parse expr = .ok e → ∀ n ∈ vars e, env n = env' n) :
    worth X reg expr env = worth X reg expr env' := by
  unfold worth evaluateWithAssignments evaluateWithCustom
  cases hp : parse expr with
  | error f => rfl
  | ok e =>
    have h := h e hp
    have h1 := (C09_entry_points X reg e env env' h).2
    have h2 := C09_assignments X e env env' h
    split
    · show evalAssign X e env = evalAssign X e env'
      unfold evalAssignCtx at h2
      unfold evalAssign
      revert h2
      cases Eval.assignments X e env with
      | error f =>
        cases Eval.assignments X e env' with
        | error f' => exact fun h => by rw [show f = f' from h]
        | ok p => exact False.elim
      | ok p =>
        cases Eval.assignments X e env' with
        | error f' => exact False.elim
        | ok p' => exact fun h => by show Except.ok p.1 = Except.ok p'.1; rw [h.1]
    · exact h1

theorem bindMembers_members (X : Ext) : ∀ (ms : List (Str × Json)) (env : Env), (∀ m ∈ ms, CleanName X m.1 m.1) →
    ∀ n, bindMembers X ms env n = (members X ms n).or (env n)
  | [], env, _, n => by simp [bindMembers, members]
  | (k, j) :: ms, env, h, n => by
    have hk : sanitize X k = k := (cleanName_iff X k k).1 (h _ List.mem_cons_self)
    rw [bindMembers, bindMembers_members X ms _ (fun m hm => h m (List.mem_cons_of_mem _ hm)) n, hk]
    unfold members
    rw [List.reverse_cons, List.find?_append]
    cases hf : ms.reverse.find? fun m => decide (m.1 = n) with
    | some m => simp
    | none =>
      by_cases hn : k = n
      · subst hn
        simp [Env.insert]
      · simp [Env.insert, hn, Ne.symm hn]

theorem tcp_members (X : Ext) : ∀ (ms : List (Str × Json)) (env : Env), ∀ n, Tcp.bind X ms env n = (members X ms n).or (env n)
  | [], env, n => by simp [Tcp.bind, members]
  | (k, j) :: ms, env, n => by
    rw [Tcp.bind, tcp_members X ms _ n]
    unfold members
    rw [List.reverse_cons, List.find?_append]
    cases hf : ms.reverse.find? fun m => decide (m.1 = n) with
    | some m => simp
    | none =>
      by_cases hn : k = n
      · subst hn
        simp [Env.insert]
      · simp [Env.insert, hn, Ne.symm hn]

theorem envOf_setVar (vs : HttpCache.Vars) (k : Str) (v : Value) : HttpCache.envOf (Http.setVar vs k v) = (HttpCache.envOf vs).insert k v := by
  funext n
  unfold HttpCache.envOf Http.setVar Env.insert
  by_cases hn : k = n
  · subst hn
    simp
  · rw [List.find?_cons_of_neg (by simpa using hn), if_neg (Ne.symm hn), List.find?_filter]
    congr 2
    funext p
    by_cases hp : p.1 = n
    · have : p.1 ≠ k := fun e => hn (e.symm.trans hp)
      simp [hp, Ne.symm hn]
    · simp [hp]

theorem http_members (X : Ext) : ∀ (ms : List (Str × Json)) (vs : HttpCache.Vars), (∀ m ∈ ms, CleanName X m.1 m.1) →
    ∀ n, HttpCache.envOf (Http.argVars X ms vs) n = (members X ms n).or (HttpCache.envOf vs n)
  | [], env, _, n => by simp [Http.argVars, members]
  | (k, j) :: ms, vs, h, n => by
    have hk : sanitize X k = k := (cleanName_iff X k k).1 (h _ List.mem_cons_self)
    rw [Http.argVars, http_members X ms _ (fun m hm => h m (List.mem_cons_of_mem _ hm)) n, hk, envOf_setVar]
    unfold members
    rw [List.reverse_cons, List.find?_append]
    cases hf : ms.reverse.find? fun m => decide (m.1 = n) with
    | some m => simp
    | none =>
      by_cases hn : k = n
      · subst hn
        simp [Env.insert]
      · simp [Env.insert, hn, Ne.symm hn]

/-- C70 (partial): given the same functions, the same expression and the same JSON object of variables, the command-line tool, the TCP server and the HTTP server (asked for the first time) arrive at the same value or the same error, namely the one the library gives for the expression with these variables. Required is that the names have only letters, digits and `_`, and that the expression is not about `arguments`. -/
theorem C70_agree_partial (X : Ext) (reg : Registry) (expr text : Str) (ms : List (Str × Json)) (hp : X.jsonParse text = .ok (.obj ms))
    (hk : ∀ m ∈ ms, CleanName X m.1 m.1) (ha : NotMentioned c!"arguments" expr) :
    Cli.run X reg [expr, c!"--json", text] = Cli.outcome false (worth X reg expr (members X ms)) ∧
    (∀ id, Tcp.process X reg ⟨expr, some ms, none, none⟩ id = match worth X reg expr (members X ms) with
      | .ok v => .ok ⟨true, some (Tcp.resultJson X none v), none, id⟩
      | .error (.err m a p) => .ok ⟨false, none, some (.failed (.err m a p)), id⟩
      | .error (.panic w) => .error (.panic w)) ∧
    (∀ fs cap n, (Http.evalRequest X ⟨fs, reg, HttpCache.Cache.new cap, n⟩ ⟨expr, some ms, none, none⟩).1 = match worth X reg expr (members X ms) with
      | .ok v => .ok ⟨true, some v, fun _ => none, none, n⟩
      | .error (.err m a p) => .ok ⟨false, none, fun _ => none, some (.err m a p), n⟩
      | .error (.panic w) => .error (.panic w)) := by
  have hskip : ∀ e, parse expr = .ok e → ∀ n ∈ vars e, n ≠ c!"arguments" := fun e he n hn h => ha e he (h ▸ hn)
  refine ⟨?_, fun id => ?_, fun fs cap n => ?_⟩
  · have e : Cli.run X reg [expr, c!"--json", text] = Cli.outcome false (worth X reg expr (bindMembers X ms (Env.empty.insert c!"arguments" (.json text)))) := by
      unfold Cli.run
      simp only [Cli.parseArgs, if_true]
      unfold worth evaluateWithJsonCustom jsonVars parseJson
      rw [hp]
      show (if Cli.isProgram expr = true then _ else _) = _
      exact (apply_ite (Cli.outcome false) (Cli.isProgram expr = true) _ _).symm
    rw [e]
    congr 1
    refine worth_congr X reg expr _ _ fun e he n hn => ?_
    rw [bindMembers_members X ms _ hk n, Env.insert, if_neg (hskip e he n hn)]
    simp [Env.empty]
  · have e : worth X reg expr (members X ms) = worth X reg expr (Tcp.bind X ms fun _ => none) := by
      congr 1
      funext n
      rw [tcp_members]
      simp
    rw [e]
    rfl
  · have e : worth X reg expr (members X ms) = worth X reg expr (HttpCache.envOf (Http.varsOf X (some ms))) := by
      refine worth_congr X reg expr _ _ fun e he n hn => ?_
      have hne := hskip e he n hn
      unfold Http.varsOf
      simp only
      rw [http_members X ms _ hk n]
      unfold HttpCache.envOf
      rw [List.find?_cons_of_neg (by simpa using Ne.symm hne)]
      simp
    rw [e]
    unfold Http.evalRequest Http.evaluateCached HttpCache.fresh HttpCache.Cache.get
    simp only [HttpCache.Cache.new, HttpCache.find, Http.wantsVariables]
    unfold worth
    by_cases hc : (Str.contains expr c!";" || Str.contains expr c!":=") = true
    · simp only [hc, if_true]
      cases Lib.evaluateWithAssignments X expr (HttpCache.envOf (Http.varsOf X (some ms))) with
      | ok v => rfl
      | error f => cases f <;> rfl
    · simp only [hc]
      cases Lib.evaluateWithCustom X reg expr (HttpCache.envOf (Http.varsOf X (some ms))) with
      | ok v => rfl
      | error f => cases f <;> rfl

/-- C70 is false as stated: a member whose name has another character is a variable for the TCP server only under that name, for the others only under the cleaned one; and `arguments` is unknown to the TCP server. -/
theorem C70_names_differ (X : Ext) (text : Str) (hp : X.jsonParse text = .ok (.obj [(c!"a-b", .bool true)])) :
    Cli.run X Registry.empty [c!":a_b", c!"--json", text] = .printed (.bool true) false ∧
    (∃ f, Tcp.process X Registry.empty ⟨c!":a_b", some [(c!"a-b", .bool true)], none, none⟩ 0 = .ok ⟨false, none, some (.failed f), 0⟩) ∧
    Cli.run X Registry.empty [c!":arguments", c!"--json", text] = .printed (.json text) false ∧
    (∃ f, Tcp.process X Registry.empty ⟨c!":arguments", some [(c!"a-b", .bool true)], none, none⟩ 0 = .ok ⟨false, none, some (.failed f), 0⟩) := by
  have h : ∀ expr, Cli.isProgram expr = false → Cli.run X Registry.empty [expr, c!"--json", text] =
      Cli.outcome false (evaluateWithCustom X Registry.empty expr (bindMembers X [(c!"a-b", .bool true)] (Env.empty.insert c!"arguments" (.json text)))) := by
    intro expr he
    unfold Cli.run
    simp only [Cli.parseArgs, if_true, he]
    unfold evaluateWithJsonCustom jsonVars parseJson
    rw [hp]
    rfl
  refine ⟨?_, ?_, ?_, ?_⟩
  · rw [h _ (by decide)]
    kernel_rfl
  · exact ⟨.err "Missing variable: :{}" [c!"a_b"] none, by kernel_rfl⟩
  · rw [h _ (by decide)]
    kernel_rfl
  · exact ⟨.err "Missing variable: :{}" [c!"arguments"] none, by kernel_rfl⟩

/-- Not vacuous: an expression about a variable of the object. -/
example (X : Ext) (text : Str) (hp : X.jsonParse text = .ok (.obj [(c!"a", .bool true)])) :
    Cli.run X Registry.empty [c!"!:a", c!"--json", text] = .printed (.bool false) false := by
  rw [(C70_agree_partial X Registry.empty c!"!:a" text _ hp (by simp [cleanName_iff, sanitize, Ext.isAlnum, Str.isAscii, Str.asciiAlnum, Str.asciiAlpha])
    (by intro e he; have : parse c!"!:a" = .ok (.unary .not (.var c!"a")) := by kernel_rfl
        rw [this] at he; cases he; decide)).1]
  kernel_rfl

/-- C20 fails for texts as well: an expression in which `;` or `:=` stands between quotes is taken for a program by the command-line tool and the servers, and then knows no custom functions. -/
theorem C20_text_hides_functions (X : Ext) :
    evaluateWithCustom X sevenReg c!"[F(), \";\"]" Env.empty = .ok (.arr [.num (F64.ofNat 7), .str c!";"]) ∧
    Cli.run X sevenReg [c!"[F(), \",\"]"] = .printed (.arr [.num (F64.ofNat 7), .str c!","]) false ∧
    Cli.run X sevenReg [c!"[F(), \";\"]"] = .failed (.err "Unknown function: {}" [c!"F"] none) ∧
    (∀ id, Tcp.process X sevenReg ⟨c!"[F(), \";\"]", none, none, none⟩ id = .ok ⟨false, none, some (.failed (.err "Unknown function: {}" [c!"F"] none)), id⟩) ∧
    (∀ fs cap n, (Http.evalRequest X ⟨fs, sevenReg, HttpCache.Cache.new cap, n⟩ ⟨c!"[F(), \":=\"]", none, none, none⟩).1 =
      .ok ⟨false, none, fun _ => none, some (.err "Unknown function: {}" [c!"F"] none), n⟩) := by
  refine ⟨by kernel_rfl, by kernel_rfl, by kernel_rfl, fun id => by kernel_rfl, fun fs cap n => by kernel_rfl⟩

end FrontEnds
