import Verif.Model.BenchWire
import Verif.Props.Bench
import Verif.Props.HttpWireGet
import Verif.Props.Texts
import Verif.Props.CacheTransparent
import Verif.Lemmas.ErrorPos
/-! C130: the benchmark of the HTTP server counts the evaluations that succeeded. -/

open Http JsonText JsonText.Spec

namespace Bench

/-- A host name that can be written into a header line and into the pattern of a request. -/
def Spec.Host (host : Str) : Prop := ∀ c ∈ host, Str.isAscii c = true ∧ c ≠ '\r' ∧ c ≠ '\n' ∧ c ≠ '{'

/-- A text that stands for itself between quotes. -/
def Spec.Verbatim (t : Str) : Prop := ∀ c ∈ t, c ≠ '"' ∧ c ≠ '\\' ∧ 32 ≤ c.toNat

/-- The variables that the choice of the benchmark asks for. -/
inductive Spec.Choice : Str → Include → Prop where
  | all : Choice c!"true" .all
  | no : Choice c!"false" .none
  | listed {inc : Str} {i : Include} : inc ≠ c!"true" → inc ≠ c!"false" → Spec.Verbatim inc → '{' ∉ inc → HttpBody.Spec.Picks (.str inc) i → Choice inc i

open Bench.Spec

/-! ### Searching in texts -/

theorem startsWith_sep {c : Char} {b : Str} : ∀ (a q : Str), c ∉ q → Str.startsWith (a ++ c :: b) q = Str.startsWith a q
  | _, [], _ => by simp [Str.startsWith]
  | [], p :: q, h => by
    have : (c == p) = false := by simpa using fun e => h (by simp [e])
    simp [Str.startsWith, this]
  | d :: a, p :: q, h => by
    simp only [List.cons_append, Str.startsWith]
    rw [startsWith_sep a q fun hc => h (by simp [hc])]

/-- A character that is not in the pattern separates. -/
theorem contains_sep {c : Char} {b q : Str} (hq : q ≠ []) (h : c ∉ q) : ∀ a : Str, Str.contains (a ++ c :: b) q = (Str.contains a q || Str.contains b q)
  | [] => by
    obtain ⟨p, q', rfl⟩ := List.exists_cons_of_ne_nil hq
    have h1 : Str.startsWith (c :: b) (p :: q') = false := by rw [← List.nil_append (c :: b), startsWith_sep [] _ h]; rfl
    simp only [List.nil_append, Str.contains, h1]
    simp
  | d :: a => by
    rw [List.cons_append, Str.contains, Str.contains, ← List.cons_append, startsWith_sep (d :: a) q h, contains_sep hq h a, Bool.or_assoc]

/-- A text without the first character of the pattern can be skipped. -/
theorem contains_skip {p : Char} {q b : Str} : ∀ a : Str, p ∉ a → Str.contains (a ++ b) (p :: q) = Str.contains b (p :: q)
  | [], _ => rfl
  | d :: a, h => by
    have : (d == p) = false := by simpa using fun e : d = p => h (by simp [e])
    rw [List.cons_append, Str.contains, contains_skip a fun ha => h (by simp [ha])]
    simp [Str.startsWith, this]

theorem contains_trans {s p q : Str} (h : Str.contains s p = true) (hq : Str.contains p q = true) : Str.contains s q = true :=
  (contains_iff _ _).2 (((contains_iff _ _).1 hq).trans ((contains_iff _ _).1 h))

/-- What is looked for: the end of `"success` and the beginning of `:true`. -/
def mark : Str := c!"s\":t"

theorem mark_of_success {s : Str} (h : Str.contains s c!"\"success\":true" = true) : Str.contains s mark = true := contains_trans h (by decide)

/-- No `s` and no `t`. -/
def Dull (t : Str) : Prop := ∀ c ∈ t, c ≠ 's' ∧ c ≠ 't'

theorem dull_skip {a b : Str} (h : Dull a) : Str.contains (a ++ b) mark = Str.contains b mark := contains_skip a fun hs => (h _ hs).1 rfl

theorem dull_skip_s {b : Str} (a : Str) (h : 's' ∉ a) : Str.contains (a ++ b) mark = Str.contains b mark := contains_skip a h

theorem dull_digits {t : Str} (h : ∀ c ∈ t, '0' ≤ c ∧ c ≤ '9') : Dull t := by
  intro c hc
  have := h c hc
  constructor <;> rintro rfl <;> revert this <;> decide

theorem Dull.append {a b : Str} (ha : Dull a) (hb : Dull b) : Dull (a ++ b) := by
  intro c hc
  rcases List.mem_append.1 hc with h | h
  exacts [ha c h, hb c h]

theorem Dull.cons {c : Char} {b : Str} (ha : c ≠ 's' ∧ c ≠ 't') (hb : Dull b) : Dull (c :: b) := by
  intro d hd
  rcases List.mem_cons.1 hd with rfl | h
  exacts [ha, hb d h]

theorem dull_nil : Dull [] := fun _ h => by simp at h

theorem dull_sign {s : Str} (h : s = [] ∨ s = c!"+" ∨ s = c!"-") : Dull s := by
  rcases h with rfl | rfl | rfl
  · exact dull_nil
  · exact .cons (by decide) dull_nil
  · exact .cons (by decide) dull_nil

theorem dull_number {t : Str} (h : NumberText t) : Dull t := by
  obtain ⟨sign, ds, f, e, hs, hd, hf, he, rfl⟩ := h
  refine .append (dull_sign (by rcases hs with h | h <;> simp [h])) (.append (dull_digits hd.1.2) (.append ?_ ?_))
  · cases hf with
    | none => exact dull_nil
    | some h => exact .cons (by decide) (dull_digits h.2)
  · cases he with
    | none => exact dull_nil
    | some hc hs h => exact .cons (by rcases hc with rfl | rfl <;> decide) (.append (dull_sign hs) (dull_digits h.2))

theorem dull_ms {N : Floats} {x : F64} (h : x.isFinite = true → FloatBack N x) : Dull (print N (Json.ofF64 x)) := by
  unfold Json.ofF64
  by_cases hf : x.isFinite = true
  · rw [if_pos hf, print]; exact dull_number (h hf).1
  · rw [if_neg hf, print]; intro c hc; revert c; decide

theorem dull_nat (n : Nat) : Dull (Nat.toDigits 10 n) := dull_digits (toDigits_digits n).2

theorem escape_cases (c : Char) : escape c = [c] ∧ c ≠ '"' ∨ (∃ t, escape c = '\\' :: t) ∧ 's' ∉ escape c := by
  have hd : ∀ n : Fin 16, Nat.digitChar n.val ≠ 's' := by decide
  unfold escape
  by_cases h1 : c = '"'
  · rw [if_pos h1]; exact .inr ⟨⟨_, rfl⟩, by decide⟩
  rw [if_neg h1]
  by_cases h2 : c = '\\'
  · rw [if_pos h2]; exact .inr ⟨⟨_, rfl⟩, by decide⟩
  rw [if_neg h2]
  by_cases h3 : c = '\x08'
  · rw [if_pos h3]; exact .inr ⟨⟨_, rfl⟩, by decide⟩
  rw [if_neg h3]
  by_cases h4 : c = '\x0c'
  · rw [if_pos h4]; exact .inr ⟨⟨_, rfl⟩, by decide⟩
  rw [if_neg h4]
  by_cases h5 : c = '\n'
  · rw [if_pos h5]; exact .inr ⟨⟨_, rfl⟩, by decide⟩
  rw [if_neg h5]
  by_cases h6 : c = '\r'
  · rw [if_pos h6]; exact .inr ⟨⟨_, rfl⟩, by decide⟩
  rw [if_neg h6]
  by_cases h7 : c = '\t'
  · rw [if_pos h7]; exact .inr ⟨⟨_, rfl⟩, by decide⟩
  rw [if_neg h7]
  by_cases h8 : c.toNat < 32
  · rw [if_pos h8]
    refine .inr ⟨⟨_, rfl⟩, ?_⟩
    have a := hd ⟨c.toNat / 16, by omega⟩
    have b := hd ⟨c.toNat % 16, by omega⟩
    simp only at a b
    simp [Ne.symm a, Ne.symm b]
  · rw [if_neg h8]; exact .inl ⟨rfl, h1⟩

/-- Between quotes the mark cannot be: a quote there comes after a backslash. -/
theorem quoted_unmarked : ∀ msg : Str, Str.contains (msg.flatMap escape ++ c!"\"") mark = false
  | [] => by decide
  | c :: msg => by
    have ih := quoted_unmarked msg
    rw [List.flatMap_cons, List.append_assoc]
    rcases escape_cases c with ⟨h, hc⟩ | ⟨-, h⟩
    · rw [h, List.singleton_append, Str.contains, ih, Bool.or_false]
      cases msg with
      | nil => simp [mark, Str.startsWith]
      | cons d msg =>
        rw [List.flatMap_cons, List.append_assoc]
        rcases escape_cases d with ⟨h, hd⟩ | ⟨⟨t, h⟩, -⟩
        · have : (d == '"') = false := by simpa using hd
          rw [h]; simp [mark, Str.startsWith, this]
        · rw [h]; simp [mark, Str.startsWith]
    · rw [mark, contains_skip _ h]; exact ih

/-- A failed evaluation is not taken for a success, whatever the text of its error. -/
theorem failure_unmarked (head mid msg ms id : Str) (hh : Str.contains head mark = false) (hm : Dull mid) (hms : Dull ms) (hid : Dull id) :
    Str.contains (head ++ ' ' :: (mid ++ (c!"\r\nConnection: close\r\n\r\n{\"success\":false,\"result\":null" ++ ',' :: (c!"\"error\":\"" ++ ((msg.flatMap escape ++ c!"\"") ++
      ',' :: (c!"\"execution_time_ms\":" ++ (ms ++ (c!",\"request_id\":" ++ (id ++ c!"}")))))))) ) mark = false := by
  have hne : mark ≠ [] := by decide
  have e1 : ∀ t, Str.contains (c!"\"execution_time_ms\":" ++ (ms ++ t)) mark = (Str.startsWith (ms ++ t) c!"t" || Str.contains (ms ++ t) mark) := by
    intro t
    have : c!"\"execution_time_ms\":" ++ (ms ++ t) = c!"\"execution_time_m" ++ ('s' :: (c!"\":" ++ (ms ++ t))) := rfl
    rw [this, dull_skip_s _ (by decide), Str.contains, dull_skip_s c!"\":" (by decide)]
    rfl
  have e2 : Str.startsWith (ms ++ (c!",\"request_id\":" ++ (id ++ c!"}"))) c!"t" = false := by
    cases ms with
    | nil => rfl
    | cons c ms =>
      have : (c == 't') = false := by simpa using (hms c (by simp)).2
      simp [Str.startsWith, this]
  have e3 : Str.contains (c!",\"request_id\":" ++ (id ++ c!"}")) mark = Str.contains (id ++ c!"}") mark := by
    have : c!",\"request_id\":" ++ (id ++ c!"}") = c!",\"reque" ++ ('s' :: (c!"t_id\":" ++ (id ++ c!"}"))) := rfl
    rw [this, dull_skip_s _ (by decide), Str.contains, dull_skip_s c!"t_id\":" (by decide)]
    rfl
  rw [contains_sep hne (by decide), hh, Bool.false_or, dull_skip hm, contains_sep hne (by decide), show Str.contains c!"\r\nConnection: close\r\n\r\n{\"success\":false,\"result\":null" mark = false by decide,
    Bool.false_or, dull_skip_s _ (by decide), contains_sep hne (by decide), quoted_unmarked, Bool.false_or, e1, e2, Bool.false_or, dull_skip hms, e3, dull_skip hid]
  decide

/-! ### What is counted -/

theorem received_json (X : Ext) (status : Nat) (doc : Json) : received X (some ⟨status, .json doc⟩) =
    some (c!"HTTP/1.1 " ++ HttpWrite.number status ++ c!" " ++ HttpWrite.statusText status ++ c!"\r\n" ++
    c!"Access-Control-Allow-Origin: *\r\n" ++
    c!"Access-Control-Allow-Methods: GET, POST, PUT, DELETE, OPTIONS\r\n" ++
    c!"Access-Control-Allow-Headers: Content-Type, Authorization\r\n" ++
    c!"Content-Type: " ++ c!"application/json" ++ c!"\r\n" ++
    c!"Content-Length: " ++ HttpWrite.number (HttpWrite.encode (X.jsonPrint doc)).length ++ c!"\r\n" ++
    c!"Connection: close\r\n" ++
    c!"\r\n" ++
    X.jsonPrint doc) := HttpRead.utf8_of_encode _

theorem counted_success {X : Ext} {N : Floats} (hu : Uses X N) (status : Nat) (ms : List (Str × Json)) : counted X (some ⟨status, .json (.obj ((c!"success", .bool true) :: ms))⟩) = true := by
  unfold counted
  rw [received_json, hu.print]
  simp only
  rw [contains_iff]
  have : print N (.obj ((c!"success", .bool true) :: ms)) = c!"{" ++ (c!"\"success\":true" ++ printMembers N ms) := by
    rw [print, print]; rfl
  rw [this, ← List.append_assoc, ← List.append_assoc]
  exact ⟨_, _, rfl⟩

theorem counted_failure {X : Ext} {N : Floats} (hu : Uses X N) (msg : Str) (ms : F64) (hms : ms.isFinite = true → FloatBack N ms) (id : Nat) :
    counted X (some ⟨400, .json (HttpReply.evalDoc false .null [] (some msg) ms id)⟩) = false := by
  unfold counted
  rw [received_json, hu.print]
  simp only
  have hdoc : print N (HttpReply.evalDoc false .null [] (some msg) ms id) = c!"{\"success\":false,\"result\":null" ++ ',' :: (c!"\"error\":\"" ++ ((msg.flatMap escape ++ c!"\"") ++
      ',' :: (c!"\"execution_time_ms\":" ++ (print N (Json.ofF64 ms) ++ (c!",\"request_id\":" ++ (Nat.toDigits 10 id ++ c!"}")))))) := by
    have hi : Str.showInt (id : Int) = Nat.toDigits 10 id := showInt_of_nat id
    simp only [HttpReply.evalDoc, HttpReply.optStr, List.isEmpty_nil, if_true, List.append_nil, List.cons_append, List.nil_append, print, printMembers, hi]
    rw [show quote c!"success" = c!"\"success\"" by decide, show quote c!"result" = c!"\"result\"" by decide, show quote c!"error" = c!"\"error\"" by decide,
      show quote c!"execution_time_ms" = c!"\"execution_time_ms\"" by decide, show quote c!"request_id" = c!"\"request_id\"" by decide]
    generalize print N (Json.ofF64 ms) = a
    generalize Nat.toDigits 10 id = b
    simp [quote, Str.showBool]
  have := failure_unmarked (c!"HTTP/1.1 400 Bad Request\r\nAccess-Control-Allow-Origin: *\r\nAccess-Control-Allow-Methods: GET, POST, PUT, DELETE, OPTIONS\r\nAccess-Control-Allow-Headers: Content-Type, Authorization\r\nContent-Type: application/json\r\nContent-Length:")
    (HttpWrite.number (HttpWrite.encode (print N (HttpReply.evalDoc false .null [] (some msg) ms id))).length) msg (print N (Json.ofF64 ms)) (Nat.toDigits 10 id) (by decide) (dull_nat _) (dull_ms hms) (dull_nat _)
  generalize HttpWrite.number (HttpWrite.encode (print N (HttpReply.evalDoc false .null [] (some msg) ms id))).length = num at this ⊢
  rw [hdoc]
  have hu : Str.contains _ mark = false := this
  refine Bool.eq_false_iff.2 fun h => ?_
  have h := mark_of_success h
  rw [← Bool.not_eq_true] at hu
  refine hu ?_
  convert h using 2
  rw [show HttpWrite.number 400 = c!"400" by decide, show HttpWrite.statusText 400 = c!"Bad Request" by decide]
  generalize print N (Json.ofF64 ms) = a
  generalize Nat.toDigits 10 id = b
  simp only [List.append_assoc]
  kernel_rfl

theorem counted_none (X : Ext) : counted X none = false := rfl

/-- An evaluation is counted if and only if it has a value. -/
theorem counted_eval {X : Ext} {N : Floats} (hu : Uses X N) {W : HttpReply.World} (hms : W.ms.isFinite = true → FloatBack N W.ms) (s : Site) (q : EvalRequest) :
    counted X (HttpReply.sendEval X W s q).1 = (evaluateCached X { s with counter := s.counter + 1 } ⟨q.expression, varsOf X q.arguments, wantsVariables q.includeVariables⟩).1.isOk := by
  unfold HttpReply.sendEval
  simp only
  generalize evaluateCached X { s with counter := s.counter + 1 } ⟨q.expression, varsOf X q.arguments, wantsVariables q.includeVariables⟩ = r
  obtain ⟨r, s'⟩ := r
  cases r with
  | ok v => exact counted_success hu 200 _
  | error f =>
    cases f with
    | err m a p => exact counted_failure hu _ _ hms _
    | panic w => exact counted_none X

/-! ### Requests with a body -/

theorem splitGo_none {p : Str} (hp : p ≠ []) : ∀ (s acc : Str), Str.contains s p = false → Str.splitGo p 0 acc s = [acc.reverse ++ s]
  | [], acc, _ => by simp [Str.splitGo]
  | c :: s, acc, h => by
    rw [Str.contains, Bool.or_eq_false_iff] at h
    rw [Str.splitGo, h.1, if_neg (by simp), splitGo_none hp s _ h.2]
    simp

theorem sent_unchanged {host request : Str} (h : Str.contains request c!"{}" = false) : sent host request = request := by
  unfold sent Str.replace Str.split
  rw [if_neg (by decide), splitGo_none (by decide) _ _ h]
  simp [Str.join]

theorem fresh_isOk (X : Ext) (reg : Registry) (r : HttpCache.Request) : (HttpCache.fresh X reg r).isOk = (FrontEnds.Spec.worth X reg r.expr (HttpCache.envOf r.vars)).isOk := by
  unfold HttpCache.fresh FrontEnds.Spec.worth
  by_cases hc : (Str.contains r.expr c!";" || Str.contains r.expr c!":=") = true
  · simp only [hc, if_true]
    rw [_root_.withAssignments_ctx]
    by_cases hi : r.includeVars = true
    · rw [if_pos hi]
      cases Lib.evaluateWithAssignmentsCtx X r.expr (HttpCache.envOf r.vars) <;> rfl
    · rw [if_neg hi]
      cases Lib.evaluateWithAssignmentsCtx X r.expr (HttpCache.envOf r.vars) <;> rfl
  · simp only [hc]
    cases Lib.evaluateWithCustom X reg r.expr (HttpCache.envOf r.vars) <;> rfl

theorem cached_ok {X : Ext} {s : Site} {r : HttpCache.Request} (h : (HttpCache.fresh X s.reg r).isOk = true) : (evaluateCached X s r).1.isOk = true := by
  unfold evaluateCached
  simp only
  generalize s.cache.get (r.key X) = g
  obtain ⟨o, c⟩ := g
  cases o with
  | some e => rfl
  | none =>
    simp only
    cases hf : HttpCache.fresh X s.reg r with
    | ok v => rfl
    | error f => rw [hf] at h; cases h

theorem cached_error {X : Ext} {s : Site} {r : HttpCache.Request} (hc : (s.cache.get (r.key X)).1 = none) (h : (HttpCache.fresh X s.reg r).isOk = false) :
    (evaluateCached X s r).1.isOk = false ∧ (evaluateCached X s r).2 = { s with cache := (s.cache.get (r.key X)).2 } := by
  unfold evaluateCached
  simp only
  generalize s.cache.get (r.key X) = g at hc ⊢
  obtain ⟨o, c⟩ := g
  simp only at hc
  subst hc
  simp only
  cases hf : HttpCache.fresh X s.reg r with
  | ok v => rw [hf] at h; cases h
  | error f => exact ⟨rfl, rfl⟩

theorem cached_reg (X : Ext) (s : Site) (r : HttpCache.Request) : (evaluateCached X s r).2.reg = s.reg := by
  unfold evaluateCached
  simp only
  generalize s.cache.get (r.key X) = g
  obtain ⟨o, c⟩ := g
  cases o with
  | some e => rfl
  | none =>
    simp only
    cases HttpCache.fresh X s.reg r <;> rfl

theorem send_site (X : Ext) (W : HttpReply.World) (s : Site) (q : EvalRequest) : (HttpReply.sendEval X W s q).2 =
    (evaluateCached X { s with counter := s.counter + 1 } ⟨q.expression, varsOf X q.arguments, wantsVariables q.includeVariables⟩).2 := by
  unfold HttpReply.sendEval
  simp only
  generalize evaluateCached X { s with counter := s.counter + 1 } ⟨q.expression, varsOf X q.arguments, wantsVariables q.includeVariables⟩ = r
  obtain ⟨r, s'⟩ := r
  cases r with
  | ok v => rfl
  | error f => cases f <;> rfl

/-! ### The requests arrive -/

theorem host_line {host : Str} (hh : Host host) : HttpRead.Spec.HeaderLine (c!"Host: " ++ host) := by
  refine ⟨by simp, fun c hc => ?_⟩
  rcases List.mem_append.1 hc with h | h
  · revert h; clear hc; revert c; decide
  · exact ⟨(hh c h).1, (hh c h).2.1, (hh c h).2.2.1⟩

theorem not_length {l : Str} {c : Char} (h : Str.asciiLowC c ≠ 'c') : ¬ HttpRead.Spec.NamesLength (c :: l) := by
  rintro ⟨nm, v, e, hn⟩
  cases nm with
  | nil => simp at hn
  | cons d nm =>
    rw [(List.cons.inj e).1] at h
    exact h (List.cons.inj hn).1

open HttpQuery.Spec in
theorem evalRequest_text {host expr : Str} (hh : Host host) (he : Ascii expr) :
    evalRequest host expr = HttpRead.Spec.requestText [HttpWire.Spec.getLine [c!"expr=" ++ pctEncode expr], c!"Host: " ++ host, c!"Connection: close"] [] := by
  rw [HttpWire.requestText_get, evalRequest_eq (fun h => (hh _ h).2.2.2 rfl) he]
  simp [getRequest, paramText]

open HttpQuery.Spec in
theorem connection_eval (X : Ext) (H : HttpExt) (W : HttpReply.World) (cfg : Http.Config) (report : Health.Report) (want : HttpRead.Schedule) (closes : Bool) (s : Site)
    (ht : cfg.authToken = none) {host expr : Str} (hh : Host host) (he : Ascii expr) (hne : expr ≠ []) (hs : Str.byteLen (evalRequest host expr) ≤ HttpRead.Spec.limit) :
    HttpReply.connection X H W cfg report want ⟨HttpRead.Spec.bytesOf (evalRequest host expr), closes⟩ s = HttpReply.sendEval X W s ⟨expr, none, some false, some .none⟩ := by
  have hk : ∀ p ∈ [(c!"expr", some expr)], PlainKey p.1 := by
    intro p hp
    rw [List.mem_singleton.1 hp]
    show ∀ c ∈ c!"expr", c ≠ '&' ∧ c ≠ '=' ∧ Str.isWs c = false
    decide
  have hr : evalRequest host expr = HttpRead.Spec.requestText [HttpWire.Spec.getLine [c!"expr=" ++ pctEncode expr], c!"Host: " ++ host, c!"Connection: close"] [] := evalRequest_text hh he
  have hw : evalRequest host expr = getWith ([(c!"expr", some expr)].map paramText) (c!"Host: " ++ (host ++ c!"\r\nConnection: close\r\n\r\n")) :=
    evalRequest_eq (fun h => (hh _ h).2.2.2 rfl) he
  have hread := HttpRead.C58_bodyless X want closes [HttpWire.Spec.getLine [c!"expr=" ++ pctEncode expr], c!"Host: " ++ host, c!"Connection: close"] (by simp)
    (by
      intro l hl
      simp only [List.mem_cons, List.not_mem_nil, or_false] at hl
      rcases hl with rfl | rfl | rfl
      · refine ⟨by simp [HttpWire.Spec.getLine], fun c hc => ?_⟩
        have hc : c ∈ c!"GET /eval?expr= HTTP/1.1%-_.~" ∨ c.isAlphanum = true := by
          have : c ∈ (c!"GET /eval?" ++ c!"expr=") ++ (pctEncode expr ++ c!" HTTP/1.1") := by
            simpa [HttpWire.Spec.getLine, List.intercalate] using hc
          rcases List.mem_append.1 this with h | h
          · left; clear this hc; revert c; decide
          rcases List.mem_append.1 h with h' | h'
          · rcases HttpQuery.pct_mem expr c h' with rfl | h
            · left; decide
            · unfold unreserved at h
              simp only [Bool.or_eq_true, beq_iff_eq] at h
              rcases h with (((h | rfl) | rfl) | rfl) | rfl
              · exact .inr h
              all_goals left; decide
          · left; clear this hc h; revert c; decide
        rcases hc with hc | hc
        · rename_i hc0; clear hc0; revert c; decide
        · have hw := HttpQuery.alphanum_ws c hc
          refine ⟨?_, fun e => ?_, fun e => ?_⟩
          · simp only [Char.isAlphanum, Char.isAlpha, Char.isUpper, Char.isLower, Char.isDigit, Bool.or_eq_true, Bool.and_eq_true, decide_eq_true_eq] at hc
            simp only [Str.isAscii, decide_eq_true_eq, UInt32.lt_iff_toNat_lt]
            simp only [UInt32.le_iff_toNat_le, ge_iff_le] at hc
            simp at hc ⊢
            omega
          · rw [e] at hw; revert hw; decide
          · rw [e] at hw; revert hw; decide
      · exact host_line hh
      · exact ⟨by simp, by decide⟩)
    (by
      intro l hl
      simp only [List.mem_cons, List.not_mem_nil, or_false] at hl
      rcases hl with rfl | rfl | rfl
      · exact not_length (c := 'G') (by decide)
      · exact not_length (c := 'H') (by decide)
      · rintro ⟨nm, v, e, hn⟩
        have hlen : nm.length = 14 := by simpa using congrArg List.length hn
        have : nm = (c!"Connection: close").take 14 := by rw [e, List.append_assoc, ← hlen, List.take_left]
        rw [this] at hn
        revert hn
        decide)
    (by rw [← hr]; exact hs)
  rw [← hr] at hread
  unfold HttpReply.connection
  rw [hread]
  simp only
  rw [hw, HttpWire.reply_get_eq X H W cfg report s _ _ _ (by simp) (HttpQuery.params_pct _ hk) (by rw [ht]; rfl)]
  have e : (given [(c!"expr", some expr)]).foldl HttpQuery.step {} = { expression := expr } := rfl
  rw [e]
  cases expr with
  | nil => exact absurd rfl hne
  | cons c t => rfl

/-! ### Bodies -/

theorem escape_verbatim {t : Str} (h : Verbatim t) : t.flatMap escape = t := by
  induction t with
  | nil => rfl
  | cons c t ih =>
    obtain ⟨h1, h2, h3⟩ := h c (by simp)
    have hn : ∀ d : Char, d.toNat < 32 → c ≠ d := fun d hd e => by rw [e] at h3; omega
    rw [List.flatMap_cons, ih fun d hd => h d (by simp [hd])]
    unfold escape
    rw [if_neg h1, if_neg h2, if_neg (hn _ (by decide)), if_neg (hn _ (by decide)), if_neg (hn _ (by decide)), if_neg (hn _ (by decide)), if_neg (hn _ (by decide)), if_neg (by omega)]
    rfl

/-- The body is a JSON text, and asks for the expression. -/
theorem json_decoded (N : Floats) (H : HttpExt) (order : Wire.Order) (why : Str → Str) {expr inc : Str} {i : Include} (he : Verbatim expr) (hi : Choice inc i) :
    (HttpWire.reading N order why H).decodeEval (jsonText expr inc) = .ok ⟨expr, none, none, some i⟩ := by
  have key : ∀ j, HttpBody.Spec.Picks j i → Fits N j → depth j ≤ 126 → jsonText expr inc = print N (.obj [(c!"expression", .str expr), (c!"include_variables", j)]) →
      (HttpWire.reading N order why H).decodeEval (jsonText expr inc) = .ok ⟨expr, none, none, some i⟩ := by
    intro j hj hf hd e
    refine (HttpWire.decode_iff N why _ _ _).2 ⟨.obj [(c!"expression", .str expr), (c!"include_variables", j)], ?_, ?_⟩
    · rw [e]
      exact print_text (.obj (.cons (.str _) (.cons hf .nil))) (by simp only [depth, depthMembers]; omega)
    · refine HttpBody.describes_eq _ ?_ ⟨⟨_, rfl, .whole _⟩, .inl ⟨.inl rfl, rfl⟩, .inl ⟨.inl rfl, rfl⟩, .inr ⟨j, i, rfl, hj, rfl⟩⟩
      intro k hk
      simp only [HttpBody.Spec.known, List.mem_cons, List.not_mem_nil, or_false] at hk
      rcases hk with rfl | rfl | rfl | rfl <;> simp
  have hq1 : quote c!"expression" = c!"\"expression\"" := by decide
  have hq2 : quote c!"include_variables" = c!"\"include_variables\"" := by decide
  cases hi with
  | all =>
    refine key (.bool true) .all (.bool _) (by simp [depth]) ?_
    rw [jsonText, if_pos (.inl rfl)]
    simp only [print, printMembers, hq1, hq2]
    simp [quote, escape_verbatim he, Str.showBool]
  | no =>
    refine key (.bool false) .no (.bool _) (by simp [depth]) ?_
    rw [jsonText, if_pos (.inr rfl)]
    simp only [print, printMembers, hq1, hq2]
    simp [quote, escape_verbatim he, Str.showBool]
  | listed h1 h2 hv _ hp =>
    refine key (.str inc) hp (.str _) (by simp [depth]) ?_
    rw [jsonText, if_neg (by simp [h1, h2])]
    simp only [print, printMembers, hq1, hq2]
    simp [quote, escape_verbatim he, escape_verbatim hv]

theorem choice_braces {inc : Str} {i : Include} (hi : Choice inc i) : '{' ∉ inc := by
  cases hi with
  | all => decide
  | no => decide
  | listed _ _ _ h _ => exact h

theorem no_braces {t : Str} (h : '{' ∉ t) : Str.contains t c!"{}" = false := by
  have := contains_skip (q := c!"}") (b := []) t h
  rw [List.append_nil] at this
  rw [this]; rfl

/-- The body is not touched by the replacement of `{}`. -/
theorem json_braces {expr inc : Str} (he : Str.contains expr c!"{}" = false) (hi : '{' ∉ inc) : Str.contains (jsonText expr inc) c!"{}" = false := by
  unfold jsonText
  by_cases h : inc = c!"true" ∨ inc = c!"false"
  · rw [if_pos h]
    have e : c!"{\"expression\":\"" ++ (expr ++ (c!"\",\"include_variables\":" ++ (inc ++ c!"}"))) =
        c!"{\"expression\":" ++ '"' :: (expr ++ '"' :: (c!",\"include_variables\":" ++ (inc ++ c!"}"))) := by simp
    rw [e, contains_sep (by decide) (by decide), contains_sep (by decide) (by decide), he, contains_skip _ (by decide), contains_skip _ hi]
    decide
  · rw [if_neg h]
    have e : c!"{\"expression\":\"" ++ (expr ++ (c!"\",\"include_variables\":\"" ++ (inc ++ c!"\"}"))) =
        c!"{\"expression\":" ++ '"' :: (expr ++ '"' :: (c!",\"include_variables\":\"" ++ (inc ++ c!"\"}"))) := by simp
    rw [e, contains_sep (by decide) (by decide), contains_sep (by decide) (by decide), he, contains_skip _ (by decide), contains_skip _ hi]
    decide

theorem digits_no (n : Nat) (d : Char) (hd : ¬ ('0' ≤ d ∧ d ≤ '9')) : d ∉ Nat.toDigits 10 n := fun h => hd ((toDigits_digits n).2 d h)

theorem jsonRequest_text {host expr inc : Str} (hh : Host host) (he : Str.contains expr c!"{}" = false) (hi : '{' ∉ inc) : jsonRequest host expr inc =
    HttpRead.Spec.requestText (c!"POST /eval HTTP/1.1" :: ([c!"Host: " ++ host, c!"Content-Type: application/json"] ++
      (c!"Content-Length" ++ c!": " ++ Nat.toDigits 10 (Str.byteLen (jsonText expr inc))) :: [c!"Connection: close"])) (jsonText expr inc) := by
  have hb : '{' ∉ host := fun h => (hh _ h).2.2.2 rfl
  unfold jsonRequest
  rw [sent_unchanged]
  · unfold HttpRead.Spec.requestText
    simp [Str.join]
  · rw [contains_skip _ (by decide), contains_skip _ hb, contains_skip _ (by decide), contains_skip _ (digits_no _ _ (by decide)), contains_skip _ (by decide)]
    exact json_braces he hi

theorem decimal_toDigits (n : Nat) : HttpRead.Spec.decimal (Nat.toDigits 10 n) = n := by
  unfold HttpRead.Spec.decimal
  have := Nat.ofDigitChars_ten_toDigits (n := n)
  rw [Nat.ofDigitChars_eq_foldl] at this
  exact this

/-- The request with a body arrives, in whatever pieces. -/
theorem connection_json (X : Ext) (N : Floats) (H : HttpExt) (order : Wire.Order) (why : Str → Str) (W : HttpReply.World) (cfg : Http.Config) (report : Health.Report) (want : HttpRead.Schedule)
    (closes : Bool) (s : Site) (ht : cfg.authToken = none) {host expr inc : Str} {i : Include} (hh : Host host) (he : Verbatim expr) (hb : Str.contains expr c!"{}" = false) (hi : Choice inc i)
    (hs : Str.byteLen (jsonRequest host expr inc) ≤ HttpRead.Spec.limit) :
    HttpReply.connection X (HttpWire.reading N order why H) W cfg report want ⟨HttpRead.Spec.bytesOf (jsonRequest host expr inc), closes⟩ s =
      HttpReply.sendEval X W s ⟨expr, none, none, some i⟩ := by
  have hr := jsonRequest_text hh hb (choice_braces hi)
  rw [hr] at hs ⊢
  rw [HttpWire.connection_post X (HttpWire.reading N order why H) W cfg report want closes s _ _ c!"Content-Length" _ _ ?_ ?_ (by decide) Nat.toDigits_ne_nil ?_ (decimal_toDigits _) hs
    (by rw [ht]; rfl), json_decoded N H order why he hi]
  · intro l hl
    simp only [List.cons_append, List.nil_append, List.mem_cons, List.not_mem_nil, or_false] at hl
    rcases hl with rfl | rfl | rfl | rfl
    · exact host_line hh
    · exact ⟨by simp, by decide⟩
    · refine ⟨by simp, fun c (hc : c ∈ c!"Content-Length: " ++ Nat.toDigits 10 (Str.byteLen (jsonText expr inc))) => ?_⟩
      rcases List.mem_append.1 hc with h | h
      · clear hc; revert c; decide
      · have := (toDigits_digits _).2 c h
        refine ⟨?_, ?_, ?_⟩
        · have h2 : c.val ≤ '9'.val := this.2
          simp only [Str.isAscii, decide_eq_true_eq]
          exact UInt32.lt_of_le_of_lt h2 (by decide)
        · rintro rfl; revert this; decide
        · rintro rfl; revert this; decide
    · exact ⟨by simp, by decide⟩
  · intro l hl
    simp only [List.mem_cons, List.not_mem_nil, or_false] at hl
    rcases hl with rfl | rfl
    · exact not_length (c := 'H') (by decide)
    · rintro ⟨nm, v, e, hn⟩
      have hlen : nm.length = 14 := by simpa using congrArg List.length hn
      have : nm = (c!"Content-Type: application/json").take 14 := by rw [e, List.append_assoc, ← hlen, List.take_left]
      rw [this] at hn
      revert hn
      decide
  · intro c hc
    have := (toDigits_digits _).2 c hc
    simpa [Str.asciiDigit] using this

/-! ### Counting -/

/-- No result is stored. -/
def Spec.Blank (s : Site) : Prop := s.cache.items = []

theorem blank_get {s : Site} (h : Spec.Blank s) (k : Str) : (s.cache.get k).1 = none ∧ (s.cache.get k).2.items = [] := by
  unfold HttpCache.Cache.get
  rw [show s.cache.items = [] from h]
  exact ⟨rfl, rfl⟩

theorem counted_ok {X : Ext} {N : Floats} (hu : Uses X N) {W : HttpReply.World} (hms : W.ms.isFinite = true → FloatBack N W.ms) (s : Site) {q : EvalRequest} (ha : q.arguments = none)
    (h : (FrontEnds.Spec.worth X s.reg q.expression fun _ => none).isOk = true) : counted X (HttpReply.sendEval X W s q).1 = true := by
  rw [counted_eval hu hms]
  refine cached_ok ?_
  rw [fresh_isOk, ha]
  exact h

theorem counted_bad {X : Ext} {N : Floats} (hu : Uses X N) {W : HttpReply.World} (hms : W.ms.isFinite = true → FloatBack N W.ms) (s : Site) (hb : Spec.Blank s) {q : EvalRequest}
    (ha : q.arguments = none) (h : (FrontEnds.Spec.worth X s.reg q.expression fun _ => none).isOk = false) :
    counted X (HttpReply.sendEval X W s q).1 = false ∧ Spec.Blank (HttpReply.sendEval X W s q).2 := by
  rw [counted_eval hu hms, send_site]
  have hb' : Spec.Blank { s with counter := s.counter + 1 } := hb
  have := cached_error (X := X) (s := { s with counter := s.counter + 1 }) (r := ⟨q.expression, varsOf X q.arguments, wantsVariables q.includeVariables⟩) (blank_get hb' _).1
    (by rw [fresh_isOk, ha]; exact h)
  refine ⟨this.1, ?_⟩
  rw [this.2]
  exact (blank_get hb' _).2

theorem visits_ok {H : HttpExt} {cfg : Http.Config} {request : Str} {q : EvalRequest} (ha : q.arguments = none) : ∀ (vs : List Visit) (s : Site),
    (∀ v ∈ vs, ∀ s, HttpReply.connection v.X H v.W cfg v.report v.want ⟨HttpRead.Spec.bytesOf request, false⟩ s = HttpReply.sendEval v.X v.W s q) →
    (∀ v ∈ vs, ∃ N, Uses v.X N ∧ (v.W.ms.isFinite = true → FloatBack N v.W.ms)) →
    (∀ v ∈ vs, (FrontEnds.Spec.worth v.X s.reg q.expression fun _ => none).isOk = true) → (visits H cfg request vs s).1 = vs.map fun _ => true
  | [], _, _, _, _ => rfl
  | v :: vs, s, hq, hN, h => by
    have hc := hq v (by simp) s
    obtain ⟨N, hu, hms⟩ := hN v (by simp)
    have hr : (HttpReply.sendEval v.X v.W s q).2.reg = s.reg := by rw [send_site, cached_reg]
    unfold visits
    rw [show (request.flatMap String.utf8EncodeChar) = HttpRead.Spec.bytesOf request from rfl, hc]
    simp only [List.map_cons, List.cons.injEq]
    refine ⟨counted_ok hu hms s ha (h v (by simp)), visits_ok ha vs _ (fun w hw => hq w (by simp [hw])) (fun w hw => hN w (by simp [hw])) fun w hw => ?_⟩
    rw [hr]
    exact h w (by simp [hw])

theorem visits_bad {H : HttpExt} {cfg : Http.Config} {request : Str} {q : EvalRequest} (ha : q.arguments = none) : ∀ (vs : List Visit) (s : Site), Spec.Blank s →
    (∀ v ∈ vs, ∀ s, HttpReply.connection v.X H v.W cfg v.report v.want ⟨HttpRead.Spec.bytesOf request, false⟩ s = HttpReply.sendEval v.X v.W s q) →
    (∀ v ∈ vs, ∃ N, Uses v.X N ∧ (v.W.ms.isFinite = true → FloatBack N v.W.ms)) →
    (∀ v ∈ vs, (FrontEnds.Spec.worth v.X s.reg q.expression fun _ => none).isOk = false) → (visits H cfg request vs s).1 = vs.map fun _ => false
  | [], _, _, _, _, _ => rfl
  | v :: vs, s, hb, hq, hN, h => by
    have hc := hq v (by simp) s
    obtain ⟨N, hu, hms⟩ := hN v (by simp)
    have hr : (HttpReply.sendEval v.X v.W s q).2.reg = s.reg := by rw [send_site, cached_reg]
    have hbad := counted_bad hu hms s hb ha (h v (by simp))
    unfold visits
    rw [show (request.flatMap String.utf8EncodeChar) = HttpRead.Spec.bytesOf request from rfl, hc]
    simp only [List.map_cons, List.cons.injEq]
    refine ⟨hbad.1, visits_bad ha vs _ hbad.2 (fun w hw => hq w (by simp [hw])) (fun w hw => hN w (by simp [hw])) fun w hw => ?_⟩
    rw [hr]
    exact h w (by simp [hw])

/-- JSON numbers are written by `N` as the outside world writes them, and the time that the server reports is read back. -/
def Spec.Faithful (v : Visit) : Prop := ∃ N, Uses v.X N ∧ (v.W.ms.isFinite = true → FloatBack N v.W.ms)

/-- **C130, requests without a body.** The benchmark asks a server without a token, any number of times, for an ASCII expression, and the bytes arrive in whatever pieces. If the expression is worth
something, every request is counted, with or without stored results. If it fails, and nothing is stored, no request is counted. -/
theorem C130_get (H : HttpExt) (cfg : Http.Config) (ht : cfg.authToken = none) (host expr : Str) (hh : Host host) (he : Ascii expr) (hne : expr ≠ [])
    (hs : Str.byteLen (evalRequest host expr) ≤ HttpRead.Spec.limit) (vs : List Visit) (hf : ∀ v ∈ vs, Spec.Faithful v) (s : Site) :
    ((∀ v ∈ vs, ∃ x, FrontEnds.Spec.worth v.X s.reg expr (fun _ => none) = .ok x) → (visits H cfg (evalRequest host expr) vs s).1 = vs.map fun _ => true) ∧
    (Spec.Blank s → (∀ v ∈ vs, ∃ f, FrontEnds.Spec.worth v.X s.reg expr (fun _ => none) = .error f) → (visits H cfg (evalRequest host expr) vs s).1 = vs.map fun _ => false) := by
  have hq : ∀ v ∈ vs, ∀ s, HttpReply.connection v.X H v.W cfg v.report v.want ⟨HttpRead.Spec.bytesOf (evalRequest host expr), false⟩ s =
      HttpReply.sendEval v.X v.W s ⟨expr, none, some false, some .none⟩ := fun v _ s => connection_eval v.X H v.W cfg v.report v.want false s ht hh he hne hs
  constructor
  · intro h
    refine visits_ok rfl vs s hq hf fun v hv => ?_
    obtain ⟨x, hx⟩ := h v hv
    rw [hx]; rfl
  · intro hb h
    refine visits_bad rfl vs s hb hq hf fun v hv => ?_
    obtain ⟨x, hx⟩ := h v hv
    rw [hx]; rfl

/-- **C130, requests with a body.** The same, for an expression without quotes, backslashes, control characters and `{}`, and any of the choices of variables; the server reads the JSON text. -/
theorem C130_json (N : Floats) (H : HttpExt) (order : Wire.Order) (why : Str → Str) (cfg : Http.Config) (ht : cfg.authToken = none) (host expr inc : Str) (i : Include) (hh : Host host)
    (he : Verbatim expr) (hb : Str.contains expr c!"{}" = false) (hi : Choice inc i) (hs : Str.byteLen (jsonRequest host expr inc) ≤ HttpRead.Spec.limit)
    (vs : List Visit) (hf : ∀ v ∈ vs, Spec.Faithful v) (s : Site) :
    ((∀ v ∈ vs, ∃ x, FrontEnds.Spec.worth v.X s.reg expr (fun _ => none) = .ok x) →
      (visits (HttpWire.reading N order why H) cfg (jsonRequest host expr inc) vs s).1 = vs.map fun _ => true) ∧
    (Spec.Blank s → (∀ v ∈ vs, ∃ f, FrontEnds.Spec.worth v.X s.reg expr (fun _ => none) = .error f) →
      (visits (HttpWire.reading N order why H) cfg (jsonRequest host expr inc) vs s).1 = vs.map fun _ => false) := by
  have hq : ∀ v ∈ vs, ∀ s, HttpReply.connection v.X (HttpWire.reading N order why H) v.W cfg v.report v.want ⟨HttpRead.Spec.bytesOf (jsonRequest host expr inc), false⟩ s =
      HttpReply.sendEval v.X v.W s ⟨expr, none, none, some i⟩ := fun v _ s => connection_json v.X N H order why v.W cfg v.report v.want false s ht hh he hb hi hs
  constructor
  · intro h
    refine visits_ok rfl vs s hq hf fun v hv => ?_
    obtain ⟨x, hx⟩ := h v hv
    rw [hx]; rfl
  · intro hb h
    refine visits_bad rfl vs s hb hq hf fun v hv => ?_
    obtain ⟨x, hx⟩ := h v hv
    rw [hx]; rfl

theorem healthRequest_text (host : Str) : healthRequest host = HttpRead.Spec.requestText [c!"GET /health HTTP/1.1", c!"Host: " ++ host, c!"Connection: close"] [] := by
  unfold healthRequest sent Str.replace
  have : Str.split c!"GET /health HTTP/1.1\r\nHost: {}\r\nConnection: close\r\n\r\n" c!"{}" = [c!"GET /health HTTP/1.1\r\nHost: ", c!"\r\nConnection: close\r\n\r\n"] := by kernel_rfl
  rw [this]
  simp [Str.join, HttpRead.Spec.requestText]

/-- **C130, the health check.** The benchmark finds a server healthy, whatever its state and however the bytes arrive. -/
theorem C130_health (X : Ext) (N : Floats) (hu : Uses X N) (H : HttpExt) (W : HttpReply.World) (cfg : Http.Config) (report : Health.Report) (want : HttpRead.Schedule) (s : Site) (host : Str)
    (hh : Host host) (hs : Str.byteLen (healthRequest host) ≤ HttpRead.Spec.limit) :
    healthy X (HttpReply.connection X H W cfg report want ⟨HttpRead.Spec.bytesOf (healthRequest host), false⟩ s).1 = true := by
  have hr := healthRequest_text host
  have hread := HttpRead.C58_bodyless X want false [c!"GET /health HTTP/1.1", c!"Host: " ++ host, c!"Connection: close"] (by simp)
    (by
      intro l hl
      simp only [List.mem_cons, List.not_mem_nil, or_false] at hl
      rcases hl with rfl | rfl | rfl
      · exact ⟨by simp, by decide⟩
      · exact host_line hh
      · exact ⟨by simp, by decide⟩)
    (by
      intro l hl
      simp only [List.mem_cons, List.not_mem_nil, or_false] at hl
      rcases hl with rfl | rfl | rfl
      · exact not_length (c := 'G') (by decide)
      · exact not_length (c := 'H') (by decide)
      · rintro ⟨nm, v, e, hn⟩
        have hlen : nm.length = 14 := by simpa using congrArg List.length hn
        have : nm = (c!"Connection: close").take 14 := by rw [e, List.append_assoc, ← hlen, List.take_left]
        rw [this] at hn
        revert hn
        decide)
    (by rw [← hr]; exact hs)
  rw [← hr] at hread
  unfold HttpReply.connection
  rw [hread]
  simp only
  have ha : Health.asksHealth (healthRequest host) = true := by kernel_rfl
  rw [(HttpReply.health_route X H W cfg report _ s ha).1]
  unfold healthy
  rw [show (HttpReply.send s 200 (HttpReply.healthDoc W report)).1 = some ⟨200, .json (HttpReply.healthDoc W report)⟩ from rfl, received_json, hu.print]
  simp only
  rw [contains_iff]
  obtain ⟨r, hr⟩ : ∃ r, print N (HttpReply.healthDoc W report) = c!"{" ++ (c!"\"status\":\"healthy\"" ++ r) := by
    unfold HttpReply.healthDoc
    rw [print, print]
    exact ⟨_, rfl⟩
  rw [hr, ← List.append_assoc, ← List.append_assoc]
  exact ⟨_, _, rfl⟩

/-! ### The expressions of the benchmark -/

theorem isOk_iff {r : Res Value} : r.isOk = true → ∃ x, r = .ok x := by
  cases r with
  | ok x => exact fun _ => ⟨x, rfl⟩
  | error f => intro h; cases h

theorem isOk_not {r : Res Value} : r.isOk = false → ∃ f, r = .error f := by
  cases r with
  | ok x => intro h; cases h
  | error f => exact fun _ => ⟨f, rfl⟩

theorem cases_worth (X : Ext) : (cases.map fun e => (FrontEnds.Spec.worth X Registry.empty e fun _ => none).isOk) = [true, true, true, true, false, true] := by kernel_rfl

theorem concurrent_worth (X : Ext) : (FrontEnds.Spec.worth X Registry.empty concurrentCase fun _ => none).isOk = true := by kernel_rfl

theorem variable_worth (X : Ext) : (FrontEnds.Spec.worth X Registry.empty variableCase fun _ => none).isOk = true := by kernel_rfl

/-- **C130, the expressions of the benchmark.** Of a server without functions of its own, every evaluation that the benchmark asks for succeeds and is counted, except that of its range: there is no
function `RANGE`, and so no request of that part is ever counted. -/
theorem C130_cases (H : HttpExt) (cfg : Http.Config) (ht : cfg.authToken = none) (host : Str) (hh : Host host) (hs : host.length ≤ 1000) (vs : List Visit)
    (hf : ∀ v ∈ vs, Spec.Faithful v) (s : Site) (hr : s.reg = Registry.empty) (hb : Spec.Blank s) (expr : Str) (he : expr ∈ concurrentCase :: cases) :
    (visits H cfg (evalRequest host expr) vs s).1 = vs.map fun _ => decide (expr ≠ c!"range(1,50).sum()") := by
  have hlist : ∀ e ∈ concurrentCase :: cases, (∀ c ∈ e, c.toNat < 128) ∧ e ≠ [] ∧ Str.byteLen (HttpWire.Spec.getLine [c!"expr=" ++ HttpQuery.Spec.pctEncode e]) ≤ 1000 := by decide +kernel
  obtain ⟨h1, h2, h3⟩ := hlist expr he
  have hlen : Str.byteLen (evalRequest host expr) ≤ HttpRead.Spec.limit := by
    have hhost : Str.byteLen host = host.length := Str.byteLen_ascii fun c hc => by
      have := (hh c hc).1
      simp only [Str.isAscii, decide_eq_true_eq, UInt32.lt_iff_toNat_lt] at this
      exact this
    have e : HttpRead.Spec.requestText [HttpWire.Spec.getLine [c!"expr=" ++ HttpQuery.Spec.pctEncode expr], c!"Host: " ++ host, c!"Connection: close"] [] =
        HttpWire.Spec.getLine [c!"expr=" ++ HttpQuery.Spec.pctEncode expr] ++ (c!"\r\nHost: " ++ (host ++ c!"\r\nConnection: close\r\n\r\n")) := by
      simp [HttpRead.Spec.requestText, Str.join]
    rw [evalRequest_text hh h1, e, Str.byteLen_app, Str.byteLen_app, Str.byteLen_app, hhost,
      show Str.byteLen c!"\r\nHost: " = 8 from by decide, show Str.byteLen c!"\r\nConnection: close\r\n\r\n" = 23 from by decide, HttpRead.Spec.limit]
    omega
  obtain ⟨hok, hbad⟩ := C130_get H cfg ht host expr hh h1 h2 hlen vs hf s
  have hw : ∀ X : Ext, (FrontEnds.Spec.worth X s.reg expr fun _ => none).isOk = decide (expr ≠ c!"range(1,50).sum()") := by
    intro X
    rw [hr]
    have hc := cases_worth X
    simp only [cases, List.map_cons, List.map_nil, List.cons.injEq, and_true] at hc
    simp only [cases, List.mem_cons, List.not_mem_nil, or_false] at he
    rcases he with rfl | rfl | rfl | rfl | rfl | rfl | rfl
    · rw [concurrent_worth X]; decide
    · rw [hc.1]; decide
    · rw [hc.2.1]; decide
    · rw [hc.2.2.1]; decide
    · rw [hc.2.2.2.1]; decide
    · rw [hc.2.2.2.2.1]; decide
    · rw [hc.2.2.2.2.2]; decide
  by_cases hx : expr = c!"range(1,50).sum()"
  · have : decide (expr ≠ c!"range(1,50).sum()") = false := by simp [hx]
    rw [this]
    exact hbad hb fun v _ => isOk_not (by rw [hw, this])
  · have : decide (expr ≠ c!"range(1,50).sum()") = true := by simpa using hx
    rw [this]
    exact hok fun v _ => isOk_iff (by rw [hw, this])

/-- **C130, the expression with variables**, for each of the three choices of the benchmark. -/
theorem C130_variables (N : Floats) (H : HttpExt) (order : Wire.Order) (why : Str → Str) (cfg : Http.Config) (ht : cfg.authToken = none) (host : Str) (hh : Host host) (hs : host.length ≤ 1000)
    (vs : List Visit) (hf : ∀ v ∈ vs, Spec.Faithful v) (s : Site) (hr : s.reg = Registry.empty) (inc : Str) (hi : inc ∈ scenarios) :
    (visits (HttpWire.reading N order why H) cfg (jsonRequest host variableCase inc) vs s).1 = vs.map fun _ => true := by
  have hlist : ∀ inc ∈ scenarios, Str.byteLen (jsonText variableCase inc) ≤ 1000 ∧ '{' ∉ inc := by decide +kernel
  obtain ⟨i, hc⟩ : ∃ i, Choice inc i := by
    simp only [scenarios, List.mem_cons, List.not_mem_nil, or_false] at hi
    rcases hi with rfl | rfl | rfl
    · exact ⟨_, .no⟩
    · exact ⟨_, .all⟩
    · exact ⟨_, .listed (by decide) (by decide) (by unfold Verbatim; decide) (by decide)
        (.listed _ [([], true, c!"a", []), ([], true, c!"result", [])] (by simp) (by decide) (by decide))⟩
  have hlen : Str.byteLen (jsonRequest host variableCase inc) ≤ HttpRead.Spec.limit := by
    have hhost : Str.byteLen host = host.length := Str.byteLen_ascii fun c hc => by
      have := (hh c hc).1
      simp only [Str.isAscii, decide_eq_true_eq, UInt32.lt_iff_toNat_lt] at this
      exact this
    obtain ⟨h1, h2⟩ := hlist inc hi
    have e := jsonRequest_text hh (show Str.contains variableCase c!"{}" = false by decide +kernel) h2
    have e' : jsonRequest host variableCase inc = c!"POST /eval HTTP/1.1\r\nHost: " ++ (host ++ (c!"\r\nContent-Type: application/json\r\nContent-Length: " ++
        (Nat.toDigits 10 (Str.byteLen (jsonText variableCase inc)) ++ (c!"\r\nConnection: close\r\n\r\n" ++ jsonText variableCase inc)))) := by
      rw [e]; simp [HttpRead.Spec.requestText, Str.join]
    have hdig : Str.byteLen (Nat.toDigits 10 (Str.byteLen (jsonText variableCase inc))) ≤ 1000 := by
      revert h1
      generalize Str.byteLen (jsonText variableCase inc) = n
      intro h1
      have : ∀ n : Fin 1001, Str.byteLen (Nat.toDigits 10 n.val) ≤ 1000 := by decide +kernel
      exact this ⟨n, by omega⟩
    rw [e', Str.byteLen_app, Str.byteLen_app, Str.byteLen_app, Str.byteLen_app, Str.byteLen_app, hhost,
      show Str.byteLen c!"POST /eval HTTP/1.1\r\nHost: " = 27 from by decide, show Str.byteLen c!"\r\nContent-Type: application/json\r\nContent-Length: " = 50 from by decide,
      show Str.byteLen c!"\r\nConnection: close\r\n\r\n" = 23 from by decide, HttpRead.Spec.limit]
    omega
  refine (C130_json N H order why cfg ht host variableCase inc i hh (by unfold Verbatim; decide +kernel) (by decide +kernel) hc hlen vs hf s).1 fun v _ => ?_
  rw [hr]
  exact isOk_iff (variable_worth v.X)

/-! ### Where the count goes wrong -/

theorem counted_refused {X : Ext} {N : Floats} (hu : Uses X N) (s : Site) (msg : Str) : counted X (HttpReply.sendError s 400 msg).1 = false := by
  rw [show (HttpReply.sendError s 400 msg).1 = some ⟨400, .json (HttpReply.errorDoc msg)⟩ from rfl]
  unfold counted
  rw [received_json, hu.print]
  simp only
  have hdoc : print N (HttpReply.errorDoc msg) = c!"{\"error\":\"" ++ ((msg.flatMap escape ++ c!"\"") ++ ',' :: c!"\"success\":false}") := by
    simp only [HttpReply.errorDoc, print, printMembers]
    rw [show quote c!"success" = c!"\"success\"" by decide, show quote c!"error" = c!"\"error\"" by decide]
    simp [quote, Str.showBool]
  have hd : Dull (HttpWrite.number (HttpWrite.encode (print N (HttpReply.errorDoc msg))).length) := dull_nat _
  generalize HttpWrite.number (HttpWrite.encode (print N (HttpReply.errorDoc msg))).length = num at hd ⊢
  rw [hdoc]
  have hu : Str.contains (c!"HTTP/1.1 400 Bad Request\r\nAccess-Control-Allow-Origin: *\r\nAccess-Control-Allow-Methods: GET, POST, PUT, DELETE, OPTIONS\r\nAccess-Control-Allow-Headers: Content-Type, Authorization\r\nContent-Type: application/json\r\nContent-Length:" ++
      ' ' :: (num ++ (c!"\r\nConnection: clo" ++ 's' :: (c!"e\r\n\r\n{\"error\":\"" ++ ((msg.flatMap escape ++ c!"\"") ++ ',' :: c!"\"success\":false}"))))) mark = false := by
    have hne : mark ≠ [] := by decide
    have hh : Str.contains c!"HTTP/1.1 400 Bad Request\r\nAccess-Control-Allow-Origin: *\r\nAccess-Control-Allow-Methods: GET, POST, PUT, DELETE, OPTIONS\r\nAccess-Control-Allow-Headers: Content-Type, Authorization\r\nContent-Type: application/json\r\nContent-Length:" mark = false := by decide
    rw [contains_sep hne (by decide), hh, Bool.false_or, dull_skip hd, dull_skip_s _ (by decide), Str.contains, dull_skip_s _ (by decide), contains_sep hne (by decide), quoted_unmarked]
    rfl
  refine Bool.eq_false_iff.2 fun h => ?_
  have h := mark_of_success h
  rw [← Bool.not_eq_true] at hu
  refine hu ?_
  convert h using 2
  rw [show HttpWrite.number 400 = c!"400" by decide, show HttpWrite.statusText 400 = c!"Bad Request" by decide]
  simp only [List.append_assoc]
  kernel_rfl

/-- **C130, braces.** The benchmark replaces `{}` in the body as well. Asking the host `42` for `{}+1`, which is an error, counts a success: the server evaluates `42+1`. -/
theorem C130_braces (N : Floats) (H : HttpExt) (order : Wire.Order) (why : Str → Str) (cfg : Http.Config) (ht : cfg.authToken = none) (v : Visit) (hf : Spec.Faithful v) (s : Site) :
    (∃ f, FrontEnds.Spec.worth v.X s.reg c!"{}+1" (fun _ => none) = .error f) ∧
    (visits (HttpWire.reading N order why H) cfg (jsonRequest c!"42" c!"{}+1" c!"false") [v] s).1 = [true] := by
  refine ⟨isOk_not (by kernel_rfl), ?_⟩
  rw [show jsonRequest c!"42" c!"{}+1" c!"false" = jsonRequest c!"42" c!"42+1" c!"false" by kernel_rfl]
  exact (C130_json N H order why cfg ht c!"42" c!"42+1" c!"false" .none (by unfold Host; decide) (by unfold Verbatim; decide) (by decide) .no (by decide +kernel) [v]
    (by intro w hw; rw [List.mem_singleton.1 hw]; exact hf) s).1 fun v _ => isOk_iff (by kernel_rfl)

/-- **C130, quotes.** The benchmark does not escape the expression. Asking for `"a"`, which is worth a text, counts no success: the body is no JSON text. -/
theorem C130_quotes (N : Floats) (H : HttpExt) (order : Wire.Order) (why : Str → Str) (cfg : Http.Config) (ht : cfg.authToken = none) (v : Visit) (hf : Spec.Faithful v) (s : Site) :
    (FrontEnds.Spec.worth v.X s.reg c!"\"a\"" (fun _ => none) = .ok (.str c!"a")) ∧
    (visits (HttpWire.reading N order why H) cfg (jsonRequest c!"a" c!"\"a\"" c!"false") [v] s).1 = [false] := by
  obtain ⟨N', hu, -⟩ := hf
  refine ⟨by kernel_rfl, ?_⟩
  have e : jsonRequest c!"a" c!"\"a\"" c!"false" = HttpRead.Spec.requestText (c!"POST /eval HTTP/1.1" :: ([c!"Host: a", c!"Content-Type: application/json"] ++
      (c!"Content-Length" ++ c!": " ++ c!"46") :: [c!"Connection: close"])) c!"{\"expression\":\"\"a\"\",\"include_variables\":false}" := by kernel_rfl
  have hd : (HttpWire.reading N order why H).decodeEval c!"{\"expression\":\"\"a\"\",\"include_variables\":false}" =
      .error (why c!"{\"expression\":\"\"a\"\",\"include_variables\":false}") := by kernel_rfl
  unfold visits visits
  rw [e]
  have := HttpWire.connection_post v.X (HttpWire.reading N order why H) v.W cfg v.report v.want false s [c!"Host: a", c!"Content-Type: application/json"] [c!"Connection: close"] c!"Content-Length"
    c!"46" c!"{\"expression\":\"\"a\"\",\"include_variables\":false}" (by unfold HttpRead.Spec.HeaderLine; decide +kernel)
    (by
      intro l hl
      simp only [List.mem_cons, List.not_mem_nil, or_false] at hl
      rcases hl with rfl | rfl
      · exact not_length (c := 'H') (by decide)
      · rintro ⟨nm, v, e, hn⟩
        have hlen : nm.length = 14 := by simpa using congrArg List.length hn
        have : nm = (c!"Content-Type: application/json").take 14 := by rw [e, List.append_assoc, ← hlen, List.take_left]
        rw [this] at hn
        revert hn
        decide) (by decide) (by decide) (by decide) (by decide +kernel) (by decide +kernel) (by rw [ht]; rfl)
  rw [hd] at this
  unfold HttpRead.Spec.bytesOf at this
  rw [this]
  simp only [counted_refused hu]

/-! ### Samples -/

/-- A visit, however the bytes arrive. -/
def sampleVisit (report : Health.Report) (want : HttpRead.Schedule) : Visit := ⟨halvesExt, { HttpReply.Spec.someWorld with ms := .fin (1 / 2) }, report, want⟩

theorem sampleVisit_faithful (report : Health.Report) (want : HttpRead.Schedule) : Spec.Faithful (sampleVisit report want) := ⟨halves, halvesExt_uses, fun _ => half_back⟩

/-- Two requests for a sum, and two for a sum with a function that there is not. -/
example (H : HttpExt) (r1 r2 : Health.Report) (w1 w2 : HttpRead.Schedule) :
    (visits H _root_.Spec.open_ (evalRequest c!"localhost:5074" c!"7/2 + 1") [sampleVisit r1 w1, sampleVisit r2 w2] _root_.Spec.site).1 = [true, true] ∧
    (visits H _root_.Spec.open_ (evalRequest c!"localhost:5074" c!"7/2 + NOPE(1)") [sampleVisit r1 w1, sampleVisit r2 w2] _root_.Spec.site).1 = [false, false] := by
  have hf : ∀ v ∈ [sampleVisit r1 w1, sampleVisit r2 w2], Spec.Faithful v := by
    intro v hv
    simp only [List.mem_cons, List.not_mem_nil, or_false] at hv
    rcases hv with rfl | rfl <;> exact sampleVisit_faithful _ _
  constructor
  · exact (C130_get H _root_.Spec.open_ rfl c!"localhost:5074" c!"7/2 + 1" (by unfold Host; decide) (by unfold Ascii; decide) (by decide) (by decide +kernel) _ hf _root_.Spec.site).1
      fun v _ => isOk_iff (by kernel_rfl)
  · exact (C130_get H _root_.Spec.open_ rfl c!"localhost:5074" c!"7/2 + NOPE(1)" (by unfold Host; decide) (by unfold Ascii; decide) (by decide) (by decide +kernel) _ hf _root_.Spec.site).2 rfl
      fun v _ => isOk_not (by kernel_rfl)

/-- The part with ranges. -/
example (H : HttpExt) (r : Health.Report) (w : HttpRead.Schedule) :
    (visits H _root_.Spec.open_ (evalRequest c!"localhost:5074" c!"range(1,50).sum()") [sampleVisit r w] _root_.Spec.site).1 = [false] :=
  C130_cases H _root_.Spec.open_ rfl c!"localhost:5074" (by unfold Host; decide) (by decide) [sampleVisit r w]
    (by intro v hv; rw [List.mem_singleton.1 hv]; exact sampleVisit_faithful _ _) _root_.Spec.site rfl rfl _ (by decide +kernel)

end Bench
