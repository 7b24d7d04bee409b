import Verif.Model.Http
import Verif.Props.Strings
import Verif.Base.KernelRfl
/-! C54, C55: tokens, and what they guard. -/

open Http

namespace Spec

/-- The same text up to the case of ASCII letters. -/
def SameIgnoringCase (a b : Str) : Prop := a.map Str.asciiLowC = b.map Str.asciiLowC

/-- The token in the value of a header: what follows `Bearer `, or the value itself. -/
def TokenIn (value t : Str) : Prop :=
  (∃ b r, value = b ++ r ∧ SameIgnoringCase b c!"Bearer " ∧ t = Str.strip r) ∨
  ((¬ ∃ b r, value = b ++ r ∧ SameIgnoringCase b c!"Bearer ") ∧ t = value)

/-- A line `Authorization: ...` that carries the token `t`. -/
def AuthLine (line t : Str) : Prop :=
  ∃ name rest, Str.strip line = name ++ rest ∧ SameIgnoringCase name c!"Authorization:" ∧ TokenIn (Str.strip rest) t

/-- The first authorization line among these carries the token `t`. -/
def FirstToken (ls : List Str) (t : Str) : Prop :=
  ∃ before line after, ls = before ++ line :: after ∧ (∀ l ∈ before, ∀ t', ¬ AuthLine l t') ∧ AuthLine line t

/-- The lines of the request before the first empty one. -/
def headerLines (request : Str) : List Str := (Str.lines request).takeWhile fun l => !l.isEmpty

/-- The header names and words the server looks for. -/
def httpWords : List Str :=
  [c!"authorization:", c!"bearer ", c!"content-length:", c!"content-type:", c!"content-disposition:", c!"multipart/form-data"]

/-- What is assumed of `to_lowercase` on texts with other than ASCII characters: it does not make one of these words appear or disappear at the front.
(No character outside ASCII becomes an ASCII letter, except the Kelvin sign, which becomes `k`, and `İ`, which becomes `i` and a combining dot.) -/
def LowersWords (X : Ext) : Prop := ∀ s, ∀ w ∈ httpWords, Str.startsWith (X.lower s) w = Str.startsWith (s.map Str.asciiLowC) w

end Spec

open Spec

theorem asciiLowC_ascii {c d : Char} (h : Str.asciiLowC c = d) (hd : d.val < 0x80) : c.val < 0x80 := by
  unfold Str.asciiLowC at h
  split at h
  · rename_i hc
    have : c.val ≤ 'Z'.val := hc.2
    exact UInt32.lt_of_le_of_lt this (by decide)
  · rw [h]; exact hd

theorem dropBytes_narrow : ∀ (a b : Str), (∀ c ∈ a, c.val < 0x80) → Str.dropBytes (a ++ b) a.length = some b
  | [], b, _ => by cases b <;> simp [Str.dropBytes]
  | c :: a, b, h => by
    have hw : Str.width c = 1 := by unfold Str.width; rw [if_pos (h c (by simp))]
    simp only [List.cons_append, List.length_cons, Str.dropBytes, hw]
    simp only [Nat.le_add_left, if_true, Nat.add_sub_cancel]
    exact dropBytes_narrow a b fun d hd => h d (by simp [hd])

theorem same_ascii {a w : Str} (h : SameIgnoringCase a w) (hw : ∀ c ∈ w.map Str.asciiLowC, c.val < 0x80) : ∀ c ∈ a, c.val < 0x80 := by
  intro c hc
  have : Str.asciiLowC c ∈ w.map Str.asciiLowC := by rw [← h]; exact List.mem_map_of_mem hc
  exact asciiLowC_ascii rfl (hw _ this)

/-- Finding a word at the front. -/
theorem word_front (X : Ext) (hX : LowersWords X) (s w : Str) (hw : w.map Str.asciiLowC ∈ httpWords) :
    Str.startsWith (X.lower s) (w.map Str.asciiLowC) = true ↔ ∃ a r, s = a ++ r ∧ SameIgnoringCase a w := by
  rw [hX s _ hw, startsWith_iff]
  constructor
  · rintro ⟨r, hr⟩
    refine ⟨s.take w.length, s.drop w.length, (List.take_append_drop _ _).symm, ?_⟩
    unfold SameIgnoringCase
    rw [List.map_take, ← hr]
    simp
  · rintro ⟨a, r, rfl, h⟩
    exact ⟨r.map Str.asciiLowC, by rw [← h, List.map_append]⟩

theorem words_ascii : ∀ w ∈ httpWords, ∀ c ∈ w, c.val < 0x80 := by decide

theorem slice_word {s a r w : Str} (h : s = a ++ r) (hs : SameIgnoringCase a w) (hw : w.map Str.asciiLowC ∈ httpWords) : sliceFrom s w.length = .ok r := by
  have hl : w.length = a.length := by
    have := congrArg List.length hs
    simpa using this.symm
  unfold sliceFrom
  rw [hl, h, dropBytes_narrow a r (same_ascii hs (words_ascii _ hw))]

theorem front_unique {a r a' r' w : Str} (h : a ++ r = a' ++ r') (h1 : SameIgnoringCase a w) (h2 : SameIgnoringCase a' w) : r = r' := by
  have l1 : a.length = a'.length := by
    have := congrArg List.length (h1.trans h2.symm)
    simpa using this
  exact (List.append_inj h l1).2

theorem tokenIn_unique {v t t' : Str} (h : TokenIn v t) (h' : TokenIn v t') : t = t' := by
  rcases h with ⟨b, r, hv, hb, rfl⟩ | ⟨hn, rfl⟩ <;> rcases h' with ⟨b', r', hv', hb', rfl⟩ | ⟨hn', rfl⟩
  · rw [front_unique (hv.symm.trans hv') hb hb']
  · exact absurd ⟨b, r, hv, hb⟩ hn'
  · exact absurd ⟨b', r', hv', hb'⟩ hn
  · rfl

theorem authLine_unique {l t t' : Str} (h : AuthLine l t) (h' : AuthLine l t') : t = t' := by
  obtain ⟨n, r, hl, hn, ht⟩ := h
  obtain ⟨n', r', hl', hn', ht'⟩ := h'
  rw [front_unique (hl.symm.trans hl') hn hn'] at ht
  exact tokenIn_unique ht ht'

theorem authLine_eq (X : Ext) (hX : LowersWords X) (l : Str) :
    (∃ t, AuthLine l t ∧ authLine X l = .ok (some t)) ∨ ((∀ t, ¬ AuthLine l t) ∧ authLine X l = .ok none) := by
  have w1 := word_front X hX (Str.strip l) c!"Authorization:" (by decide)
  have e1 : (c!"Authorization:").map Str.asciiLowC = c!"authorization:" := by decide
  rw [e1] at w1
  by_cases h : Str.startsWith (X.lower (Str.strip l)) c!"authorization:" = true
  · left
    obtain ⟨a, r, hl, ha⟩ := w1.1 h
    have hs : sliceFrom (Str.strip l) 14 = .ok r := slice_word hl ha (by decide)
    have w2 := word_front X hX (Str.strip r) c!"Bearer " (by decide)
    have e2 : (c!"Bearer ").map Str.asciiLowC = c!"bearer " := by decide
    rw [e2] at w2
    by_cases h2 : Str.startsWith (X.lower (Str.strip r)) c!"bearer " = true
    · obtain ⟨b, r2, hr, hb⟩ := w2.1 h2
      refine ⟨Str.strip r2, ⟨a, r, hl, ha, .inl ⟨b, r2, hr, hb, rfl⟩⟩, ?_⟩
      have hs2 : sliceFrom (Str.strip r) 7 = .ok r2 := slice_word hr hb (by decide)
      simp only [authLine, h, if_true, hs, h2, hs2, bind, Except.bind, pure, Except.pure]
    · refine ⟨Str.strip r, ⟨a, r, hl, ha, .inr ⟨fun hh => h2 (w2.2 hh), rfl⟩⟩, ?_⟩
      simp only [authLine, h, if_true, hs, h2, bind, Except.bind, pure, Except.pure, Bool.false_eq_true, if_false]
  · right
    refine ⟨fun t ⟨a, r, hl, ha, _⟩ => h (w1.2 ⟨a, r, hl, ha⟩), ?_⟩
    simp only [authLine, h, Bool.false_eq_true, if_false, pure, Except.pure]

theorem firstToken_cons_auth {l t : Str} (h : AuthLine l t) (ls : List Str) (t' : Str) : FirstToken (l :: ls) t' ↔ t' = t := by
  constructor
  · rintro ⟨before, line, after, e, hb, hl⟩
    cases before with
    | nil =>
      simp only [List.nil_append, List.cons.injEq] at e
      rw [← e.1] at hl
      exact authLine_unique hl h
    | cons b bs =>
      simp only [List.cons_append, List.cons.injEq] at e
      exact absurd h (hb l (by simp [e.1]) t)
  · rintro rfl
    exact ⟨[], l, ls, rfl, by simp, h⟩

theorem firstToken_cons_other {l : Str} (h : ∀ t, ¬ AuthLine l t) (ls : List Str) (t : Str) : FirstToken (l :: ls) t ↔ FirstToken ls t := by
  constructor
  · rintro ⟨before, line, after, e, hb, hl⟩
    cases before with
    | nil =>
      simp only [List.nil_append, List.cons.injEq] at e
      rw [← e.1] at hl
      exact absurd hl (h t)
    | cons b bs =>
      simp only [List.cons_append, List.cons.injEq] at e
      exact ⟨bs, line, after, e.2, fun l hl => hb l (by simp [hl]), hl⟩
  · rintro ⟨before, line, after, rfl, hb, hl⟩
    refine ⟨l :: before, line, after, rfl, fun x hx => ?_, hl⟩
    rcases List.mem_cons.1 hx with rfl | hx
    · exact h
    · exact hb x hx

theorem authOf_eq (X : Ext) (hX : LowersWords X) (ls : List Str) :
    (∃ t, FirstToken ls t ∧ authOf X ls = .ok (some t)) ∨ ((∀ l ∈ ls, ∀ t, ¬ AuthLine l t) ∧ authOf X ls = .ok none) := by
  induction ls with
  | nil => right; exact ⟨by simp, rfl⟩
  | cons l ls ih =>
    rcases authLine_eq X hX l with ⟨t, ht, he⟩ | ⟨hn, he⟩
    · left
      exact ⟨t, (firstToken_cons_auth ht ls t).2 rfl, by simp only [authOf, he, bind, Except.bind, pure, Except.pure]⟩
    · rcases ih with ⟨t, ht, he'⟩ | ⟨hn', he'⟩
      · left
        exact ⟨t, (firstToken_cons_other hn ls t).2 ht, by simp only [authOf, he, he', bind, Except.bind]⟩
      · right
        refine ⟨fun x hx => ?_, by simp only [authOf, he, he', bind, Except.bind]⟩
        rcases List.mem_cons.1 hx with rfl | hx
        · exact hn
        · exact hn' x hx

theorem firstToken_unique {ls : List Str} {t t' : Str} (h : FirstToken ls t) (h' : FirstToken ls t') : t = t' := by
  induction ls with
  | nil => obtain ⟨b, l, a, e, _⟩ := h; simp at e
  | cons l ls ih =>
    by_cases hl : ∃ u, AuthLine l u
    · obtain ⟨u, hu⟩ := hl
      rw [(firstToken_cons_auth hu ls t).1 h, (firstToken_cons_auth hu ls t').1 h']
    · have hl' : ∀ u, ¬ AuthLine l u := fun u hu => hl ⟨u, hu⟩
      exact ih ((firstToken_cons_other hl' ls t).1 h) ((firstToken_cons_other hl' ls t').1 h')

/-- **C54.** Without a configured token every request passes. -/
theorem C54_no_token (X : Ext) (request : Str) : passes X request none = .ok true := rfl

/-- **C54.** Exactly when a request passes: the check never panics, and the request passes iff the first line of the whole request (body included) that reads as an authorization
header carries the token, or there is no such line and the token is empty. -/
theorem C54_passes (X : Ext) (hX : LowersWords X) (request t : Str) :
    (∃ b, passes X request (some t) = .ok b) ∧
    (passes X request (some t) = .ok true ↔
      FirstToken (Str.lines request) t ∨ (t = [] ∧ ∀ l ∈ Str.lines request, ∀ t', ¬ AuthLine l t')) := by
  unfold passes
  rcases authOf_eq X hX (Str.lines request) with ⟨t', ht, he⟩ | ⟨hn, he⟩
  · simp only [he, bind, Except.bind, pure, Except.pure, Option.getD_some, Except.ok.injEq, exists_eq', true_and, beq_iff_eq]
    constructor
    · rintro rfl; exact .inl ht
    · rintro (h | ⟨_, h⟩)
      · exact firstToken_unique ht h
      · obtain ⟨b, l, a, e, _, hl⟩ := ht
        exact absurd hl (h l (by rw [e]; simp) t')
  · simp only [he, bind, Except.bind, pure, Except.pure, Option.getD_none, Except.ok.injEq, exists_eq', true_and, beq_iff_eq]
    constructor
    · rintro rfl; exact .inr ⟨rfl, hn⟩
    · rintro (h | ⟨h, _⟩)
      · obtain ⟨b, l, a, e, _, hl⟩ := h
        exact absurd hl (hn l (by rw [e]; simp) t)
      · exact h.symm

theorem takeWhile_append_dropWhile' {α : Type} (p : α → Bool) (l : List α) : l = l.takeWhile p ++ l.dropWhile p := (List.takeWhile_append_dropWhile).symm

/-- **C54 (partial).** With a non-empty token, a request whose body has no line that reads as an authorization header passes iff its first authorization header carries the token. -/
theorem C54_headers_partial (X : Ext) (hX : LowersWords X) (request t : Str) (ht : t ≠ [])
    (hbody : ∀ l ∈ (Str.lines request).dropWhile (fun l => !l.isEmpty), ∀ t', ¬ AuthLine l t') :
    passes X request (some t) = .ok true ↔ FirstToken (headerLines request) t := by
  rw [(C54_passes X hX request t).2]
  have hsplit := takeWhile_append_dropWhile' (fun l : Str => !l.isEmpty) (Str.lines request)
  constructor
  · rintro (h | ⟨h, _⟩)
    · obtain ⟨before, line, after, e, hb, hl⟩ := h
      have hmem : line ∈ Str.lines request := by rw [e]; simp
      rw [hsplit] at hmem e
      rcases List.append_eq_append_iff.1 e with ⟨m, hm1, hm2⟩ | ⟨m, hm1, hm2⟩
      · exact absurd hl (hbody line (by rw [hm2]; simp) t)
      · cases m with
        | nil => exact absurd hl (hbody line (by simp only [List.nil_append] at hm2; rw [← hm2]; simp) t)
        | cons x m =>
          simp only [List.cons_append, List.cons.injEq] at hm2
          exact ⟨before, line, m, by unfold headerLines; rw [hm1, hm2.1], hb, hl⟩
    · exact absurd h ht
  · rintro ⟨before, line, after, e, hb, hl⟩
    left
    refine ⟨before, line, after ++ (Str.lines request).dropWhile (fun l => !l.isEmpty), ?_, hb, hl⟩
    unfold headerLines at e
    calc Str.lines request = _ := hsplit
      _ = _ := by rw [e]; simp

/-- **C54 fails.** The check reads the body too: a request without any header passes if a line of its body reads as an authorization header. -/
theorem C54_body_counts (X : Ext) : passes X c!"POST /eval HTTP/1.1\r\n\r\nAuthorization: secret" (some c!"secret") = .ok true ∧
    headerLines c!"POST /eval HTTP/1.1\r\n\r\nAuthorization: secret" = [c!"POST /eval HTTP/1.1"] := by
  exact ⟨by kernel_rfl, by kernel_rfl⟩

/-- **C54 fails.** An empty token lets requests without an authorization header pass. -/
theorem C54_empty_token (X : Ext) : passes X c!"GET /eval HTTP/1.1\r\n\r\n" (some []) = .ok true := by kernel_rfl

/-- A case of `C54_headers_partial`. -/
example (X : Ext) : passes X c!"GET / HTTP/1.1\r\nAUTHORIZATION:  bearer secret \r\n\r\n" (some c!"secret") = .ok true := by kernel_rfl
example (X : Ext) : passes X c!"GET / HTTP/1.1\r\nAuthorization: Bearer other\r\n\r\n" (some c!"secret") = .ok false := by kernel_rfl
example : headerLines c!"GET / HTTP/1.1\r\nAUTHORIZATION:  bearer secret \r\n\r\n" = [c!"GET / HTTP/1.1", c!"AUTHORIZATION:  bearer secret "] := by decide +kernel
/-- `LowersWords` holds when `to_lowercase` leaves other characters alone. -/
example (X : Ext) : LowersWords { X with lowerUni := fun s => s.map Str.asciiLowC } := by
  intro s w _
  unfold Ext.lower
  split <;> rfl

/-! ### C55 -/

theorem withToken_fail (X : Ext) (request : Str) (token : Option Str) (s : Site) (k : Outcome) (h : passes X request token ≠ .ok true) :
    (withToken X request token s k).2 = s := by
  unfold withToken guarded
  cases hp : passes X request token with
  | error f => cases f <;> rfl
  | ok b => cases b with
    | false => rfl
    | true => exact absurd hp h

theorem withToken_pass (X : Ext) (request : Str) (token : Option Str) (s : Site) (k : Outcome) (h : passes X request token = .ok true) :
    withToken X request token s k = k := by
  unfold withToken guarded
  rw [h]
  rfl

theorem withToken_401 (X : Ext) (request : Str) (token : Option Str) (s : Site) (k : Outcome) (h : passes X request token = .ok false) :
    withToken X request token s k = reply s 401 := by
  unfold withToken guarded
  rw [h]
  rfl

theorem withToken_either (X : Ext) (request : Str) (token : Option Str) (s : Site) (k : Outcome) :
    (withToken X request token s k).2 = s ∨ withToken X request token s k = k := by
  by_cases h : passes X request token = .ok true
  · exact .inr (withToken_pass X request token s k h)
  · exact .inl (withToken_fail X request token s k h)

/-- What evaluating a request can do to the site: it counts it, and looks into the cache and may store its result there. -/
def Spec.OnlyEvaluated (s s' : Site) : Prop :=
  s'.fs = s.fs ∧ s'.reg = s.reg ∧
  (s'.cache = s.cache ∨ ∃ k, s'.cache = (s.cache.get k).2 ∨ ∃ e, s'.cache = ((s.cache.get k).2).put k e)

theorem OnlyEvaluated.refl (s : Site) : OnlyEvaluated s s := ⟨rfl, rfl, .inl rfl⟩

theorem sendEval_only (X : Ext) (s : Site) (q : EvalRequest) : OnlyEvaluated s (sendEval X s q).2 := by
  have h : OnlyEvaluated s (evalRequest X s q).2 := by
    simp only [evalRequest, evaluateCached]
    cases hg : s.cache.get (HttpCache.Request.key X ⟨q.expression, varsOf X q.arguments, wantsVariables q.includeVariables⟩) with
    | mk o c =>
      have hc : c = (s.cache.get (HttpCache.Request.key X ⟨q.expression, varsOf X q.arguments, wantsVariables q.includeVariables⟩)).2 := by rw [hg]
      cases o with
      | some e => exact ⟨rfl, rfl, .inr ⟨_, .inl hc⟩⟩
      | none =>
        cases hf : HttpCache.fresh X s.reg ⟨q.expression, varsOf X q.arguments, wantsVariables q.includeVariables⟩ with
        | ok p => exact ⟨rfl, rfl, .inr ⟨_, .inr ⟨_, by simp only; rw [hc]⟩⟩⟩
        | error f => cases f <;> exact ⟨rfl, rfl, .inr ⟨_, .inl hc⟩⟩
  unfold sendEval
  cases hr : evalRequest X s q with
  | mk r s' => rw [hr] at h; cases r <;> exact h

theorem guarded_only {α : Type} {s : Site} {r : Res α} {e : Outcome} {k : α → Outcome} (he : OnlyEvaluated s e.2) (hk : ∀ a, OnlyEvaluated s (k a).2) :
    OnlyEvaluated s (guarded s r e k).2 := by
  unfold guarded
  split
  · exact hk _
  · exact he
  · exact OnlyEvaluated.refl s

theorem withToken_only {X : Ext} {request : Str} {token : Option Str} {s : Site} {k : Outcome} (hk : OnlyEvaluated s k.2) :
    OnlyEvaluated s (withToken X request token s k).2 := by
  rcases withToken_either X request token s k with h | h
  · rw [h]; exact OnlyEvaluated.refl s
  · rw [h]; exact hk

theorem reply_only (s : Site) (n : Nat) : OnlyEvaluated s (reply s n).2 := OnlyEvaluated.refl s

theorem ite_only {p : Prop} [Decidable p] {s : Site} {a b : Outcome} (ha : OnlyEvaluated s a.2) (hb : OnlyEvaluated s b.2) : OnlyEvaluated s (if p then a else b).2 := by
  by_cases h : p
  · rw [if_pos h]; exact ha
  · rw [if_neg h]; exact hb

theorem evalPost_only (X : Ext) (H : HttpExt) (cfg : Config) (request : Str) (s : Site) : OnlyEvaluated s (evalPost X H cfg request s).2 :=
  withToken_only (guarded_only (reply_only s 400) fun q => sendEval_only X s q)

theorem evalGet_only (X : Ext) (H : HttpExt) (cfg : Config) (request : Str) (s : Site) : OnlyEvaluated s (evalGet X cfg request s).2 := by
  refine withToken_only ?_
  cases Str.splitWs ((Str.lines request).headD []) with
  | nil => exact reply_only s 400
  | cons m rest =>
    cases rest with
    | nil => exact reply_only s 400
    | cons path rest =>
      simp only
      refine @ite_only _ _ s _ _ ?_ ?_
      · exact reply_only s 400
      · exact sendEval_only X s _

/-- **C55.** Whatever the method, path and body: a request that does not pass the check for the admin token leaves the function files and the registered functions as they
are, and does no more to the response cache than look up, and store, one result. -/
theorem C55_management_guarded (X : Ext) (H : HttpExt) (cfg : Config) (request : Str) (s : Site) (h : passes X request cfg.adminToken ≠ .ok true) :
    OnlyEvaluated s (handle X H cfg request s).2 := by
  have hf : ∀ k, OnlyEvaluated s (withToken X request cfg.adminToken s k).2 := fun k => by
    rw [withToken_fail X request _ s k h]; exact OnlyEvaluated.refl s
  unfold handle
  split
  · exact OnlyEvaluated.refl s
  · split
    · unfold route
      refine ite_only (reply_only s _) <| ite_only (reply_only s _) <| ite_only (reply_only s _) <| ite_only (reply_only s _) <|
        ite_only (evalPost_only X H cfg request s) <| ite_only (evalGet_only X H cfg request s) <| ite_only ?_ <| ite_only ?_ <| ite_only ?_ <| ite_only ?_ <|
        ite_only ?_ <| ite_only ?_ <| ite_only (reply_only s _) (reply_only s _)
      · unfold uploadJs; exact hf _
      · unfold updateJs; exact hf _
      · unfold deleteJsRequest; exact hf _
      · unfold listJs; exact hf _
      · unfold reloadHooks; exact hf _
      · unfold clearCache; exact hf _
    · exact reply_only s 400

theorem ite_same {p : Prop} [Decidable p] {s : Site} {a b : Outcome} (ha : a.2 = s) (hb : b.2 = s) : (if p then a else b).2 = s := by
  by_cases h : p
  · rw [if_pos h]; exact ha
  · rw [if_neg h]; exact hb

/-- **C55.** A request that passes neither check changes nothing at all: nothing is evaluated, stored or counted. -/
theorem C55_nothing_without_tokens (X : Ext) (H : HttpExt) (cfg : Config) (request : Str) (s : Site) (h : passes X request cfg.adminToken ≠ .ok true)
    (h' : passes X request cfg.authToken ≠ .ok true) : (handle X H cfg request s).2 = s := by
  have hf : ∀ k, (withToken X request cfg.adminToken s k).2 = s := fun k => withToken_fail X request _ s k h
  have hf' : ∀ k, (withToken X request cfg.authToken s k).2 = s := fun k => withToken_fail X request _ s k h'
  unfold handle
  split
  · rfl
  · split
    · unfold route
      refine ite_same rfl <| ite_same rfl <| ite_same rfl <| ite_same rfl <|
        ite_same ?_ <| ite_same ?_ <| ite_same ?_ <| ite_same ?_ <| ite_same ?_ <| ite_same ?_ <|
        ite_same ?_ <| ite_same ?_ <| ite_same rfl rfl
      · unfold evalPost; exact hf' _
      · unfold evalGet; exact hf' _
      · unfold uploadJs; exact hf _
      · unfold updateJs; exact hf _
      · unfold deleteJsRequest; exact hf _
      · unfold listJs; exact hf _
      · unfold reloadHooks; exact hf _
      · unfold clearCache; exact hf _
    · rfl

/-- The management endpoints. -/
def Spec.managementRoutes : List (Str × Str) :=
  [(c!"POST", c!"/upload-js"), (c!"PUT", c!"/update-js"), (c!"DELETE", c!"/delete-js"), (c!"GET", c!"/list-js"), (c!"POST", c!"/reload-hooks"), (c!"DELETE", c!"/cache")]

/-- **C55.** At each management endpoint such a request is answered with 401. -/
theorem C55_refused (X : Ext) (hX : LowersWords X) (H : HttpExt) (cfg : Config) (method path request : Str) (s : Site) (hr : (method, path) ∈ managementRoutes)
    (h : passes X request cfg.adminToken ≠ .ok true) : route X H cfg method path request s = (some { status := 401 }, s) := by
  have hf : passes X request cfg.adminToken = .ok false := by
    cases ht : cfg.adminToken with
    | none => rw [ht] at h; exact absurd rfl h
    | some t =>
      rw [ht] at h
      obtain ⟨b, hb⟩ := (C54_passes X hX request t).1
      cases b with
      | false => exact hb
      | true => exact absurd hb h
  have hk : ∀ k, withToken X request cfg.adminToken s k = (some { status := 401 }, s) := fun k => withToken_401 X request _ s k hf
  simp only [managementRoutes, List.mem_cons, Prod.mk.injEq, List.not_mem_nil, or_false] at hr
  rcases hr with ⟨rfl, rfl⟩ | ⟨rfl, rfl⟩ | ⟨rfl, rfl⟩ | ⟨rfl, rfl⟩ | ⟨rfl, rfl⟩ | ⟨rfl, rfl⟩
  · exact hk _
  · exact hk _
  · exact hk _
  · exact hk _
  · exact hk _
  · exact hk _

/-- **C55.** The admin token is configured whenever either token is given on the command line, and then so is the other. -/
theorem C55_tokens (a b : Option Str) : ((tokens a b).2 = none ↔ a = none ∧ b = none) ∧ ((tokens a b).1 = none ↔ a = none ∧ b = none) ∧
    (∀ t, b = some t → (tokens a b).2 = some t) ∧ (∀ t, a = some t → (tokens a b).1 = some t) := by
  cases a <;> cases b <;> simp [tokens]

/-- A case of `C55_management_guarded`: with an admin token, a request to clear the cache without a token. -/
example (X : Ext) (H : HttpExt) (s : Site) :
    passes X c!"DELETE /cache HTTP/1.1\r\n\r\n" (some c!"secret") ≠ .ok true ∧
    handle X H ⟨none, some c!"secret", c!"hooks", []⟩ c!"DELETE /cache HTTP/1.1\r\n\r\n" s = (some { status := 401 }, s) ∧
    handle X H ⟨none, some c!"secret", c!"hooks", []⟩ c!"DELETE /cache HTTP/1.1\r\nAuthorization: secret\r\n\r\n" s =
      (some { status := 200 }, { s with cache := s.cache.clear }) := by
  refine ⟨?_, by kernel_rfl, by kernel_rfl⟩
  have : passes X c!"DELETE /cache HTTP/1.1\r\n\r\n" (some c!"secret") = .ok false := by kernel_rfl
  rw [this]
  simp
