import Verif.Props.Wire
/-! C128: which lines the TCP server takes for requests, and which the client takes for responses. -/

namespace Wire

open JsonText JsonText.Spec

namespace Spec

/-- What is given under a name. -/
def named (k : Str) (ms : List (Str × Json)) : List Json := (ms.filter fun m => m.1 = k).map (·.2)

/-- A member that may be left out or null, and must not be given twice. -/
inductive Maybe {α : Type} (P : Json → α → Prop) : List Json → Option α → Prop where
  | absent : Maybe P [] none
  | null : Maybe P [.null] none
  | given {j : Json} {a : α} : j ≠ .null → P j a → Maybe P [j] (some a)

def IsText (j : Json) (s : Str) : Prop := j = .str s
def IsBool (j : Json) (b : Bool) : Prop := j = .bool b
/-- An object, and its members without those that are given again later, as the map lists them. -/
def IsMap (order : Order) (j : Json) (vs : List (Str × Json)) : Prop := ∃ ms ms', j = .obj ms ∧ Keeps (.obj ms) (.obj ms') ∧ vs = order ms'
/-- Any number. -/
def IsDouble (j : Json) (x : F64) : Prop := j = .num (.float x) ∨ ∃ i, j = .num (.int i) ∧ x = F64.ofInt i
/-- A natural number of 64 bits. -/
def IsCount (j : Json) (n : Nat) : Prop := j = .num (.int n) ∧ n < 2 ^ 64

/-- The document stands for the request. -/
def IsRequest (order : Order) (j : Json) (q : Tcp.Request) : Prop :=
  (∃ ms, j = .obj ms ∧ named c!"expression" ms = [.str q.expression] ∧ Maybe (IsMap order) (named c!"variables" ms) q.variables ∧
    Maybe IsBool (named c!"output_json" ms) q.outputJson ∧ Maybe IsText (named c!"token" ms) q.token) ∨
  ∃ v o t, j = .arr [.str q.expression, v, o, t] ∧ Maybe (IsMap order) [v] q.variables ∧ Maybe IsBool [o] q.outputJson ∧ Maybe IsText [t] q.token

/-- The document stands for the response. -/
def IsReply (j : Json) (r : Reply) : Prop :=
  (∃ ms i t, j = .obj ms ∧ named c!"success" ms = [.bool r.success] ∧ Maybe Keeps (named c!"result" ms) r.result ∧ Maybe IsText (named c!"error" ms) r.error ∧
    named c!"execution_time_ms" ms = [t] ∧ IsDouble t r.time ∧ named c!"request_id" ms = [i] ∧ IsCount i r.id) ∨
  ∃ d e t i, j = .arr [.bool r.success, d, e, t, i] ∧ Maybe Keeps [d] r.result ∧ Maybe IsText [e] r.error ∧ IsDouble t r.time ∧ IsCount i r.id

end Spec

open Wire.Spec

/-- Reading what is given under a name, one after the other. -/
def slot {α : Type} (read : Json → Option α) : Option α → List Json → Option (Option α)
  | cur, [] => some cur
  | cur, j :: js => if cur.isSome then none else (read j).bind fun v => slot read (some v) js

theorem named_cons (k : Str) (m : Str × Json) (ms : List (Str × Json)) : named k (m :: ms) = if m.1 = k then m.2 :: named k ms else named k ms := by
  unfold named
  by_cases h : m.1 = k
  · rw [if_pos h, List.filter_cons_of_pos (by simpa using h)]; rfl
  · rw [if_neg h, List.filter_cons_of_neg (by simpa using h)]

theorem requestMembers_iff (order : Order) : ∀ (ms : List (Str × Json)) (f f' : Fields), requestMembers order ms f = some f' ↔
    slot textOf f.expression (named c!"expression" ms) = some f'.expression ∧ slot (Http.nullable (mapOf order)) f.variables (named c!"variables" ms) = some f'.variables ∧
    slot (Http.nullable Http.boolOf) f.outputJson (named c!"output_json" ms) = some f'.outputJson ∧ slot (Http.nullable textOf) f.token (named c!"token" ms) = some f'.token
  | [], f, f' => by
    obtain ⟨a, b, c, d⟩ := f
    obtain ⟨a', b', c', d'⟩ := f'
    simp [requestMembers, named, slot]
  | (k, j) :: ms, f, f' => by
    unfold requestMembers
    simp only [named_cons]
    by_cases h1 : k = c!"expression"
    · subst h1
      rw [if_pos rfl, if_pos rfl, if_neg (show ¬ c!"expression" = c!"variables" by decide), if_neg (show ¬ c!"expression" = c!"output_json" by decide), if_neg (show ¬ c!"expression" = c!"token" by decide), slot]
      by_cases hs : f.expression.isSome = true
      · simp [hs]
      · rw [if_neg hs, if_neg hs]
        cases textOf j with
        | none => simp
        | some v => exact requestMembers_iff order ms _ f'
    rw [if_neg h1, if_neg h1]
    by_cases h2 : k = c!"variables"
    · subst h2
      rw [if_pos rfl, if_pos rfl, if_neg (show ¬ c!"variables" = c!"output_json" by decide), if_neg (show ¬ c!"variables" = c!"token" by decide), slot]
      by_cases hs : f.variables.isSome = true
      · simp [hs]
      · rw [if_neg hs, if_neg hs]
        cases Http.nullable (mapOf order) j with
        | none => simp
        | some v => exact requestMembers_iff order ms _ f'
    rw [if_neg h2, if_neg h2]
    by_cases h3 : k = c!"output_json"
    · subst h3
      rw [if_pos rfl, if_pos rfl, if_neg (show ¬ c!"output_json" = c!"token" by decide), slot]
      by_cases hs : f.outputJson.isSome = true
      · simp [hs]
      · rw [if_neg hs, if_neg hs]
        cases Http.nullable Http.boolOf j with
        | none => simp
        | some v => exact requestMembers_iff order ms _ f'
    rw [if_neg h3, if_neg h3]
    by_cases h4 : k = c!"token"
    · subst h4
      rw [if_pos rfl, if_pos rfl, slot]
      by_cases hs : f.token.isSome = true
      · simp [hs]
      · rw [if_neg hs, if_neg hs]
        cases Http.nullable textOf j with
        | none => simp
        | some v => exact requestMembers_iff order ms _ f'
    rw [if_neg h4, if_neg h4]
    exact requestMembers_iff order ms f f'

theorem replyMembers_iff : ∀ (ms : List (Str × Json)) (f f' : ReplyFields), replyMembers ms f = some f' ↔
    slot Http.boolOf f.success (named c!"success" ms) = some f'.success ∧ slot (Http.nullable fun j => some (norm j)) f.result (named c!"result" ms) = some f'.result ∧
    slot (Http.nullable textOf) f.error (named c!"error" ms) = some f'.error ∧ slot doubleOf f.time (named c!"execution_time_ms" ms) = some f'.time ∧
    slot countOf f.id (named c!"request_id" ms) = some f'.id
  | [], f, f' => by
    obtain ⟨a, b, c, d, e⟩ := f
    obtain ⟨a', b', c', d', e'⟩ := f'
    simp [replyMembers, named, slot]
  | (k, j) :: ms, f, f' => by
    unfold replyMembers
    simp only [named_cons]
    by_cases h1 : k = c!"success"
    · subst h1
      rw [if_pos rfl, if_pos rfl, if_neg (show ¬ c!"success" = c!"result" by decide), if_neg (show ¬ c!"success" = c!"error" by decide), if_neg (show ¬ c!"success" = c!"execution_time_ms" by decide), if_neg (show ¬ c!"success" = c!"request_id" by decide), slot]
      by_cases hs : f.success.isSome = true
      · simp [hs]
      · rw [if_neg hs, if_neg hs]
        cases Http.boolOf j with
        | none => simp
        | some v => exact replyMembers_iff ms _ f'
    rw [if_neg h1, if_neg h1]
    by_cases h2 : k = c!"result"
    · subst h2
      rw [if_pos rfl, if_pos rfl, if_neg (show ¬ c!"result" = c!"error" by decide), if_neg (show ¬ c!"result" = c!"execution_time_ms" by decide), if_neg (show ¬ c!"result" = c!"request_id" by decide), slot]
      by_cases hs : f.result.isSome = true
      · simp [hs]
      · rw [if_neg hs, if_neg hs]
        cases Http.nullable (fun j => some (norm j)) j with
        | none => simp
        | some v => exact replyMembers_iff ms _ f'
    rw [if_neg h2, if_neg h2]
    by_cases h3 : k = c!"error"
    · subst h3
      rw [if_pos rfl, if_pos rfl, if_neg (show ¬ c!"error" = c!"execution_time_ms" by decide), if_neg (show ¬ c!"error" = c!"request_id" by decide), slot]
      by_cases hs : f.error.isSome = true
      · simp [hs]
      · rw [if_neg hs, if_neg hs]
        cases Http.nullable textOf j with
        | none => simp
        | some v => exact replyMembers_iff ms _ f'
    rw [if_neg h3, if_neg h3]
    by_cases h4 : k = c!"execution_time_ms"
    · subst h4
      rw [if_pos rfl, if_pos rfl, if_neg (show ¬ c!"execution_time_ms" = c!"request_id" by decide), slot]
      by_cases hs : f.time.isSome = true
      · simp [hs]
      · rw [if_neg hs, if_neg hs]
        cases doubleOf j with
        | none => simp
        | some v => exact replyMembers_iff ms _ f'
    rw [if_neg h4, if_neg h4]
    by_cases h5 : k = c!"request_id"
    · subst h5
      rw [if_pos rfl, if_pos rfl, slot]
      by_cases hs : f.id.isSome = true
      · simp [hs]
      · rw [if_neg hs, if_neg hs]
        cases countOf j with
        | none => simp
        | some v => exact replyMembers_iff ms _ f'
    rw [if_neg h5, if_neg h5]
    exact replyMembers_iff ms f f'

theorem slot_some {α : Type} (read : Json → Option α) (v : α) (js : List Json) (r : Option α) : slot read (some v) js = some r ↔ js = [] ∧ r = some v := by
  cases js with
  | nil => simp [slot, eq_comm]
  | cons j js => simp [slot]

theorem slot_none {α : Type} (read : Json → Option α) (js : List Json) (r : Option α) : slot read none js = some r ↔
    (js = [] ∧ r = none) ∨ ∃ j v, js = [j] ∧ read j = some v ∧ r = some v := by
  cases js with
  | nil => simp [slot, eq_comm]
  | cons j js =>
    rw [slot, if_neg (by simp)]
    cases h : read j with
    | none =>
      simp only [Option.bind_none, reduceCtorEq, List.cons_ne_nil, false_and, List.cons.injEq, false_or, false_iff]
      rintro ⟨j', v, ⟨rfl, -⟩, h', -⟩
      rw [h] at h'; cases h'
    | some v =>
      rw [Option.bind_some, slot_some]
      constructor
      · rintro ⟨rfl, rfl⟩; exact .inr ⟨j, v, rfl, h, rfl⟩
      · rintro (⟨h', -⟩ | ⟨j', v', e, h', rfl⟩)
        · cases h'
        · cases e
          rw [h] at h'
          exact ⟨rfl, h'.symm ▸ rfl⟩

theorem nullable_iff {α : Type} {read : Json → Option α} {P : Json → α → Prop} (hP : ∀ j a, j ≠ .null → (read j = some a ↔ P j a)) (j : Json) (a : Option α) :
    Http.nullable read j = some a ↔ Maybe P [j] a := by
  by_cases hj : j = .null
  · subst hj
    simp only [Http.nullable, Option.some.injEq]
    constructor
    · rintro rfl; exact .null
    · intro h
      cases h with
      | null => rfl
      | given h _ => exact absurd rfl h
  · have e : Http.nullable read j = (read j).map some := by
      cases j <;> first | exact absurd rfl hj | rfl
    rw [e, Option.map_eq_some_iff]
    constructor
    · rintro ⟨v, h, rfl⟩; exact .given hj ((hP j v hj).1 h)
    · intro h
      cases h with
      | null => exact absurd rfl hj
      | given _ h => exact ⟨_, (hP j _ hj).2 h, rfl⟩

theorem slot_maybe {α : Type} {read : Json → Option α} {P : Json → α → Prop} (hP : ∀ j a, j ≠ .null → (read j = some a ↔ P j a)) (js : List Json) (a : Option α) :
    (∃ r, slot (Http.nullable read) none js = some r ∧ r.getD none = a) ↔ Maybe P js a := by
  constructor
  · rintro ⟨r, h, rfl⟩
    rcases (slot_none _ _ _).1 h with ⟨rfl, rfl⟩ | ⟨j, v, rfl, hv, rfl⟩
    · exact .absent
    · exact (nullable_iff hP j v).1 hv
  · intro h
    rcases js with _ | ⟨j, _ | ⟨j', js⟩⟩
    · cases h; exact ⟨none, rfl, rfl⟩
    · exact ⟨some a, (slot_none _ _ _).2 (.inr ⟨j, a, rfl, (nullable_iff hP j a).2 h, rfl⟩), rfl⟩
    · cases h

theorem slot_must {α : Type} (read : Json → Option α) (js : List Json) (a : α) :
    slot read none js = some (some a) ↔ ∃ j, js = [j] ∧ read j = some a := by
  rw [slot_none]
  constructor
  · rintro (⟨-, h⟩ | ⟨j, v, rfl, h, e⟩)
    · cases h
    · cases e; exact ⟨j, rfl, h⟩
  · rintro ⟨j, rfl, h⟩; exact .inr ⟨j, a, rfl, h, rfl⟩

theorem textOf_iff (j : Json) (s : Str) : textOf j = some s ↔ j = .str s := by
  cases j <;> simp [textOf]

theorem boolOf_iff (j : Json) (b : Bool) : Http.boolOf j = some b ↔ j = .bool b := by
  cases j <;> simp [Http.boolOf]

theorem mapOf_iff (order : Order) (j : Json) (vs : List (Str × Json)) : mapOf order j = some vs ↔ IsMap order j vs := by
  unfold IsMap
  cases j with
  | obj ms =>
    simp only [mapOf, Option.some.injEq, Json.obj.injEq]
    constructor
    · rintro rfl
      exact ⟨ms, normMembers [] ms, rfl, norm_iff.1 (by rw [norm]), rfl⟩
    · rintro ⟨ms', ms'', rfl, h, rfl⟩
      have := norm_iff.2 h
      rw [norm] at this
      cases this
      rfl
  | _ => simp [mapOf]

theorem doubleOf_iff (j : Json) (x : F64) : doubleOf j = some x ↔ IsDouble j x := by
  unfold IsDouble
  cases j with
  | num n => cases n <;> simp [doubleOf, eq_comm]
  | _ => simp [doubleOf]

theorem countOf_iff (j : Json) (n : Nat) : countOf j = some n ↔ IsCount j n := by
  unfold IsCount
  cases j with
  | num m =>
    cases m with
    | int i =>
      simp only [countOf, Json.num.injEq, JNum.int.injEq]
      by_cases h : (0 ≤ i && i < 2 ^ 64) = true
      · rw [if_pos h]
        simp only [Bool.and_eq_true, decide_eq_true_eq] at h
        simp only [Option.some.injEq]
        omega
      · rw [if_neg h]
        simp only [Bool.and_eq_true, decide_eq_true_eq] at h
        simp only [reduceCtorEq, false_iff]
        omega
    | float x => simp [countOf]
  | _ => simp [countOf]

theorem requestOf_iff (order : Order) (j : Json) (q : Tcp.Request) : requestOf order j = some q ↔ IsRequest order j q := by
  have hm : ∀ j a, j ≠ .null → (mapOf order j = some a ↔ IsMap order j a) := fun j a _ => mapOf_iff order j a
  have hb : ∀ j a, j ≠ .null → (Http.boolOf j = some a ↔ IsBool j a) := fun j a _ => boolOf_iff j a
  have ht : ∀ j a, j ≠ .null → (textOf j = some a ↔ IsText j a) := fun j a _ => textOf_iff j a
  unfold IsRequest
  constructor
  · intro h
    unfold requestOf at h
    split at h
    · rename_i ms
      left
      simp only [Option.bind_eq_some_iff, Option.map_eq_some_iff] at h
      obtain ⟨f, hf, e, he, rfl⟩ := h
      obtain ⟨h1, h2, h3, h4⟩ := (requestMembers_iff order ms {} f).1 hf
      rw [he, slot_must] at h1
      obtain ⟨j, h1, h1'⟩ := h1
      rw [(textOf_iff j e).1 h1'] at h1
      exact ⟨ms, rfl, h1, (slot_maybe hm _ _).1 ⟨_, h2, rfl⟩, (slot_maybe hb _ _).1 ⟨_, h3, rfl⟩, (slot_maybe ht _ _).1 ⟨_, h4, rfl⟩⟩
    · rename_i e v o t
      right
      simp only [Option.bind_eq_some_iff, Option.map_eq_some_iff] at h
      obtain ⟨e', he, v', hv, o', ho, t', ht', rfl⟩ := h
      rw [(textOf_iff _ _).1 he]
      exact ⟨v, o, t, rfl, (nullable_iff hm _ _).1 hv, (nullable_iff hb _ _).1 ho, (nullable_iff ht _ _).1 ht'⟩
    · cases h
  · obtain ⟨e, v, o, t⟩ := q
    rintro (⟨ms, rfl, h1, h2, h3, h4⟩ | ⟨v', o', t', rfl, h2, h3, h4⟩)
    · obtain ⟨v', k2, rfl⟩ := (slot_maybe hm _ _).2 h2
      obtain ⟨o', k3, rfl⟩ := (slot_maybe hb _ _).2 h3
      obtain ⟨t', k4, rfl⟩ := (slot_maybe ht _ _).2 h4
      have hf := (requestMembers_iff order ms {} ⟨some e, v', o', t'⟩).2 ⟨(slot_must _ _ _).2 ⟨_, h1, rfl⟩, k2, k3, k4⟩
      simp only [requestOf, hf, Option.bind_some, Option.map_some]
    · simp only [requestOf, textOf, Option.bind_some, (nullable_iff hm _ _).2 h2, (nullable_iff hb _ _).2 h3, (nullable_iff ht _ _).2 h4, Option.map_some]

theorem replyOf_iff (j : Json) (r : Reply) : replyOf j = some r ↔ IsReply j r := by
  have hk : ∀ j a, j ≠ .null → ((fun j => some (norm j)) j = some a ↔ Keeps j a) := fun j a _ => by
    rw [← norm_iff]; exact Option.some_inj
  have ht : ∀ j a, j ≠ .null → (textOf j = some a ↔ IsText j a) := fun j a _ => textOf_iff j a
  unfold IsReply
  constructor
  · intro h
    unfold replyOf at h
    split at h
    · rename_i ms
      left
      simp only [Option.bind_eq_some_iff, Option.map_eq_some_iff] at h
      obtain ⟨f, hf, s, hs, t, htm, i, hi, rfl⟩ := h
      obtain ⟨h1, h2, h3, h4, h5⟩ := (replyMembers_iff ms {} f).1 hf
      rw [hs, slot_must] at h1
      rw [htm, slot_must] at h4
      rw [hi, slot_must] at h5
      obtain ⟨j1, h1, h1'⟩ := h1
      obtain ⟨j4, h4, h4'⟩ := h4
      obtain ⟨j5, h5, h5'⟩ := h5
      rw [(boolOf_iff _ _).1 h1'] at h1
      exact ⟨ms, j5, j4, rfl, h1, (slot_maybe hk _ _).1 ⟨_, h2, rfl⟩, (slot_maybe ht _ _).1 ⟨_, h3, rfl⟩, h4, (doubleOf_iff _ _).1 h4', h5, (countOf_iff _ _).1 h5'⟩
    · rename_i s d e t i
      right
      simp only [Option.bind_eq_some_iff, Option.map_eq_some_iff] at h
      obtain ⟨s', hs, d', hd, e', he, t', htm, i', hi, rfl⟩ := h
      rw [(boolOf_iff _ _).1 hs]
      exact ⟨d, e, t, i, rfl, (nullable_iff hk _ _).1 hd, (nullable_iff ht _ _).1 he, (doubleOf_iff _ _).1 htm, (countOf_iff _ _).1 hi⟩
    · cases h
  · obtain ⟨s, d, e, t, i⟩ := r
    rintro (⟨ms, ji, jt, rfl, h1, h2, h3, h4, h4', h5, h5'⟩ | ⟨jd, je, jt, ji, rfl, h2, h3, h4, h5⟩)
    · obtain ⟨d', k2, rfl⟩ := (slot_maybe hk _ _).2 h2
      obtain ⟨e', k3, rfl⟩ := (slot_maybe ht _ _).2 h3
      have hf := (replyMembers_iff ms {} ⟨some s, d', e', some t, some i⟩).2
        ⟨(slot_must _ _ _).2 ⟨_, h1, rfl⟩, k2, k3, (slot_must _ _ _).2 ⟨_, h4, (doubleOf_iff _ _).2 h4'⟩, (slot_must _ _ _).2 ⟨_, h5, (countOf_iff _ _).2 h5'⟩⟩
      simp only [replyOf, hf, Option.bind_some, Option.map_some]
    · simp only [replyOf, Http.boolOf, Option.bind_some, (nullable_iff hk _ _).2 h2, (nullable_iff ht _ _).2 h3, (doubleOf_iff _ _).2 h4, (countOf_iff _ _).2 h5, Option.map_some]

/-- **C128.** The lines that the server takes for requests, whoever writes them: the JSON texts of an object with the expression once, the other three members at most once, and any others; or of an array
of the four. To every other line it answers that the request is invalid. -/
theorem C128_accepted (N : Floats) (order : Order) (why : Str → Str) (reg : Registry) (token : Option Str) (line : Str) :
    (∀ q, (setup N order why reg token).decode line = .ok q ↔ ∃ j, Text N 127 j line ∧ IsRequest order j q) ∧
    ((¬ ∃ q j, Text N 127 j line ∧ IsRequest order j q) → ∀ X id,
      Tcp.answer X (setup N order why reg token) line id = .ok ⟨false, none, some (.invalid (why line)), id⟩) := by
  have key : ∀ q, ((tree N line).bind (requestOf order) = some q) ↔ ∃ j, Text N 127 j line ∧ IsRequest order j q := by
    intro q
    rw [Option.bind_eq_some_iff]
    exact exists_congr fun j => and_congr (tree_iff N line j) (requestOf_iff order j q)
  constructor
  · intro q
    rw [← key]
    unfold setup
    simp only
    cases (tree N line).bind (requestOf order) <;> simp
  · intro h X id
    have : (tree N line).bind (requestOf order) = none := by
      cases hq : (tree N line).bind (requestOf order) with
      | none => rfl
      | some q => exact absurd ⟨q, (key q).1 hq⟩ h
    unfold Tcp.answer setup
    simp only [this]

/-- **C128.** The lines that the client takes for responses; with any other it ends as without an answer. -/
theorem C128_understood (N : Floats) (line : Str) :
    (∀ r, readReply N line = some r ↔ ∃ j, Text N 127 j line ∧ IsReply j r) ∧ ((¬ ∃ r j, Text N 127 j line ∧ IsReply j r) → shown (readReply N line) = .noAnswer) := by
  have key : ∀ r, readReply N line = some r ↔ ∃ j, Text N 127 j line ∧ IsReply j r := by
    intro r
    unfold readReply
    rw [Option.bind_eq_some_iff]
    exact exists_congr fun j => and_congr (tree_iff N line j) (replyOf_iff j r)
  refine ⟨key, fun h => ?_⟩
  cases hr : readReply N line with
  | none => rfl
  | some r => exact absurd ⟨r, (key r).1 hr⟩ h

/-! Cases -/

private def S : Tcp.Setup := setup halves id (fun _ => c!"bad") Registry.empty none

example : S.decode c!" { \"token\" : null, \"x\" : [1], \"expression\":\"1\\u002b1\", \"variables\":{\"b\":1,\"a\":2,\"b\":3} } " =
    .ok ⟨c!"1+1", some [(c!"a", .num (.int 2)), (c!"b", .num (.int 3))], none, none⟩ := by kernel_rfl
example : S.decode c!"[\"1\",null,true,\"t\"]" = .ok ⟨c!"1", none, some true, some c!"t"⟩ := by kernel_rfl
example : S.decode c!"{\"expression\":\"1\",\"expression\":\"1\"}" = .error c!"bad" := by kernel_rfl
example : S.decode c!"{\"expression\":\"1\",\"variables\":[]}" = .error c!"bad" := by kernel_rfl
example : S.decode c!"{\"variables\":{}}" = .error c!"bad" := by kernel_rfl
example : S.decode c!"[\"1\",null,true]" = .error c!"bad" := by kernel_rfl
example : IsRequest id (.obj [(c!"x", .null), (c!"expression", .str c!"1"), (c!"token", .null)]) ⟨c!"1", none, none, none⟩ :=
  .inl ⟨_, rfl, rfl, .absent, .absent, .null⟩

end Wire
