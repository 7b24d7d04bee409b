import Verif.Model.HttpBody
import Verif.Props.HttpQuery
/-! C104: the body of a POST evaluation. -/

open Http HttpQuery HttpQuery.Spec

namespace HttpBody

/-- How bodies are read: `tree` is the JSON library, `map` the hash map (see `Model/HttpBody.lean`). -/
structure Spec.Reads (H : HttpExt) (tree : Str → Option Json) (map : List (Str × Json) → List (Str × Json)) : Prop where
  good : ∀ body j q, tree body = some j → bodyTree map j = some q → H.decodeEval body = .ok q
  bad : ∀ body j, tree body = some j → bodyTree map j = none → ∃ e, H.decodeEval body = .error e
  noJson : ∀ body, tree body = none → ∃ e, H.decodeEval body = .error e

/-- `e` is the expression `j` stands for: a text, or a list of texts, to be read one after the other. -/
inductive Spec.IsText : Json → Str → Prop where
  | whole (e : Str) : IsText (.str e) e
  | parts (ps : List Str) : IsText (.arr (ps.map .str)) ps.flatten

/-- `inc` is the choice of variables to report that `j` stands for. -/
inductive Spec.Picks : Json → Include → Prop where
  | all : Picks (.bool true) .all
  | no : Picks (.bool false) .none
  | blank (v : Str) : (∀ c ∈ v, c = ',' ∨ Str.isWs c = true) → Picks (.str v) .none
  | listed (v : Str) (items : List (Str × Bool × Str × Str)) : items ≠ [] →
      (∀ i ∈ items, (∀ c ∈ i.1, Str.isWs c = true) ∧ (∀ c ∈ i.2.2.2, Str.isWs c = true) ∧ i.2.2.1 ≠ [] ∧ ∀ c ∈ i.2.2.1, c ≠ ',' ∧ c ≠ ':' ∧ Str.isWs c = false) →
      v = c!",".intercalate (items.map fun i => i.1 ++ (if i.2.1 then c!":" else []) ++ i.2.2.1 ++ i.2.2.2) →
      Picks (.str v) (.selected (items.map fun i => i.2.2.1))

/-- A member that is not there, or null. -/
def Spec.Absent (k : Str) (ms : List (Str × Json)) : Prop := objGet k ms = none ∨ objGet k ms = some .null

/-- `q` is the evaluation that the members `ms` ask for. -/
structure Spec.Describes (map : List (Str × Json) → List (Str × Json)) (ms : List (Str × Json)) (q : EvalRequest) : Prop where
  expression : ∃ j, objGet c!"expression" ms = some j ∧ IsText j q.expression
  arguments : (Absent c!"arguments" ms ∧ q.arguments = none) ∨ ∃ as, objGet c!"arguments" ms = some (.obj as) ∧ q.arguments = some (map as)
  outputJson : (Absent c!"output_json" ms ∧ q.outputJson = none) ∨ ∃ b, objGet c!"output_json" ms = some (.bool b) ∧ q.outputJson = some b
  includeVariables : (Absent c!"include_variables" ms ∧ q.includeVariables = none) ∨
    ∃ j inc, objGet c!"include_variables" ms = some j ∧ Picks j inc ∧ q.includeVariables = some inc

/-- The names with a meaning. -/
def Spec.known : List Str := [c!"expression", c!"arguments", c!"output_json", c!"include_variables"]

/-- No name with a meaning is given twice. -/
def Spec.Once (ms : List (Str × Json)) : Prop := ∀ k ∈ known, (ms.filter fun m => m.1 = k).length ≤ 1

/-- What is wrong with the members of a body. -/
inductive Spec.Wrong (ms : List (Str × Json)) : Prop where
  | missing : objGet c!"expression" ms = none → Wrong ms
  | expression (j : Json) : objGet c!"expression" ms = some j → (∀ e, ¬ IsText j e) → Wrong ms
  | arguments (j : Json) : objGet c!"arguments" ms = some j → j ≠ .null → (∀ as, j ≠ .obj as) → Wrong ms
  | outputJson (j : Json) : objGet c!"output_json" ms = some j → j ≠ .null → (∀ b, j ≠ .bool b) → Wrong ms
  | includeVariables (j : Json) : objGet c!"include_variables" ms = some j → j ≠ .null → (∀ b, j ≠ .bool b) → (∀ v, j ≠ .str v) → Wrong ms
  | twice : ¬ Once ms → Wrong ms

open HttpBody.Spec

/-- A member that need not be there. -/
def member {α : Type} (f : Json → Option α) : Option Json → Option (Option α)
  | none => some none
  | some j => (f j).map some

theorem objGet_none {k : Str} {ms : List (Str × Json)} (h : (ms.filter fun m => m.1 = k).length = 0) : objGet k ms = none := by
  induction ms with
  | nil => rfl
  | cons m ms ih =>
    obtain ⟨k', j⟩ := m
    by_cases hk : k' = k
    · simp [hk] at h
    · have : k ≠ k' := fun h => hk h.symm
      rw [List.filter_cons_of_neg (by simpa using hk)] at h
      rw [objGet, if_neg this, ih h]

/-- How many times a member is given, one met before included. -/
def times {α : Type} (k : Str) (ms : List (Str × Json)) (seen : Option α) : Nat := (ms.filter fun m => m.1 = k).length + seen.toList.length

theorem times_other {α : Type} {k k' : Str} (j : Json) (ms : List (Str × Json)) (seen : Option α) (h : k' ≠ k) : times k ((k', j) :: ms) seen = times k ms seen := by
  simp [times, h]

theorem times_here {α : Type} (k : Str) (j : Json) (ms : List (Str × Json)) (seen : Option α) : times k ((k, j) :: ms) seen = times k ms seen + 1 := by
  simp [times]; omega

theorem times_some {α : Type} {k : Str} {j : Json} {ms : List (Str × Json)} {seen : Option α} (v : α) (h : times k ((k, j) :: ms) seen ≤ 1) : times k ms (some v) ≤ 1 := by
  rw [times_here] at h
  unfold times at *
  simp only [Option.toList_some, List.length_cons, List.length_nil]
  omega

theorem bodyMembers_eq (map : List (Str × Json) → List (Str × Json)) : ∀ (ms : List (Str × Json)) (f : Fields),
    times c!"expression" ms f.expression ≤ 1 → times c!"arguments" ms f.arguments ≤ 1 → times c!"output_json" ms f.outputJson ≤ 1 →
    times c!"include_variables" ms f.includeVariables ≤ 1 →
    bodyMembers map ms f =
      (member expressionOf (objGet c!"expression" ms)).bind fun e => (member (nullable (argumentsOf map)) (objGet c!"arguments" ms)).bind fun a =>
      (member (nullable boolOf) (objGet c!"output_json" ms)).bind fun o => (member (nullable includeJson) (objGet c!"include_variables" ms)).bind fun i =>
      some ⟨e.or f.expression, a.or f.arguments, o.or f.outputJson, i.or f.includeVariables⟩
  | [], f, _, _, _, _ => by cases f; rfl
  | (k, j) :: rest, f, h1, h2, h3, h4 => by
    have ih := bodyMembers_eq map rest
    rw [bodyMembers]
    have none_of : ∀ {α : Type} {k : Str} {seen : Option α}, times k ((k, j) :: rest) seen ≤ 1 → seen = none ∧ objGet k rest = none := by
      intro α k seen h
      rw [times_here] at h
      unfold times at h
      constructor
      · cases seen with
        | none => rfl
        | some a => simp at h
      · exact objGet_none (by omega)
    by_cases k1 : k = c!"expression"
    · subst k1
      obtain ⟨s, g⟩ := none_of h1
      rw [times_other _ _ _ (by decide)] at h2 h3 h4
      rw [if_pos rfl, s, if_neg (by simp)]
      simp only [objGet, if_pos, if_neg (show c!"arguments" ≠ c!"expression" by decide), if_neg (show c!"output_json" ≠ c!"expression" by decide),
        if_neg (show c!"include_variables" ≠ c!"expression" by decide)]
      cases hj : expressionOf j with
      | none => simp [member, hj]
      | some v =>
        rw [Option.bind_some, ih { f with expression := some v } (times_some v h1) h2 h3 h4, g]
        simp [member, hj]
    by_cases k2 : k = c!"arguments"
    · subst k2
      obtain ⟨s, g⟩ := none_of h2
      rw [times_other _ _ _ (by decide)] at h1 h3 h4
      rw [if_neg k1, if_pos rfl, s, if_neg (by simp)]
      simp only [objGet, if_pos, if_neg (show c!"expression" ≠ c!"arguments" by decide), if_neg (show c!"output_json" ≠ c!"arguments" by decide),
        if_neg (show c!"include_variables" ≠ c!"arguments" by decide)]
      cases hj : nullable (argumentsOf map) j with
      | none => simp [member, hj]
      | some v =>
        rw [Option.bind_some, ih { f with arguments := some v } h1 (times_some v h2) h3 h4, g]
        simp [member, hj]
    by_cases k3 : k = c!"output_json"
    · subst k3
      obtain ⟨s, g⟩ := none_of h3
      rw [times_other _ _ _ (by decide)] at h1 h2 h4
      rw [if_neg k1, if_neg k2, if_pos rfl, s, if_neg (by simp)]
      simp only [objGet, if_pos, if_neg (show c!"expression" ≠ c!"output_json" by decide), if_neg (show c!"arguments" ≠ c!"output_json" by decide),
        if_neg (show c!"include_variables" ≠ c!"output_json" by decide)]
      cases hj : nullable boolOf j with
      | none => simp [member, hj]
      | some v =>
        rw [Option.bind_some, ih { f with outputJson := some v } h1 h2 (times_some v h3) h4, g]
        simp [member, hj]
    by_cases k4 : k = c!"include_variables"
    · subst k4
      obtain ⟨s, g⟩ := none_of h4
      rw [times_other _ _ _ (by decide)] at h1 h2 h3
      rw [if_neg k1, if_neg k2, if_neg k3, if_pos rfl, s, if_neg (by simp)]
      simp only [objGet, if_pos, if_neg (show c!"expression" ≠ c!"include_variables" by decide), if_neg (show c!"arguments" ≠ c!"include_variables" by decide),
        if_neg (show c!"output_json" ≠ c!"include_variables" by decide)]
      cases hj : nullable includeJson j with
      | none => simp [member, hj]
      | some v =>
        rw [Option.bind_some, ih { f with includeVariables := some v } h1 h2 h3 (times_some v h4), g]
        simp [member, hj]
    rw [times_other _ _ _ k1] at h1
    rw [times_other _ _ _ k2] at h2
    rw [times_other _ _ _ k3] at h3
    rw [times_other _ _ _ k4] at h4
    rw [if_neg k1, if_neg k2, if_neg k3, if_neg k4, ih f h1 h2 h3 h4]
    simp only [objGet, if_neg (fun h => k1 h.symm : c!"expression" ≠ k), if_neg (fun h => k2 h.symm : c!"arguments" ≠ k), if_neg (fun h => k3 h.symm : c!"output_json" ≠ k),
      if_neg (fun h => k4 h.symm : c!"include_variables" ≠ k)]

theorem bodyMembers_once (map : List (Str × Json) → List (Str × Json)) : ∀ (ms : List (Str × Json)) (f g : Fields), bodyMembers map ms f = some g →
    times c!"expression" ms f.expression ≤ 1 ∧ times c!"arguments" ms f.arguments ≤ 1 ∧ times c!"output_json" ms f.outputJson ≤ 1 ∧
    times c!"include_variables" ms f.includeVariables ≤ 1
  | [], f, g, _ => by
    unfold times
    have : ∀ {α : Type} (o : Option α), o.toList.length ≤ 1 := by intro α o; cases o <;> simp
    simp [this]
  | (k, j) :: rest, f, g, h => by
    have ih := bodyMembers_once map rest
    have step : ∀ {α : Type} {k : Str} {seen : Option α} {v : α}, ¬ seen.isSome = true → times k rest (some v) ≤ 1 → times k ((k, j) :: rest) seen ≤ 1 := by
      intro α k seen v hs h
      rw [times_here]
      unfold times at *
      cases seen with
      | none => simp at h ⊢; omega
      | some a => simp at hs
    rw [bodyMembers] at h
    split at h
    · rename_i hk
      subst hk
      split at h
      · simp at h
      · rename_i hs
        rw [Option.bind_eq_some_iff] at h
        obtain ⟨v, -, h⟩ := h
        obtain ⟨i1, i2, i3, i4⟩ := ih _ _ h
        rw [times_other _ _ f.arguments (by decide), times_other _ _ f.outputJson (by decide), times_other _ _ f.includeVariables (by decide)]
        exact ⟨step hs i1, i2, i3, i4⟩
    · rename_i k1
      split at h
      · rename_i hk
        subst hk
        split at h
        · simp at h
        · rename_i hs
          rw [Option.bind_eq_some_iff] at h
          obtain ⟨v, -, h⟩ := h
          obtain ⟨i1, i2, i3, i4⟩ := ih _ _ h
          rw [times_other _ _ f.expression (by decide), times_other _ _ f.outputJson (by decide), times_other _ _ f.includeVariables (by decide)]
          exact ⟨i1, step hs i2, i3, i4⟩
      · rename_i k2
        split at h
        · rename_i hk
          subst hk
          split at h
          · simp at h
          · rename_i hs
            rw [Option.bind_eq_some_iff] at h
            obtain ⟨v, -, h⟩ := h
            obtain ⟨i1, i2, i3, i4⟩ := ih _ _ h
            rw [times_other _ _ f.expression (by decide), times_other _ _ f.arguments (by decide), times_other _ _ f.includeVariables (by decide)]
            exact ⟨i1, i2, step hs i3, i4⟩
        · rename_i k3
          split at h
          · rename_i hk
            subst hk
            split at h
            · simp at h
            · rename_i hs
              rw [Option.bind_eq_some_iff] at h
              obtain ⟨v, -, h⟩ := h
              obtain ⟨i1, i2, i3, i4⟩ := ih _ _ h
              rw [times_other _ _ f.expression (by decide), times_other _ _ f.arguments (by decide), times_other _ _ f.outputJson (by decide)]
              exact ⟨i1, i2, i3, step hs i4⟩
          · rename_i k4
            rw [times_other _ _ _ k1, times_other _ _ _ k2, times_other _ _ _ k3, times_other _ _ _ k4]
            exact ih _ _ h

theorem once_times {ms : List (Str × Json)} (h : Once ms) {k : Str} (hk : k ∈ known) {α : Type} : times k ms (none : Option α) ≤ 1 := by
  simpa [times] using h k hk

/-- The request of an object without repetitions. -/
theorem bodyTree_eq (map : List (Str × Json) → List (Str × Json)) {ms : List (Str × Json)} (h : Once ms) :
    bodyTree map (.obj ms) =
      (member expressionOf (objGet c!"expression" ms)).bind fun e => (member (nullable (argumentsOf map)) (objGet c!"arguments" ms)).bind fun a =>
      (member (nullable boolOf) (objGet c!"output_json" ms)).bind fun o => (member (nullable includeJson) (objGet c!"include_variables" ms)).bind fun i =>
      e.map fun e => ⟨e, a.getD none, o.getD none, i.getD none⟩ := by
  rw [bodyTree, bodyMembers_eq map ms {} (once_times h (by decide)) (once_times h (by decide)) (once_times h (by decide)) (once_times h (by decide))]
  cases member expressionOf (objGet c!"expression" ms) <;> cases member (nullable (argumentsOf map)) (objGet c!"arguments" ms) <;>
  cases member (nullable boolOf) (objGet c!"output_json" ms) <;> cases member (nullable includeJson) (objGet c!"include_variables" ms) <;> simp

theorem textsOf_map : ∀ ps : List Str, textsOf (ps.map .str) = some ps
  | [] => rfl
  | p :: ps => by simp only [List.map_cons, textsOf, textsOf_map ps, Option.map_some]

theorem textsOf_some : ∀ {js : List Json} {ps : List Str}, textsOf js = some ps → js = ps.map .str
  | [], ps, h => by cases h; rfl
  | .str s :: js, ps, h => by
    rw [textsOf, Option.map_eq_some_iff] at h
    obtain ⟨qs, hq, rfl⟩ := h
    rw [textsOf_some hq]; rfl
  | .null :: js, ps, h | .bool _ :: js, ps, h | .num _ :: js, ps, h | .arr _ :: js, ps, h | .obj _ :: js, ps, h => by simp [textsOf] at h

theorem expressionOf_iff (j : Json) (e : Str) : expressionOf j = some e ↔ IsText j e := by
  constructor
  · intro h
    cases j with
    | str s => cases h; exact .whole e
    | arr js =>
      rw [expressionOf, Option.map_eq_some_iff] at h
      obtain ⟨ps, hp, rfl⟩ := h
      rw [textsOf_some hp]
      exact .parts ps
    | _ => simp [expressionOf] at h
  · rintro (_ | ⟨ps⟩)
    · rfl
    · rw [expressionOf, textsOf_map]; rfl

theorem picks_eq {j : Json} {inc : Include} (h : Picks j inc) : includeJson j = some inc := by
  cases h with
  | all => rfl
  | no => rfl
  | blank v h => rw [includeJson, selected_blank h]
  | listed v items hne hi hv =>
    rw [includeJson, selected_listed items hne hi hv]
    cases items with
    | nil => exact absurd rfl hne
    | cons i items => rfl

theorem picks_null {j : Json} {inc : Include} (h : Picks j inc) : j ≠ .null := by rintro rfl; cases h

theorem member_absent {α : Type} (f : Json → Option α) {k : Str} {ms : List (Str × Json)} (h : Absent k ms) :
    (member (nullable f) (objGet k ms)).map (·.getD none) = some none := by
  rcases h with h | h <;> rw [h] <;> rfl

theorem member_value {α : Type} (f : Json → Option α) {k : Str} {ms : List (Str × Json)} {j : Json} {v : α} (h : objGet k ms = some j) (hj : j ≠ .null) (hv : f j = some v) :
    member (nullable f) (objGet k ms) = some (some (some v)) := by
  rw [h, member]
  have : nullable f j = (f j).map some := by cases j <;> first | exact absurd rfl hj | rfl
  rw [this, hv]; rfl

theorem describes_eq (map : List (Str × Json) → List (Str × Json)) {ms : List (Str × Json)} {q : EvalRequest} (h1 : Once ms) (h : Describes map ms q) :
    bodyTree map (.obj ms) = some q := by
  obtain ⟨⟨j, hj, ht⟩, ha, ho, hi⟩ := h
  obtain ⟨e, a, o, i⟩ := q
  simp only at ha ho hi ht
  have ha' : ∃ x, member (nullable (argumentsOf map)) (objGet c!"arguments" ms) = some x ∧ x.getD none = a := by
    rcases ha with ⟨ha, rfl⟩ | ⟨as, hs, rfl⟩
    · simpa only [Option.map_eq_some_iff] using member_absent (argumentsOf map) ha
    · exact ⟨_, member_value (argumentsOf map) hs (by simp) rfl, rfl⟩
  have ho' : ∃ x, member (nullable boolOf) (objGet c!"output_json" ms) = some x ∧ x.getD none = o := by
    rcases ho with ⟨ho, rfl⟩ | ⟨b, hs, rfl⟩
    · simpa only [Option.map_eq_some_iff] using member_absent boolOf ho
    · exact ⟨_, member_value boolOf hs (by simp) rfl, rfl⟩
  have hi' : ∃ x, member (nullable includeJson) (objGet c!"include_variables" ms) = some x ∧ x.getD none = i := by
    rcases hi with ⟨hi, rfl⟩ | ⟨j, inc, hs, hp, rfl⟩
    · simpa only [Option.map_eq_some_iff] using member_absent includeJson hi
    · exact ⟨_, member_value includeJson hs (picks_null hp) (picks_eq hp), rfl⟩
  obtain ⟨x, hx, rfl⟩ := ha'
  obtain ⟨y, hy, rfl⟩ := ho'
  obtain ⟨z, hz, rfl⟩ := hi'
  rw [bodyTree_eq map h1, hx, hy, hz, hj, member, (expressionOf_iff j e).2 ht]
  rfl

theorem wrong_eq (map : List (Str × Json) → List (Str × Json)) {ms : List (Str × Json)} (h : Wrong ms) : bodyTree map (.obj ms) = none := by
  by_cases h1 : Once ms
  · rw [bodyTree_eq map h1]
    have bad : ∀ {α : Type} (f : Json → Option α) (k : Str) (j : Json), objGet k ms = some j → j ≠ .null → f j = none → member (nullable f) (objGet k ms) = none := by
      intro α f k j h hj hf
      rw [h, member]
      have : nullable f j = (f j).map some := by cases j <;> first | exact absurd rfl hj | rfl
      rw [this, hf]; rfl
    cases h with
    | missing h => rw [h]; simp [member]
    | expression j h hj =>
      have : expressionOf j = none := by
        cases he : expressionOf j with
        | none => rfl
        | some e => exact absurd ((expressionOf_iff j e).1 he) (hj e)
      rw [h, member, this]; rfl
    | arguments j h hn hj =>
      rw [bad (argumentsOf map) _ j h hn (by cases j <;> first | rfl | exact absurd rfl (hj _))]
      simp
    | outputJson j h hn hj =>
      rw [bad boolOf _ j h hn (by cases j <;> first | rfl | exact absurd rfl (hj _))]
      simp
    | includeVariables j h hn hb hs =>
      rw [bad includeJson _ j h hn (by cases j <;> first | rfl | exact absurd rfl (hb _) | exact absurd rfl (hs _))]
      simp
    | twice h => exact absurd h1 h
  · cases hm : bodyMembers map ms {} with
    | none => rw [bodyTree, hm]; rfl
    | some g =>
      refine absurd ?_ h1
      obtain ⟨i1, i2, i3, i4⟩ := bodyMembers_once map ms {} g hm
      intro k hk
      simp only [known, List.mem_cons, List.not_mem_nil, or_false] at hk
      rcases hk with rfl | rfl | rfl | rfl <;> simpa [times] using ‹_›

/-! ### The property -/

/-- **C104.** A body without repetitions is evaluated as its members say; other members do not count. -/
theorem C104_read (X : Ext) (H : HttpExt) (cfg : Config) (s : Site) (tree : Str → Option Json) (map : List (Str × Json) → List (Str × Json)) (hr : Reads H tree map)
    (headers : List Str) (body : Str) (hh : ∀ l ∈ headers, HeaderLine l) (hp : passes X (postRequest headers body) cfg.authToken = .ok true)
    (ms : List (Str × Json)) (ht : tree body = some (.obj ms)) (h1 : Once ms) (q : EvalRequest) (hq : Describes map ms q) :
    handle X H cfg (postRequest headers body) s = sendEval X s q := by
  rw [post_eq X H cfg s headers body hh hp, hr.good body _ q ht (describes_eq map h1 hq)]

/-- **C104.** A body that is no JSON, or lacks an expression, or has a member of the wrong kind or twice, is answered with 400, and nothing is evaluated or changed. -/
theorem C104_refused (X : Ext) (H : HttpExt) (cfg : Config) (s : Site) (tree : Str → Option Json) (map : List (Str × Json) → List (Str × Json)) (hr : Reads H tree map)
    (headers : List Str) (body : Str) (hh : ∀ l ∈ headers, HeaderLine l) (hp : passes X (postRequest headers body) cfg.authToken = .ok true)
    (hw : tree body = none ∨ ∃ ms, tree body = some (.obj ms) ∧ Wrong ms) :
    handle X H cfg (postRequest headers body) s = reply s 400 := by
  have : ∃ e, H.decodeEval body = .error e := by
    rcases hw with hw | ⟨ms, ht, hw⟩
    · exact hr.noJson body hw
    · exact hr.bad body _ ht (wrong_eq map hw)
  obtain ⟨e, he⟩ := this
  rw [post_eq X H cfg s headers body hh hp, he]

/-- **C104.** Every object is read or refused: there is nothing else. -/
theorem C104_complete (map : List (Str × Json) → List (Str × Json)) (ms : List (Str × Json)) :
    Wrong ms ∨ (Once ms ∧ ∃ e, (∃ j, objGet c!"expression" ms = some j ∧ IsText j e) ∧ ∃ q, bodyTree map (.obj ms) = some q ∧ q.expression = e) := by
  by_cases h1 : Once ms
  swap
  · exact .inl (.twice h1)
  by_cases hw : Wrong ms
  · exact .inl hw
  right
  refine ⟨h1, ?_⟩
  have he : ∃ j e, objGet c!"expression" ms = some j ∧ IsText j e := by
    cases hj : objGet c!"expression" ms with
    | none => exact absurd (.missing hj) hw
    | some j =>
      by_contra hc
      exact hw (.expression j hj fun e ht => hc ⟨j, e, rfl, ht⟩)
  obtain ⟨j, e, hj, ht⟩ := he
  have good : ∀ {α : Type} (f : Json → Option α) (k : Str), (∀ j, objGet k ms = some j → j ≠ .null → f j ≠ none) → ∃ x, member (nullable f) (objGet k ms) = some x := by
    intro α f k h
    cases hk : objGet k ms with
    | none => exact ⟨_, rfl⟩
    | some j =>
      by_cases hn : j = .null
      · subst hn; exact ⟨_, rfl⟩
      · have := h j hk hn
        obtain ⟨v, hv⟩ := Option.ne_none_iff_exists'.1 this
        have := member_value f hk hn hv
        rw [hk] at this
        exact ⟨_, this⟩
  obtain ⟨a, ha⟩ := good (argumentsOf map) c!"arguments" fun j hj hn h => hw (.arguments j hj hn (by rintro as rfl; simp [argumentsOf] at h))
  obtain ⟨o, ho⟩ := good boolOf c!"output_json" fun j hj hn h => hw (.outputJson j hj hn (by rintro as rfl; simp [boolOf] at h))
  obtain ⟨i, hi⟩ := good includeJson c!"include_variables" fun j hj hn h =>
    hw (.includeVariables j hj hn (by rintro as rfl; simp [includeJson] at h) (by rintro as rfl; simp [includeJson] at h))
  refine ⟨e, ⟨j, hj, ht⟩, ⟨e, a.getD none, o.getD none, i.getD none⟩, ?_, rfl⟩
  rw [bodyTree_eq map h1, ha, ho, hi, hj, member, (expressionOf_iff j e).2 ht]
  rfl

/-- **C104.** Bodies that agree in the four members, whatever their order and whatever else they contain, are answered alike and leave the server in the same state. -/
theorem C104_alike (X : Ext) (H : HttpExt) (cfg : Config) (s : Site) (tree : Str → Option Json) (map : List (Str × Json) → List (Str × Json)) (hr : Reads H tree map)
    (headers headers' : List Str) (body body' : Str) (hh : ∀ l ∈ headers, HeaderLine l) (hh' : ∀ l ∈ headers', HeaderLine l)
    (hp : passes X (postRequest headers body) cfg.authToken = .ok true) (hp' : passes X (postRequest headers' body') cfg.authToken = .ok true)
    (ms ms' : List (Str × Json)) (ht : tree body = some (.obj ms)) (ht' : tree body' = some (.obj ms')) (h1 : Once ms) (h1' : Once ms')
    (h : ∀ k ∈ known, k ≠ c!"expression" → objGet k ms = objGet k ms')
    (he : ∀ e, (∃ j, objGet c!"expression" ms = some j ∧ IsText j e) ↔ (∃ j, objGet c!"expression" ms' = some j ∧ IsText j e)) :
    handle X H cfg (postRequest headers body) s = handle X H cfg (postRequest headers' body') s := by
  have hx : bodyTree map (.obj ms) = bodyTree map (.obj ms') := by
    rw [bodyTree_eq map h1, bodyTree_eq map h1', h c!"arguments" (by decide) (by decide), h c!"output_json" (by decide) (by decide), h c!"include_variables" (by decide) (by decide)]
    have key : ∀ g : Option Json, (∃ e, (∃ j, g = some j ∧ IsText j e) ∧ member expressionOf g = some (some e)) ∨
        ((∀ e, ¬ ∃ j, g = some j ∧ IsText j e) ∧ (member expressionOf g = none ∨ member expressionOf g = some none)) := by
      intro g
      cases g with
      | none => exact .inr ⟨by simp, .inr rfl⟩
      | some j =>
        cases hj : expressionOf j with
        | none =>
          refine .inr ⟨?_, .inl (by rw [member, hj]; rfl)⟩
          rintro e ⟨j', h, ht⟩
          injection h with h
          subst h
          rw [(expressionOf_iff j e).2 ht] at hj
          simp at hj
        | some e => exact .inl ⟨e, ⟨j, rfl, (expressionOf_iff j e).1 hj⟩, by rw [member, hj]; rfl⟩
    have fun_ : ∀ (g : Option Json) e e', (∃ j, g = some j ∧ IsText j e) → (∃ j, g = some j ∧ IsText j e') → e = e' := by
      rintro g e e' ⟨j, rfl, h⟩ ⟨j', h2, h'⟩
      injection h2 with h2
      subst h2
      have a := (expressionOf_iff j e).2 h
      have b := (expressionOf_iff j e').2 h'
      rw [a] at b
      exact Option.some.inj b
    rcases key (objGet c!"expression" ms) with ⟨e, h2, h3⟩ | ⟨h2, h3⟩
    · rcases key (objGet c!"expression" ms') with ⟨e', h4, h5⟩ | ⟨h4, h5⟩
      · rw [h3, h5, fun_ _ e e' ((he e).1 h2) h4]
      · exact absurd ((he e).1 h2) (h4 e)
    · rcases key (objGet c!"expression" ms') with ⟨e', h4, h5⟩ | ⟨h4, h5⟩
      · exact absurd ((he e').2 h4) (h2 e')
      · cases member (nullable (argumentsOf map)) (objGet c!"arguments" ms') <;> cases member (nullable boolOf) (objGet c!"output_json" ms') <;>
        cases member (nullable includeJson) (objGet c!"include_variables" ms') <;> rcases h3 with h3 | h3 <;> rcases h5 with h5 | h5 <;> simp [h3, h5]
  rw [post_eq X H cfg s headers body hh hp, post_eq X H cfg s headers' body' hh' hp']
  cases hb : bodyTree map (.obj ms) with
  | none =>
    obtain ⟨e, h1⟩ := hr.bad body _ ht hb
    obtain ⟨e', h2⟩ := hr.bad body' _ ht' (hx ▸ hb)
    rw [h1, h2]
  | some q => rw [hr.good body _ q ht hb, hr.good body' _ q ht' (hx ▸ hb)]

/-- **C104: what one would not expect.** The text `"true"` asks for a variable called `true`, where a GET request gets all variables; and an array of the four
members is read as a request. -/
theorem C104_surprises (map : List (Str × Json) → List (Str × Json)) :
    bodyTree map (.obj [(c!"expression", .str c!"1"), (c!"include_variables", .str c!"true")]) = some ⟨c!"1", none, none, some (.selected [c!"true"])⟩ ∧
    includeOf c!"true" = .all ∧
    bodyTree map (.arr [.arr [.str c!"1 +", .str c!" 2"], .null, .bool true, .null]) = some ⟨c!"1 + 2", none, some true, none⟩ := by
  refine ⟨?_, by decide, rfl⟩
  kernel_rfl

/-- The expression given in parts, as a program of several lines would be. -/
example : IsText (.arr [.str c!":a := 1;", .str c!":a + 1"]) c!":a := 1;:a + 1" := .parts [c!":a := 1;", c!":a + 1"]

/-- Any server can be one that reads bodies so. -/
example (H : HttpExt) (tree : Str → Option Json) (map : List (Str × Json) → List (Str × Json)) :
    Reads { H with decodeEval := fun b => match (tree b).bind (bodyTree map) with | some q => .ok q | none => .error [] } tree map where
  good := by intro body j q h1 h2; simp [h1, h2]
  bad := by intro body j h1 h2; simp [h1, h2]
  noJson := by intro body h; simp [h]

/-- A case: a body with an unknown member and a null one. -/
example (map : List (Str × Json) → List (Str × Json)) :
    Describes map [(c!"comment", .null), (c!"include_variables", .str c!"total, :tax"), (c!"expression", .str c!"1"), (c!"arguments", .null)]
      ⟨c!"1", none, none, some (.selected [c!"total", c!"tax"])⟩ ∧
    Once [(c!"comment", .null), (c!"include_variables", .str c!"total, :tax"), (c!"expression", .str c!"1"), (c!"arguments", .null)] := by
  refine ⟨⟨⟨_, rfl, .whole _⟩, .inl ⟨.inr rfl, rfl⟩, .inl ⟨.inl rfl, rfl⟩, .inr ⟨_, _, rfl, ?_, rfl⟩⟩, ?_⟩
  · exact .listed _ [([], false, c!"total", []), (c!" ", true, c!"tax", [])] (by decide) (by decide) rfl
  · intro k hk
    simp only [known, List.mem_cons, List.not_mem_nil, or_false] at hk
    rcases hk with rfl | rfl | rfl | rfl <;> simp
