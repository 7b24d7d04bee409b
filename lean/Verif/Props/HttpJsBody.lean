import Verif.Model.HttpJsBody
import Verif.Props.HttpBody
/-! C119: the JSON bodies of uploads, updates and deletions. -/

open Http HttpBody HttpBody.Spec

namespace HttpJsBody

/-- How bodies are read: `tree` is the JSON library (see `Model/HttpJsBody.lean`). -/
structure Spec.Reads (H : HttpExt) (tree : Str → Option Json) : Prop where
  good : ∀ body j q, tree body = some j → jsTree j = some q → H.decodeJs body = .ok q
  bad : ∀ body j, tree body = some j → jsTree j = none → ∃ e, H.decodeJs body = .error e
  noJson : ∀ body, tree body = none → ∃ e, H.decodeJs body = .error e
  goodDelete : ∀ body j n, tree body = some j → deleteTree j = some n → H.decodeDelete body = .ok n
  badDelete : ∀ body j, tree body = some j → deleteTree j = none → ∃ e, H.decodeDelete body = .error e
  noJsonDelete : ∀ body, tree body = none → ∃ e, H.decodeDelete body = .error e

/-- No name of these is given twice. -/
def Spec.OnceOf (names : List Str) (ms : List (Str × Json)) : Prop := ∀ k ∈ names, (ms.filter fun m => m.1 = k).length ≤ 1

/-- The names with a meaning in an upload or update. -/
def Spec.storeNames : List Str := [c!"filename", c!"js_code", c!"file_content"]

/-- A text that need not be there. -/
def Spec.MayGive (k : Str) (ms : List (Str × Json)) (t : Option Str) : Prop := (Absent k ms ∧ t = none) ∨ ∃ s, objGet k ms = some (.str s) ∧ t = some s

/-- The members give this name, and this code: in `js_code`, or else in `file_content`, or not at all. -/
def Spec.GivesFile (ms : List (Str × Json)) (name : Str) (code : Option Str) : Prop :=
  OnceOf storeNames ms ∧ objGet c!"filename" ms = some (.str name) ∧
    ∃ first second, MayGive c!"js_code" ms first ∧ MayGive c!"file_content" ms second ∧ ((∃ c, first = some c ∧ code = some c) ∨ (first = none ∧ code = second))

/-- The members give this name. -/
def Spec.GivesName (ms : List (Str × Json)) (name : Str) : Prop := OnceOf [c!"filename"] ms ∧ objGet c!"filename" ms = some (.str name)

/-- What is wrong with the members of an upload or update. -/
inductive Spec.WrongFile (ms : List (Str × Json)) : Prop where
  | noName : (∀ n, objGet c!"filename" ms ≠ some (.str n)) → WrongFile ms
  | code (k : Str) (j : Json) : k = c!"js_code" ∨ k = c!"file_content" → objGet k ms = some j → j ≠ .null → (∀ s, j ≠ .str s) → WrongFile ms
  | twice : ¬ OnceOf storeNames ms → WrongFile ms

/-- What is wrong with the members of a deletion. -/
inductive Spec.WrongName (ms : List (Str × Json)) : Prop where
  | noName : (∀ n, objGet c!"filename" ms ≠ some (.str n)) → WrongName ms
  | twice : ¬ OnceOf [c!"filename"] ms → WrongName ms

/-- A value that gives this text, or null for none. -/
def Spec.GivesText (j : Json) (t : Option Str) : Prop := (j = .null ∧ t = none) ∨ ∃ s, j = .str s ∧ t = some s

/-- A body that gives this name and this code: an object, or the name, the code and the content in an array of three. -/
inductive Spec.BodyGivesFile : Json → Str → Option Str → Prop where
  | members {ms : List (Str × Json)} {name : Str} {code : Option Str} : GivesFile ms name code → BodyGivesFile (.obj ms) name code
  | code {a b : Json} {name c : Str} {t : Option Str} : GivesText a (some c) → GivesText b t → BodyGivesFile (.arr [.str name, a, b]) name (some c)
  | content {a b : Json} {name : Str} {t : Option Str} : GivesText a none → GivesText b t → BodyGivesFile (.arr [.str name, a, b]) name t

/-- A body that gives this name: an object, or the name alone in an array. -/
inductive Spec.BodyGivesName : Json → Str → Prop where
  | members {ms : List (Str × Json)} {name : Str} : GivesName ms name → BodyGivesName (.obj ms) name
  | alone {name : Str} : BodyGivesName (.arr [.str name]) name

/-- A body that gives no file. -/
inductive Spec.BodyWrongFile : Json → Prop where
  | members {ms : List (Str × Json)} : WrongFile ms → BodyWrongFile (.obj ms)
  | array {js : List Json} : (∀ name a b, js = [.str name, a, b] → (∀ t, ¬ GivesText a t) ∨ ∀ t, ¬ GivesText b t) → BodyWrongFile (.arr js)
  | other {j : Json} : (∀ ms, j ≠ .obj ms) → (∀ js, j ≠ .arr js) → BodyWrongFile j

/-- A body that gives no name. -/
inductive Spec.BodyWrongName : Json → Prop where
  | members {ms : List (Str × Json)} : WrongName ms → BodyWrongName (.obj ms)
  | array {js : List Json} : (∀ name, js ≠ [.str name]) → BodyWrongName (.arr js)
  | other {j : Json} : (∀ ms, j ≠ .obj ms) → (∀ js, j ≠ .arr js) → BodyWrongName j

open HttpJsBody.Spec

theorem stringOf_iff (j : Json) (s : Str) : stringOf j = some s ↔ j = .str s := by cases j <;> simp [stringOf]

theorem none_of {α : Type} {k : Str} {j : Json} {rest : List (Str × Json)} {seen : Option α} (h : times k ((k, j) :: rest) seen ≤ 1) : seen = none ∧ objGet k rest = none := by
  rw [times_here] at h
  unfold times at h
  constructor
  · cases seen with
    | none => rfl
    | some a => simp at h
  · exact objGet_none (by omega)

theorem jsMembers_eq : ∀ (ms : List (Str × Json)) (f : JsFields),
    times c!"filename" ms f.filename ≤ 1 → times c!"js_code" ms f.jsCode ≤ 1 → times c!"file_content" ms f.fileContent ≤ 1 →
    jsMembers ms f =
      (member stringOf (objGet c!"filename" ms)).bind fun n => (member (nullable stringOf) (objGet c!"js_code" ms)).bind fun c =>
      (member (nullable stringOf) (objGet c!"file_content" ms)).bind fun t => some ⟨n.or f.filename, c.or f.jsCode, t.or f.fileContent⟩
  | [], f, _, _, _ => by cases f; rfl
  | (k, j) :: rest, f, h1, h2, h3 => by
    have ih := jsMembers_eq rest
    rw [jsMembers]
    by_cases k1 : k = c!"filename"
    · subst k1
      obtain ⟨s, g⟩ := none_of h1
      rw [times_other _ _ _ (by decide)] at h2 h3
      rw [if_pos rfl, s, if_neg (by simp)]
      simp only [objGet, if_pos, if_neg (show c!"js_code" ≠ c!"filename" by decide), if_neg (show c!"file_content" ≠ c!"filename" by decide)]
      cases hj : stringOf j with
      | none => simp [member, hj]
      | some v =>
        rw [Option.bind_some, ih { f with filename := some v } (times_some v h1) h2 h3, g]
        simp [member, hj]
    by_cases k2 : k = c!"js_code"
    · subst k2
      obtain ⟨s, g⟩ := none_of h2
      rw [times_other _ _ _ (by decide)] at h1 h3
      rw [if_neg k1, if_pos rfl, s, if_neg (by simp)]
      simp only [objGet, if_pos, if_neg (show c!"filename" ≠ c!"js_code" by decide), if_neg (show c!"file_content" ≠ c!"js_code" by decide)]
      cases hj : nullable stringOf j with
      | none => simp [member, hj]
      | some v =>
        rw [Option.bind_some, ih { f with jsCode := some v } h1 (times_some v h2) h3, g]
        simp [member, hj]
    by_cases k3 : k = c!"file_content"
    · subst k3
      obtain ⟨s, g⟩ := none_of h3
      rw [times_other _ _ _ (by decide)] at h1 h2
      rw [if_neg k1, if_neg k2, if_pos rfl, s, if_neg (by simp)]
      simp only [objGet, if_pos, if_neg (show c!"filename" ≠ c!"file_content" by decide), if_neg (show c!"js_code" ≠ c!"file_content" by decide)]
      cases hj : nullable stringOf j with
      | none => simp [member, hj]
      | some v =>
        rw [Option.bind_some, ih { f with fileContent := some v } h1 h2 (times_some v h3), g]
        simp [member, hj]
    · rw [if_neg k1, if_neg k2, if_neg k3]
      rw [times_other _ _ _ k1] at h1
      rw [times_other _ _ _ k2] at h2
      rw [times_other _ _ _ k3] at h3
      rw [ih f h1 h2 h3]
      simp only [objGet, if_neg (Ne.symm k1), if_neg (Ne.symm k2), if_neg (Ne.symm k3)]

theorem times_step {α : Type} {k : Str} {j : Json} {rest : List (Str × Json)} {seen : Option α} {v : α} (hs : ¬ seen.isSome = true) (h : times k rest (some v) ≤ 1) :
    times k ((k, j) :: rest) seen ≤ 1 := by
  rw [times_here]
  cases seen with
  | none => simpa [times] using h
  | some a => simp at hs

theorem jsMembers_once : ∀ (ms : List (Str × Json)) (f g : JsFields), jsMembers ms f = some g →
    times c!"filename" ms f.filename ≤ 1 ∧ times c!"js_code" ms f.jsCode ≤ 1 ∧ times c!"file_content" ms f.fileContent ≤ 1
  | [], f, g, _ => by
    have : ∀ {α : Type} (o : Option α), o.toList.length ≤ 1 := by intro α o; cases o <;> simp
    simpa [times] using ⟨this _, this _, this _⟩
  | (k, j) :: rest, f, g, h => by
    have ih := jsMembers_once rest
    rw [jsMembers] at h
    by_cases k1 : k = c!"filename"
    · subst k1
      rw [if_pos rfl] at h
      by_cases hs : f.filename.isSome = true
      · rw [if_pos hs] at h; simp at h
      · rw [if_neg hs, Option.bind_eq_some_iff] at h
        obtain ⟨v, -, h⟩ := h
        obtain ⟨i1, i2, i3⟩ := ih _ _ h
        rw [times_other _ _ f.jsCode (by decide), times_other _ _ f.fileContent (by decide)]
        exact ⟨times_step hs i1, i2, i3⟩
    rw [if_neg k1] at h
    by_cases k2 : k = c!"js_code"
    · subst k2
      rw [if_pos rfl] at h
      by_cases hs : f.jsCode.isSome = true
      · rw [if_pos hs] at h; simp at h
      · rw [if_neg hs, Option.bind_eq_some_iff] at h
        obtain ⟨v, -, h⟩ := h
        obtain ⟨i1, i2, i3⟩ := ih _ _ h
        rw [times_other _ _ f.filename (by decide), times_other _ _ f.fileContent (by decide)]
        exact ⟨i1, times_step hs i2, i3⟩
    rw [if_neg k2] at h
    by_cases k3 : k = c!"file_content"
    · subst k3
      rw [if_pos rfl] at h
      by_cases hs : f.fileContent.isSome = true
      · rw [if_pos hs] at h; simp at h
      · rw [if_neg hs, Option.bind_eq_some_iff] at h
        obtain ⟨v, -, h⟩ := h
        obtain ⟨i1, i2, i3⟩ := ih _ _ h
        rw [times_other _ _ f.filename (by decide), times_other _ _ f.jsCode (by decide)]
        exact ⟨i1, i2, times_step hs i3⟩
    rw [if_neg k3] at h
    rw [times_other _ _ _ k1, times_other _ _ _ k2, times_other _ _ _ k3]
    exact ih _ _ h

theorem deleteMembers_eq : ∀ (ms : List (Str × Json)) (f : Option Str), times c!"filename" ms f ≤ 1 →
    deleteMembers ms f = (member stringOf (objGet c!"filename" ms)).bind fun n => some (n.or f)
  | [], f, _ => by cases f <;> rfl
  | (k, j) :: rest, f, h => by
    have ih := deleteMembers_eq rest
    rw [deleteMembers]
    by_cases k1 : k = c!"filename"
    · subst k1
      obtain ⟨s, g⟩ := none_of h
      rw [if_pos rfl, s, if_neg (by simp)]
      simp only [objGet, if_pos]
      cases hj : stringOf j with
      | none => simp [member, hj]
      | some v =>
        rw [Option.bind_some, ih (some v) (times_some v h), g]
        simp [member, hj]
    · rw [if_neg k1]
      rw [times_other _ _ _ k1] at h
      rw [ih f h]
      simp only [objGet, if_neg (Ne.symm k1)]

theorem deleteMembers_once : ∀ (ms : List (Str × Json)) (f g : Option Str), deleteMembers ms f = some g → times c!"filename" ms f ≤ 1
  | [], f, g, _ => by cases f <;> simp [times]
  | (k, j) :: rest, f, g, h => by
    have ih := deleteMembers_once rest
    rw [deleteMembers] at h
    by_cases k1 : k = c!"filename"
    · subst k1
      rw [if_pos rfl] at h
      by_cases hs : f.isSome = true
      · rw [if_pos hs] at h; simp at h
      · rw [if_neg hs, Option.bind_eq_some_iff] at h
        obtain ⟨v, -, h⟩ := h
        exact times_step hs (ih _ _ h)
    · rw [if_neg k1] at h
      rw [times_other _ _ _ k1]
      exact ih _ _ h

theorem onceOf_times {names : List Str} {ms : List (Str × Json)} (h : OnceOf names ms) {k : Str} (hk : k ∈ names) {α : Type} : times k ms (none : Option α) ≤ 1 := by
  simpa [times] using h k hk

theorem jsTree_eq {ms : List (Str × Json)} (h : OnceOf storeNames ms) :
    jsTree (.obj ms) = (member stringOf (objGet c!"filename" ms)).bind fun n => (member (nullable stringOf) (objGet c!"js_code" ms)).bind fun c =>
      (member (nullable stringOf) (objGet c!"file_content" ms)).bind fun t => n.map fun n => ⟨n, c.getD none, t.getD none⟩ := by
  rw [jsTree, jsMembers_eq ms {} (onceOf_times h (by decide)) (onceOf_times h (by decide)) (onceOf_times h (by decide))]
  cases member stringOf (objGet c!"filename" ms) <;> cases member (nullable stringOf) (objGet c!"js_code" ms) <;>
    cases member (nullable stringOf) (objGet c!"file_content" ms) <;> simp

theorem mayGive_member {k : Str} {ms : List (Str × Json)} {t : Option Str} (h : MayGive k ms t) : ∃ x, member (nullable stringOf) (objGet k ms) = some x ∧ x.getD none = t := by
  rcases h with ⟨h, rfl⟩ | ⟨s, h, rfl⟩
  · simpa only [Option.map_eq_some_iff] using member_absent stringOf h
  · exact ⟨_, member_value stringOf h (by simp) rfl, rfl⟩

theorem gives_eq {ms : List (Str × Json)} {name : Str} {code : Option Str} (h : GivesFile ms name code) :
    ∃ q, jsTree (.obj ms) = some q ∧ q.filename = name ∧ q.code = code := by
  obtain ⟨h1, hn, a, b, ha, hb, hc⟩ := h
  obtain ⟨x, hx, rfl⟩ := mayGive_member ha
  obtain ⟨y, hy, rfl⟩ := mayGive_member hb
  refine ⟨⟨name, x.getD none, y.getD none⟩, ?_, rfl, ?_⟩
  · rw [jsTree_eq h1, hx, hy, hn]
    rfl
  · unfold JsRequest.code
    rcases hc with ⟨c, h1, h2⟩ | ⟨h1, h2⟩
    · simp only [h1, h2, Option.some_or]
    · simp only [h1, h2, Option.none_or]

theorem wrong_file {ms : List (Str × Json)} (h : WrongFile ms) : jsTree (.obj ms) = none := by
  by_cases h1 : OnceOf storeNames ms
  · rw [jsTree_eq h1]
    cases h with
    | noName h =>
      cases hn : objGet c!"filename" ms with
      | none => cases member (nullable stringOf) (objGet c!"js_code" ms) <;> cases member (nullable stringOf) (objGet c!"file_content" ms) <;> simp [member]
      | some j =>
        have : stringOf j = none := by
          cases hs : stringOf j with
          | none => rfl
          | some s => exact absurd (by rw [hn, (stringOf_iff j s).1 hs]) (h s)
        simp [member, this]
    | code k j hk h hj hs =>
      have hs' : stringOf j = none := by
        cases hx : stringOf j with
        | none => rfl
        | some s => exact absurd ((stringOf_iff j s).1 hx) (hs s)
      have : member (nullable stringOf) (objGet k ms) = none := by
        rw [h, member]
        have : nullable stringOf j = (stringOf j).map some := by cases j <;> first | exact absurd rfl hj | rfl
        rw [this, hs']; rfl
      rcases hk with rfl | rfl
      · rw [this]; simp
      · rw [this]; simp
    | twice h => exact absurd h1 h
  · cases hm : jsMembers ms {} with
    | none => rw [jsTree, hm]; rfl
    | some g =>
      refine absurd ?_ h1
      obtain ⟨i1, i2, i3⟩ := jsMembers_once ms {} g hm
      intro k hk
      simp only [storeNames, List.mem_cons, List.not_mem_nil, or_false] at hk
      rcases hk with rfl | rfl | rfl <;> simpa [times] using ‹_›

theorem name_eq {ms : List (Str × Json)} {name : Str} (h : GivesName ms name) : deleteTree (.obj ms) = some name := by
  obtain ⟨h1, hn⟩ := h
  rw [deleteTree, deleteMembers_eq ms none (onceOf_times h1 (by decide)), hn]
  rfl

theorem wrong_name {ms : List (Str × Json)} (h : WrongName ms) : deleteTree (.obj ms) = none := by
  by_cases h1 : OnceOf [c!"filename"] ms
  · rw [deleteTree, deleteMembers_eq ms none (onceOf_times h1 (by decide))]
    cases h with
    | noName h =>
      cases hn : objGet c!"filename" ms with
      | none => rfl
      | some j =>
        have : stringOf j = none := by
          cases hs : stringOf j with
          | none => rfl
          | some s => exact absurd (by rw [hn, (stringOf_iff j s).1 hs]) (h s)
        simp [member, this]
    | twice h => exact absurd h1 h
  · cases hm : deleteMembers ms none with
    | none => rw [deleteTree, hm]; rfl
    | some g =>
      refine absurd ?_ h1
      have i1 := deleteMembers_once ms none g hm
      intro k hk
      rw [List.mem_singleton] at hk
      subst hk
      simpa [times] using i1

/-- Every object is right or wrong. -/
theorem file_or_wrong (ms : List (Str × Json)) : WrongFile ms ∨ ∃ name code, GivesFile ms name code := by
  by_cases hw : WrongFile ms
  · exact .inl hw
  right
  have h1 : OnceOf storeNames ms := by by_contra h; exact hw (.twice h)
  have hn : ∃ n, objGet c!"filename" ms = some (.str n) := by
    by_contra h
    exact hw (.noName fun n hn => h ⟨n, hn⟩)
  obtain ⟨n, hn⟩ := hn
  have may : ∀ k, k = c!"js_code" ∨ k = c!"file_content" → ∃ t, MayGive k ms t := by
    intro k hk
    cases hj : objGet k ms with
    | none => exact ⟨none, .inl ⟨.inl hj, rfl⟩⟩
    | some j =>
      by_cases h0 : j = .null
      · subst h0; exact ⟨none, .inl ⟨.inr hj, rfl⟩⟩
      · by_cases hs : ∃ s, j = .str s
        · obtain ⟨s, rfl⟩ := hs
          exact ⟨some s, .inr ⟨s, hj, rfl⟩⟩
        · exact absurd (.code k j hk hj h0 fun s h => hs ⟨s, h⟩) hw
  obtain ⟨a, ha⟩ := may c!"js_code" (.inl rfl)
  obtain ⟨b, hb⟩ := may c!"file_content" (.inr rfl)
  cases a with
  | none => exact ⟨n, b, h1, hn, none, b, ha, hb, .inr ⟨rfl, rfl⟩⟩
  | some c => exact ⟨n, some c, h1, hn, some c, b, ha, hb, .inl ⟨c, rfl, rfl⟩⟩

theorem givesText_iff (j : Json) (t : Option Str) : GivesText j t ↔ nullable stringOf j = some t := by
  cases j <;> simp [GivesText, nullable, stringOf, eq_comm]

theorem body_gives {j : Json} {name : Str} {code : Option Str} (h : BodyGivesFile j name code) : ∃ q, jsTree j = some q ∧ q.filename = name ∧ q.code = code := by
  cases h with
  | members h => exact gives_eq h
  | @code a b _ c t ha hb =>
    rw [givesText_iff] at ha hb
    exact ⟨⟨name, some c, t⟩, by simp [jsTree, stringOf, ha, hb], rfl, rfl⟩
  | @content a b _ t ha hb =>
    rw [givesText_iff] at ha hb
    exact ⟨⟨name, none, code⟩, by simp [jsTree, stringOf, ha, hb], rfl, by simp [JsRequest.code]⟩

theorem body_name {j : Json} {name : Str} (h : BodyGivesName j name) : deleteTree j = some name := by
  cases h with
  | members h => exact name_eq h
  | alone => rfl

theorem body_wrong {j : Json} (h : BodyWrongFile j) : jsTree j = none := by
  cases h with
  | members h => exact wrong_file h
  | @array js h =>
    match js with
    | [] => rfl
    | [_] => rfl
    | [_, _] => rfl
    | _ :: _ :: _ :: _ :: _ => rfl
    | [n, a, b] =>
      simp only [jsTree]
      cases hn : stringOf n with
      | none => rfl
      | some name =>
        rw [stringOf_iff] at hn
        subst hn
        have none_of : ∀ j, (∀ t, ¬ GivesText j t) → nullable stringOf j = none := by
          intro j h
          cases hj : nullable stringOf j with
          | none => rfl
          | some t => exact absurd ((givesText_iff j t).2 hj) (h t)
        rcases h name a b rfl with h | h
        · rw [none_of a h]; rfl
        · rw [none_of b h]
          cases nullable stringOf a <;> rfl
  | other h1 h2 =>
    cases j <;> first | rfl | exact absurd rfl (h1 _) | exact absurd rfl (h2 _)

theorem body_wrong_name {j : Json} (h : BodyWrongName j) : deleteTree j = none := by
  cases h with
  | members h => exact wrong_name h
  | @array js h =>
    match js with
    | [] => rfl
    | _ :: _ :: _ => rfl
    | [n] =>
      simp only [deleteTree]
      cases hn : stringOf n with
      | none => rfl
      | some name =>
        rw [stringOf_iff] at hn
        subst hn
        exact absurd rfl (h name)
  | other h1 h2 =>
    cases j <;> first | rfl | exact absurd rfl (h1 _) | exact absurd rfl (h2 _)

/-- Every body is right or wrong. -/
theorem body_or_wrong (j : Json) : BodyWrongFile j ∨ ∃ name code, BodyGivesFile j name code := by
  cases j with
  | obj ms =>
    rcases file_or_wrong ms with h | ⟨n, c, h⟩
    · exact .inl (.members h)
    · exact .inr ⟨n, c, .members h⟩
  | arr js =>
    by_cases hw : BodyWrongFile (.arr js)
    · exact .inl hw
    · right
      by_contra hc
      refine hw (.array fun name a b hjs => ?_)
      subst hjs
      by_contra hab
      simp only [not_or, not_forall, not_not] at hab
      obtain ⟨⟨t, ht⟩, ⟨u, hu⟩⟩ := hab
      cases t with
      | none => exact hc ⟨name, u, .content ht hu⟩
      | some c => exact hc ⟨name, some c, .code ht hu⟩
  | _ => exact .inl (.other (by simp) (by simp))

/-- Any server can be one that reads bodies so. -/
example (H : HttpExt) (tree : Str → Option Json) :
    Reads { H with
      decodeJs := fun b => match (tree b).bind jsTree with | some q => .ok q | none => .error []
      decodeDelete := fun b => match (tree b).bind deleteTree with | some q => .ok q | none => .error [] } tree where
  good := by intro body j q h1 h2; simp [h1, h2]
  bad := by intro body j h1 h2; simp [h1, h2]
  noJson := by intro body h; simp [h]
  goodDelete := by intro body j q h1 h2; simp [h1, h2]
  badDelete := by intro body j h1 h2; simp [h1, h2]
  noJsonDelete := by intro body h; simp [h]

end HttpJsBody
