import Verif.Props.JsonText
import Verif.Props.JsonMethods
/-! C134: an object written in an expression is the document with the members that are written. -/

open Lib Spec

namespace ObjectLiterals

namespace Spec

mutual
/-- `Shown X v j`: in a document the value `v` appears as `j`. Amounts appear as numbers, dates as their seconds, what is not finite as null, and a
document as what the library reads in its text. -/
inductive Shown (X : Ext) : Value → Json → Prop
  | null : Shown X .null .null
  | bool (b : Bool) : Shown X (.bool b) (.bool b)
  | str (s : Str) : Shown X (.str s) (.str s)
  | num {x : F64} : x.isFinite = true → Shown X (.num x) (.num (.float x))
  | noNum {x : F64} : x.isFinite = false → Shown X (.num x) .null
  | cur {x : F64} : x.isFinite = true → Shown X (.cur x) (.num (.float x))
  | noCur {x : F64} : x.isFinite = false → Shown X (.cur x) .null
  | dt (t : ℤ) : Shown X (.dt t) (.num (.int t))
  | arr {vs : List Value} {js : List Json} : ShownAll X vs js → Shown X (.arr vs) (.arr js)
  | json {s : Str} {j : Json} : X.jsonParse s = .ok j → Shown X (.json s) j
/-- Elementwise. -/
inductive ShownAll (X : Ext) : List Value → List Json → Prop
  | nil : ShownAll X [] []
  | cons {v : Value} {j : Json} {vs : List Value} {js : List Json} : Shown X v j → ShownAll X vs js → ShownAll X (v :: vs) (j :: js)
end

/-- The members written, with what they appear as: `e` has a value, and that value appears as `j`. -/
inductive Gives (X : Ext) (r : Option Registry) (env : Env) : List (Str × Expr) → List (Str × Json) → Prop
  | nil : Gives X r env [] []
  | cons {k : Str} {e : Expr} {v : Value} {j : Json} {es : List (Str × Expr)} {js : List (Str × Json)} :
      Eval.eval X e r env = .ok v → Shown X v j → Gives X r env es js → Gives X r env ((k, e) :: es) ((k, j) :: js)

/-- `Document js ms`: `ms` has the members `js`, in the order of their names, and of those with the same name only the last. -/
structure Document (js ms : List (Str × Json)) : Prop where
  ordered : (ms.map Prod.fst).Pairwise (fun a b => Str.lt a b = true)
  member (k : Str) (j : Json) : (k, j) ∈ ms ↔ JsonText.Spec.lastNamed k js = some j

end Spec

open ObjectLiterals.Spec

mutual
theorem shown_iff (X : Ext) : ∀ (v : Value) (j : Json), v.toJson X = .ok j ↔ Shown X v j
  | .null, j => ⟨fun h => by cases h; exact .null, fun h => by cases h; rfl⟩
  | .bool b, j => ⟨fun h => by cases h; exact .bool b, fun h => by cases h; rfl⟩
  | .str s, j => ⟨fun h => by cases h; exact .str s, fun h => by cases h; rfl⟩
  | .dt t, j => ⟨fun h => by cases h; exact .dt t, fun h => by cases h; rfl⟩
  | .num x, j => by
    rw [Value.toJson, Json.ofF64]
    constructor
    · intro h
      split at h <;> cases h
      · exact .num ‹_›
      · exact .noNum (Bool.eq_false_iff.2 ‹¬ _›)
    · intro h; cases h with
      | num h => rw [if_pos h]
      | noNum h => rw [if_neg (by simp [h])]
  | .cur x, j => by
    rw [Value.toJson, Json.ofF64]
    constructor
    · intro h
      split at h <;> cases h
      · exact .cur ‹_›
      · exact .noCur (Bool.eq_false_iff.2 ‹¬ _›)
    · intro h; cases h with
      | cur h => rw [if_pos h]
      | noCur h => rw [if_neg (by simp [h])]
  | .json s, j => by
    rw [Value.toJson]
    constructor
    · intro h
      split at h
      · rename_i j' hp; cases h; exact .json hp
      · cases h
    · intro h; cases h with
      | json h => rw [h]
  | .arr vs, j => by
    rw [Value.toJson]
    constructor
    · intro h
      cases hj : Value.toJsonList X vs with
      | error e => rw [hj] at h; cases h
      | ok js => rw [hj] at h; cases h; exact .arr ((shownAll_iff X vs js).1 hj)
    · intro h; cases h with
      | arr h => rw [(shownAll_iff X vs _).2 h]; rfl
theorem shownAll_iff (X : Ext) : ∀ (vs : List Value) (js : List Json), Value.toJsonList X vs = .ok js ↔ ShownAll X vs js
  | [], js => ⟨fun h => by cases h; exact .nil, fun h => by cases h; rfl⟩
  | v :: vs, js => by
    rw [Value.toJsonList]
    constructor
    · intro h
      cases hj : v.toJson X with
      | error e => rw [hj] at h; cases h
      | ok j =>
        cases hjs : Value.toJsonList X vs with
        | error e => rw [hj, hjs] at h; cases h
        | ok js' => rw [hj, hjs] at h; cases h; exact .cons ((shown_iff X v j).1 hj) ((shownAll_iff X vs js').1 hjs)
    · intro h; cases h with
      | cons h hs => rw [(shown_iff X v _).2 h, (shownAll_iff X vs _).2 hs]; rfl
end

/-- The members one after the other into the map. -/
def put : List (Str × Json) → List (Str × Json) → List (Str × Json)
  | acc, [] => acc
  | acc, (k, j) :: js => put (objInsert k j acc) js

theorem members_of {X : Ext} {r : Option Registry} {env : Env} : ∀ {es : List (Str × Expr)} {js : List (Str × Json)} (acc : List (Str × Json)),
    Gives X r env es js → objectMembers X r env acc (Eval.membersOf X es) = .ok (put acc js)
  | _, _, acc, .nil => rfl
  | _, _, acc, .cons (k := k) (j := j) h1 h2 h3 => by
    rw [Eval.membersOf, objectMembers, h1]
    show ((Value.toJson X _) >>= _) = _
    rw [(shown_iff X _ _).2 h2]
    exact members_of (objInsert k j acc) h3

theorem put_ordered : ∀ (js acc : List (Str × Json)), (acc.map Prod.fst).Pairwise (fun a b => Str.lt a b = true) →
    ((put acc js).map Prod.fst).Pairwise (fun a b => Str.lt a b = true)
  | [], _, h => h
  | (k, j) :: js, acc, h => put_ordered js _ (JsonText.objInsert_ordered k j acc h)

theorem put_get : ∀ (js acc : List (Str × Json)) (a : Str), objGet a (put acc js) = (JsonText.Spec.lastNamed a js).or (objGet a acc)
  | [], acc, a => by simp [put, JsonText.Spec.lastNamed]
  | (k, j) :: js, acc, a => by
    rw [put, put_get js _ a, JsonText.objGet_insert, JsonText.lastNamed_cons]
    by_cases h : a = k
    · cases hl : JsonText.Spec.lastNamed a js <;> simp_all
    · cases hl : JsonText.Spec.lastNamed a js <;> simp_all [eq_comm]

theorem document_put (js : List (Str × Json)) : Document js (put [] js) := by
  have ho := put_ordered js [] (by simp)
  refine ⟨ho, fun k j => ?_⟩
  have := put_get js [] k
  simp only [objGet, Option.or_none] at this
  rw [← this]
  exact ⟨fun h => JsonText.objGet_ordered ho h, JsonText.mem_of_objGet⟩

theorem document_unique {js ms ms' : List (Str × Json)} (h : Document js ms) (h' : Document js ms') : ms = ms' := by
  refine JsonText.ordered_ext h.ordered h'.ordered fun k => ?_
  have : ∀ {ms}, Document js ms → objGet k ms = JsonText.Spec.lastNamed k js := by
    intro ms h
    cases hg : objGet k ms with
    | some j => exact ((h.member k j).1 (JsonText.mem_of_objGet hg)).symm
    | none =>
      cases hl : JsonText.Spec.lastNamed k js with
      | none => rfl
      | some j => rw [JsonText.objGet_ordered h.ordered ((h.member k j).2 hl)] at hg; cases hg
  rw [this h, this h']

theorem document_get {js ms : List (Str × Json)} (h : Document js ms) (k : Str) : objGet k ms = JsonText.Spec.lastNamed k js := by
  rw [document_unique h (document_put js), put_get]; simp [objGet]

theorem lastNamed_isSome (k : Str) : ∀ js : List (Str × Json), (JsonText.Spec.lastNamed k js).isSome = true ↔ k ∈ js.map Prod.fst
  | [] => by simp [JsonText.Spec.lastNamed]
  | (a, j) :: js => by
    rw [JsonText.lastNamed_cons, Option.isSome_or, Bool.or_eq_true, lastNamed_isSome k js]
    by_cases h : k = a <;> simp [h, or_comm]

theorem gives_names {X : Ext} {r : Option Registry} {env : Env} : ∀ {es : List (Str × Expr)} {js : List (Str × Json)}, Gives X r env es js → js.map Prod.fst = es.map Prod.fst
  | _, _, .nil => rfl
  | _, _, .cons _ _ h => by simp [gives_names h]

mutual
theorem toJson_error (X : Ext) : ∀ {v : Value} {f : Fail}, v.toJson X = .error f → ∃ why, f = .err "Invalid JSON: {}" [why] none
  | .json s, f, h => by
    rw [Value.toJson] at h
    split at h
    · cases h
    · cases h; exact ⟨_, rfl⟩
  | .arr vs, f, h => by
    rw [Value.toJson] at h
    cases hj : Value.toJsonList X vs with
    | error e => rw [hj] at h; cases h; exact toJsonList_error X hj
    | ok js => rw [hj] at h; cases h
  | .num _, _, h | .str _, _, h | .bool _, _, h | .cur _, _, h | .dt _, _, h | .null, _, h => by cases h
theorem toJsonList_error (X : Ext) : ∀ {vs : List Value} {f : Fail}, Value.toJsonList X vs = .error f → ∃ why, f = .err "Invalid JSON: {}" [why] none
  | v :: vs, f, h => by
    rw [Value.toJsonList] at h
    cases hj : v.toJson X with
    | error e => rw [hj] at h; cases h; exact toJson_error X hj
    | ok j =>
      rw [hj] at h
      cases hjs : Value.toJsonList X vs with
      | error e => rw [hjs] at h; cases h; exact toJsonList_error X hjs
      | ok js => rw [hjs] at h; cases h
end

/-- The outcome of an object. -/
theorem eval_object (X : Ext) (r : Option Registry) (env : Env) (es : List (Str × Expr)) :
    Eval.eval X (.object es) r env = (objectMembers X r env [] (Eval.membersOf X es)).map fun ms => .json (X.jsonPrint (.obj ms)) := by
  rw [Eval.eval]
  show (objectMembers X r env [] (Eval.membersOf X es)).bind _ = _
  cases objectMembers X r env [] (Eval.membersOf X es) <;> rfl

theorem members_fail {X : Ext} {r : Option Registry} {env : Env} {k : Str} {e : Expr} {es' : List (Str × Expr)} {f : Fail}
    (h : (Eval.eval X e r env).bind (Value.toJson X) = .error f) : ∀ {es : List (Str × Expr)} {js : List (Str × Json)} (acc : List (Str × Json)),
    Gives X r env es js → objectMembers X r env acc (Eval.membersOf X (es ++ (k, e) :: es')) = .error f
  | _, _, acc, .nil => by
    rw [List.nil_append, Eval.membersOf, objectMembers]
    show (Eval.eval X e r env).bind (fun v => (Value.toJson X v).bind _) = _
    cases hv : Eval.eval X e r env with
    | error g => rw [hv] at h; simp only [Except.bind, Except.error.injEq] at h ⊢; exact h
    | ok v => rw [hv] at h; simp only [Except.bind] at h ⊢; rw [h]
  | _, _, acc, .cons (k := k') (j := j) h1 h2 h3 => by
    rw [List.cons_append, Eval.membersOf, objectMembers, h1]
    show ((Value.toJson X _) >>= _) = _
    rw [(shown_iff X _ _).2 h2]
    exact members_fail h (objInsert k' j acc) h3

/-- **C134.** An object whose members have values, each with a form in a document, is the document with these members: every name written is a member, with
the last of the values written for it, and the members are in the order of their names. -/
theorem C134_object (X : Ext) (r : Option Registry) (env : Env) (es : List (Str × Expr)) (js : List (Str × Json)) (h : Gives X r env es js) :
    ∃ ms, Document js ms ∧ Eval.eval X (.object es) r env = .ok (.json (X.jsonPrint (.obj ms))) := by
  refine ⟨_, document_put js, ?_⟩
  rw [eval_object, members_of [] h]; rfl

/-- **C134.** Members are evaluated from left to right and the first failure is that of the object: the failure of the expression, or that its value is a
document the library does not read. -/
theorem C134_fails (X : Ext) (r : Option Registry) (env : Env) (es es' : List (Str × Expr)) (js : List (Str × Json)) (k : Str) (e : Expr) (h : Gives X r env es js) :
    (∀ f, Eval.eval X e r env = .error f → Eval.eval X (.object (es ++ (k, e) :: es')) r env = .error f) ∧
    ∀ v, Eval.eval X e r env = .ok v → (¬ ∃ j, Shown X v j) → ∃ why, Eval.eval X (.object (es ++ (k, e) :: es')) r env = fail "Invalid JSON: {}" [why] := by
  refine ⟨fun f hf => ?_, fun v hv hn => ?_⟩
  · rw [eval_object, members_fail (f := f) (by rw [hf]; rfl) [] h]; rfl
  · cases hj : v.toJson X with
    | ok j => exact absurd ⟨j, (shown_iff X v j).1 hj⟩ hn
    | error f =>
      obtain ⟨why, rfl⟩ := toJson_error X hj
      refine ⟨why, ?_⟩
      rw [eval_object, members_fail (by rw [hv]; exact hj) [] h]; rfl

/-- **C134.** There is nothing else: every object has all its members, or a first one that fails. -/
theorem C134_complete (X : Ext) (r : Option Registry) (env : Env) (es : List (Str × Expr)) :
    (∃ js, Gives X r env es js) ∨ ∃ before k e after js, es = before ++ (k, e) :: after ∧ Gives X r env before js ∧
      ((∃ f, Eval.eval X e r env = .error f) ∨ ∃ v, Eval.eval X e r env = .ok v ∧ ¬ ∃ j, Shown X v j) := by
  induction es with
  | nil => exact .inl ⟨[], .nil⟩
  | cons m es ih =>
    obtain ⟨k, e⟩ := m
    cases hv : Eval.eval X e r env with
    | error f => exact .inr ⟨[], k, e, es, [], rfl, .nil, .inl ⟨f, hv⟩⟩
    | ok v =>
      by_cases hj : ∃ j, Shown X v j
      · obtain ⟨j, hj⟩ := hj
        rcases ih with ⟨js, h⟩ | ⟨before, k', e', after, js, rfl, h, hf⟩
        · exact .inl ⟨_, .cons hv hj h⟩
        · exact .inr ⟨(k, e) :: before, k', e', after, _, rfl, .cons hv hj h, hf⟩
      · exact .inr ⟨[], k, e, es, [], rfl, .nil, .inr ⟨v, hv, hj⟩⟩

/-- **C134.** If the library reads back the document it wrote, a name that is written is read as the last value written for it (as that value appears in a
document), and any other name fails. -/
theorem C134_member (X : Ext) (r : Option Registry) (env : Env) (es : List (Str × Expr)) (js ms : List (Str × Json)) (h : Gives X r env es js)
    (hd : Document js ms) (hb : ReadsBack X (.obj ms)) (k : Str) :
    (k ∈ es.map Prod.fst → ∃ j v, JsonText.Spec.lastNamed k js = some j ∧ Reads X j v ∧ Eval.eval X (.prop (.object es) k) r env = .ok v) ∧
    (k ∉ es.map Prod.fst → Eval.eval X (.prop (.object es) k) r env = fail "Property '{}' not found in JSON object" [k]) := by
  obtain ⟨ms', hd', he⟩ := C134_object X r env es js h
  obtain rfl := document_unique hd hd'
  have hp : Eval.eval X (.prop (.object es) k) r env = (match JsonText.Spec.lastNamed k js with
      | some j => .ok (j.toValue X)
      | none => fail "Property '{}' not found in JSON object" [k]) := by
    rw [Eval.eval, ← document_get hd k]
    simp only [he, bind, Except.bind, Ops.property, parseJson, show X.jsonParse _ = _ from hb, Json.get]
    cases objGet k ms <;> rfl
  rw [← gives_names h, ← lastNamed_isSome, hp]
  cases hl : JsonText.Spec.lastNamed k js with
  | some j => exact ⟨fun _ => ⟨j, _, rfl, reads_toValue X j, rfl⟩, fun hn => absurd rfl hn⟩
  | none => exact ⟨fun hn => by simp at hn, fun _ => rfl⟩

theorem exec_keys (X : Ext) (r : Option Registry) (env : Env) (s : Str) (ms : List (Str × Json)) (h : X.jsonParse s = .ok (.obj ms)) :
    Method.exec X r env c!"keys" false (.json s) [] = .ok (.arr (ms.map fun m => .str m.1)) := by
  have : Method.exec X r env c!"keys" false (.json s) [] = (parseJson X s >>= fun j => match j with
    | .obj ms => .ok (.arr (ms.map fun m => .str m.1))
    | _ => fail "keys() method requires JSON object") := by kernel_rfl
  rw [this, parseJson, h]; rfl

theorem exec_values (X : Ext) (r : Option Registry) (env : Env) (s : Str) (ms : List (Str × Json)) (h : X.jsonParse s = .ok (.obj ms)) :
    Method.exec X r env c!"values" false (.json s) [] = .ok (.arr (ms.map fun m => m.2.toValue X)) := by
  have : Method.exec X r env c!"values" false (.json s) [] = (parseJson X s >>= fun j => match j with
    | .obj ms => .ok (.arr (ms.map fun m => m.2.toValue X))
    | _ => fail "values() method requires JSON object") := by kernel_rfl
  rw [this, parseJson, h]; rfl

theorem eval_method0 (X : Ext) (r : Option Registry) (env : Env) (name : Str) {e : Expr} {v : Value} (h : Eval.eval X e r env = .ok v) :
    Eval.eval X (.method e name [] false) r env = Method.exec X r env name false v [] := by
  rw [Eval.eval]
  show (Eval.eval X e r env).bind _ = _
  rw [h]; rfl

/-- **C134.** Its `keys()` are the names written, each once, in their alphabetical order, not in the order in which they are written; its `values()` are the
values of these names, in the same order. -/
theorem C134_keys_values (X : Ext) (r : Option Registry) (env : Env) (es : List (Str × Expr)) (js ms : List (Str × Json)) (h : Gives X r env es js)
    (hd : Document js ms) (hb : ReadsBack X (.obj ms)) :
    ∃ (ks : List Str) (vs : List Value), Eval.eval X (.method (.object es) c!"keys" [] false) r env = .ok (.arr (ks.map .str)) ∧
      Eval.eval X (.method (.object es) c!"values" [] false) r env = .ok (.arr vs) ∧
      ks.Pairwise (fun a b => Str.lt a b = true) ∧ (∀ k, k ∈ ks ↔ k ∈ es.map Prod.fst) ∧
      List.Forall₂ (fun k v => Eval.eval X (.prop (.object es) k) r env = .ok v) ks vs := by
  obtain ⟨ms', hd', he⟩ := C134_object X r env es js h
  obtain rfl := document_unique hd hd'
  refine ⟨ms.map Prod.fst, ms.map fun m => m.2.toValue X, ?_, ?_, hd.ordered, fun k => ?_, ?_⟩
  · rw [eval_method0 X r env c!"keys" he, exec_keys X r env _ ms hb, List.map_map]; rfl
  · rw [eval_method0 X r env c!"values" he, exec_values X r env _ ms hb]
  · rw [← gives_names h, ← lastNamed_isSome k js, ← document_get hd, objGet_isSome]
  · rw [List.forall₂_map_left_iff, List.forall₂_map_right_iff, List.forall₂_same]
    rintro ⟨k, j⟩ hm
    have hl := (hd.member k j).1 hm
    obtain ⟨j', v, h1, h2, h3⟩ := (C134_member X r env es js ms h hd hb k).1 (by rw [← gives_names h, ← lastNamed_isSome, hl]; rfl)
    rw [hl] at h1; cases h1
    rw [h3, h2.unique (reads_toValue X j)]

theorem lastNamed_distinct {k : Str} {j : Json} : ∀ {js : List (Str × Json)}, (js.map Prod.fst).Nodup → (JsonText.Spec.lastNamed k js = some j ↔ (k, j) ∈ js)
  | [], _ => by simp [JsonText.Spec.lastNamed]
  | (a, b) :: js, hn => by
    rw [List.map_cons, List.nodup_cons] at hn
    rw [JsonText.lastNamed_cons, List.mem_cons, ← lastNamed_distinct hn.2]
    by_cases h : k = a
    · subst h
      have : JsonText.Spec.lastNamed k js = none := by
        rw [← Option.not_isSome_iff_eq_none, lastNamed_isSome]; exact hn.1
      simp [this, eq_comm]
    · simp [h]

theorem gives_mem {X : Ext} {r : Option Registry} {env : Env} {es : List (Str × Expr)} {js : List (Str × Json)} (h : Gives X r env es js) :
    List.Forall₂ (fun m n => m.1 = n.1 ∧ ∃ v, Eval.eval X m.2 r env = .ok v ∧ Shown X v n.2) es js := by
  induction h with
  | nil => exact .nil
  | cons h1 h2 _ ih => exact .cons ⟨rfl, _, h1, h2⟩ ih

theorem gives_perm {X : Ext} {r : Option Registry} {env : Env} {es es' : List (Str × Expr)} (hp : es.Perm es') :
    ∀ {js : List (Str × Json)}, Gives X r env es js → ∃ js', js.Perm js' ∧ Gives X r env es' js' := by
  induction hp with
  | nil => intro js h; cases h; exact ⟨[], .nil, .nil⟩
  | cons m _ ih =>
    intro js h
    cases h with | cons h1 h2 h3 => ?_
    obtain ⟨js', hp, hg⟩ := ih h3
    exact ⟨_, hp.cons _, .cons h1 h2 hg⟩
  | swap m n l =>
    intro js h
    cases h with | cons h1 h2 h => ?_
    cases h with | cons h3 h4 h5 => ?_
    exact ⟨_, .swap _ _ _, .cons h3 h4 (.cons h1 h2 h5)⟩
  | trans _ _ ih1 ih2 =>
    intro js h
    obtain ⟨js1, p1, g1⟩ := ih1 h
    obtain ⟨js2, p2, g2⟩ := ih2 g1
    exact ⟨js2, p1.trans p2, g2⟩

/-- **C134.** The order in which members with different names are written does not count: the results are equal, to the letter. -/
theorem C134_order (X : Ext) (r : Option Registry) (env : Env) (es es' : List (Str × Expr)) (js : List (Str × Json)) (h : Gives X r env es js)
    (hn : (es.map Prod.fst).Nodup) (hp : es.Perm es') : Eval.eval X (.object es') r env = Eval.eval X (.object es) r env := by
  obtain ⟨js', hp', h'⟩ := gives_perm hp h
  obtain ⟨ms, hd, he⟩ := C134_object X r env es js h
  obtain ⟨ms', hd', he'⟩ := C134_object X r env es' js' h'
  have hm : Document js ms' := by
    refine ⟨hd'.ordered, fun k j => ?_⟩
    rw [hd'.member, lastNamed_distinct (by rw [gives_names h']; exact (hp.map _).nodup_iff.1 hn), lastNamed_distinct (by rw [gives_names h]; exact hn)]
    exact hp'.mem_iff.symm
  rw [he, he', document_unique hd hm]

/-- **C134.** A member is not seen behind a later one of the same name: without it, the result is the same. -/
theorem C134_overwritten (X : Ext) (r : Option Registry) (env : Env) (before after : List (Str × Expr)) (k : Str) (e : Expr) (js : List (Str × Json))
    (h : Gives X r env (before ++ (k, e) :: after) js) (hk : k ∈ after.map Prod.fst) :
    Eval.eval X (.object (before ++ after)) r env = Eval.eval X (.object (before ++ (k, e) :: after)) r env := by
  have split : ∀ (l : List (Str × Expr)) {js : List (Str × Json)}, Gives X r env (l ++ (k, e) :: after) js →
      ∃ l' j as, js = l' ++ (k, j) :: as ∧ Gives X r env (l ++ after) (l' ++ as) ∧ Gives X r env after as := by
    intro l
    induction l with
    | nil =>
      rintro _ (⟨⟩ | ⟨h1, h2, h3⟩)
      exact ⟨[], _, _, rfl, h3, h3⟩
    | cons m l ih =>
      rintro _ (⟨⟩ | ⟨h1, h2, h3⟩)
      obtain ⟨l', j, as, rfl, g1, g2⟩ := ih h3
      exact ⟨_ :: l', j, as, rfl, .cons h1 h2 g1, g2⟩
  obtain ⟨l', j, as, rfl, g1, g2⟩ := split before h
  obtain ⟨ms, hd, he⟩ := C134_object X r env _ _ h
  obtain ⟨ms', hd', he'⟩ := C134_object X r env _ _ g1
  rw [he, he']
  have hl : ∀ (l' : List (Str × Json)) a, JsonText.Spec.lastNamed a (l' ++ (k, j) :: as) = JsonText.Spec.lastNamed a (l' ++ as) := by
    intro l' a
    induction l' with
    | nil =>
      rw [List.nil_append, List.nil_append, JsonText.lastNamed_cons]
      by_cases ha : a = k
      · subst ha
        have := (lastNamed_isSome a as).2 (by rw [gives_names g2]; exact hk)
        cases hl : JsonText.Spec.lastNamed a as with
        | none => rw [hl] at this; cases this
        | some x => rfl
      · simp [ha]
    | cons m l' ih => obtain ⟨b, c⟩ := m; rw [List.cons_append, List.cons_append, JsonText.lastNamed_cons, JsonText.lastNamed_cons, ih]
  rw [document_unique hd ⟨hd'.ordered, fun a b => by rw [hd'.member, hl]⟩]

theorem lastNamed_append (k : Str) (a b : List (Str × Json)) :
    JsonText.Spec.lastNamed k (a ++ b) = (JsonText.Spec.lastNamed k b).or (JsonText.Spec.lastNamed k a) := by
  induction a with
  | nil => simp [JsonText.Spec.lastNamed]
  | cons m a ih => obtain ⟨x, y⟩ := m; rw [List.cons_append, JsonText.lastNamed_cons, JsonText.lastNamed_cons, ih, Option.or_assoc]

/-- **C134.** With the JSON library as it is (C127): in an object whose members are nulls, booleans, finite numbers, texts and arrays of these, nested at most
126 deep, a name is read as exactly the last value written for it. -/
theorem C134_plain (X : Ext) (N : JsonText.Floats) (hu : JsonText.Uses X N) (r : Option Registry) (env : Env) (before after : List (Str × Expr)) (k : Str) (e : Expr)
    (v : Value) (hv : Eval.eval X e r env = .ok v) (hk : k ∉ after.map Prod.fst)
    (h : ∀ m ∈ before ++ (k, e) :: after, ∃ w, Eval.eval X m.2 r env = .ok w ∧ Plain w ∧ (∀ x ∈ JsonText.Spec.numbers w, JsonText.Spec.FloatBack N x) ∧ JsonText.Spec.nesting w ≤ 126) :
    Eval.eval X (.prop (.object (before ++ (k, e) :: after)) k) r env = .ok v := by
  have all : ∀ es : List (Str × Expr), (∀ m ∈ es, ∃ w, Eval.eval X m.2 r env = .ok w ∧ Plain w ∧ (∀ x ∈ JsonText.Spec.numbers w, JsonText.Spec.FloatBack N x) ∧ JsonText.Spec.nesting w ≤ 126) →
      ∃ js, Gives X r env es js ∧ ∀ m ∈ js, JsonText.Spec.Sound N m.2 ∧ JsonText.Spec.depth m.2 ≤ 126 := by
    intro es
    induction es with
    | nil => exact fun _ => ⟨[], .nil, by simp⟩
    | cons m es ih =>
      intro h
      obtain ⟨w, h1, h2, h3, h4⟩ := h m (by simp)
      obtain ⟨js, g1, g2⟩ := ih fun n hn => h n (by simp [hn])
      obtain ⟨j, j1, _, _, _, j5, j6⟩ := JsonText.toJson_sound X N h2 h3
      obtain ⟨k, e⟩ := m
      refine ⟨(k, j) :: js, .cons h1 ((shown_iff X w j).1 j1) g1, ?_⟩
      intro n hn
      rcases List.mem_cons.1 hn with rfl | hn
      · exact ⟨j5, by rw [j6]; exact h4⟩
      · exact g2 n hn
  obtain ⟨jb, gb, sb⟩ := all before fun m hm => h m (by simp [hm])
  obtain ⟨ja, ga, sa⟩ := all after fun m hm => h m (by simp [hm])
  obtain ⟨w, h1, h2, h3, h4⟩ := h (k, e) (by simp)
  rw [hv] at h1; cases h1
  obtain ⟨j, j1, _, _, j4, j5, j6⟩ := JsonText.toJson_sound X N h2 h3
  have join : ∀ {es es' : List (Str × Expr)} {js js'}, Gives X r env es js → Gives X r env es' js' → Gives X r env (es ++ es') (js ++ js') := by
    intro es es' js js' g g'
    induction g with
    | nil => exact g'
    | cons a b _ ih => exact .cons a b ih
  have g := join gb (.cons (k := k) hv ((shown_iff X v j).1 j1) ga)
  have hl : JsonText.Spec.lastNamed k (jb ++ (k, j) :: ja) = some j := by
    have : JsonText.Spec.lastNamed k ja = none := by
      rw [← Option.not_isSome_iff_eq_none, lastNamed_isSome, gives_names ga]; exact hk
    rw [lastNamed_append, JsonText.lastNamed_cons, this]; simp
  obtain ⟨ms, hd, he⟩ := C134_object X r env _ _ g
  have hs : ∀ m ∈ ms, JsonText.Spec.Sound N m.2 ∧ JsonText.Spec.depth m.2 ≤ 126 := by
    rintro ⟨a, b⟩ hm
    have := JsonText.lastNamed_mem ((hd.member a b).1 hm)
    rcases List.mem_append.1 this with hm | hm
    · exact sb _ hm
    rcases List.mem_cons.1 hm with hm | hm
    · cases hm; exact ⟨j5, by rw [j6]; exact h4⟩
    · exact sa _ hm
  have hb : ReadsBack X (.obj ms) := by
    refine JsonText.readsBack_of hu ((JsonText.C127_round_trip N _ (.obj (JsonText.soundMembers_of fun m hm => (hs m hm).1) hd.ordered)).1 ?_)
    have := JsonText.depthMembers_le.2 fun m hm => (hs m hm).2
    rw [JsonText.Spec.depth]; omega
  obtain ⟨j', v', e1, e2, e3⟩ := (C134_member X r env _ _ ms g hd hb k).1 (by simp)
  rw [hl] at e1; cases e1
  rw [e3, e2.unique (reads_toValue X j), j4]

/-! ### Cases -/

/-- `{"name": :n, "age": :n}.keys()`: the reference says `["name", "age"]`. -/
theorem C134_written_order_wrong (X : Ext) (N : JsonText.Floats) (hu : JsonText.Uses X N) (env : Env) (s : Str) (b : Bool)
    (h1 : env c!"n" = some (.str s)) (h2 : env c!"b" = some (.bool b)) :
    evaluateWith X c!"{\"name\": :n, \"age\": :b}.keys()" env = .ok (.arr [.str c!"age", .str c!"name"]) := by
  have hp : parse c!"{\"name\": :n, \"age\": :b}.keys()" = .ok (.method (.object [(c!"name", .var c!"n"), (c!"age", .var c!"b")]) c!"keys" [] false) := by kernel_rfl
  have hv : ∀ x v, env x = some v → Eval.eval X (.var x) none env = .ok v := fun x v h => by rw [Eval.eval]; simp only [h]
  have g : Gives X none env [(c!"name", .var c!"n"), (c!"age", .var c!"b")] [(c!"name", .str s), (c!"age", .bool b)] :=
    .cons (hv _ _ h1) (.str s) (.cons (hv _ _ h2) (.bool b) .nil)
  have he : Eval.eval X (.object [(c!"name", .var c!"n"), (c!"age", .var c!"b")]) none env =
      .ok (.json (X.jsonPrint (.obj [(c!"age", .bool b), (c!"name", .str s)]))) := by
    rw [eval_object, members_of [] g]; rfl
  have hb : ReadsBack X (.obj [(c!"age", .bool b), (c!"name", .str s)]) :=
    JsonText.readsBack_of hu ((JsonText.C127_round_trip N _ (.obj (.cons (.bool b) (.cons (.str s) .nil)) (by simp only [List.map_cons, List.map_nil]; decide))).1 (by simp [JsonText.Spec.depth, JsonText.Spec.depthMembers]))
  simp only [evaluateWith, hp, bind, Except.bind, evalVars]
  rw [eval_method0 X none env c!"keys" he, exec_keys X none env _ _ hb]; rfl

/-- The hypotheses of `C134_object`, `C134_fails`, `C134_order` and `C134_overwritten` with members of several kinds. -/
example (X : Ext) (env : Env) : Gives X none env
    [(c!"b", .array [.number (F64.ofNat 1), .null]), (c!"a", .strLit c!"x"), (c!"b", .cast (.number (F64.ofNat 2)) .currency)]
    [(c!"b", .arr [.num (.float (F64.ofNat 1)), .null]), (c!"a", .str c!"x"), (c!"b", .num (.float (F64.ofNat 2)))] :=
  .cons (v := .arr [.num (F64.ofNat 1), .null]) rfl (.arr (.cons (.num (by decide +kernel)) (.cons .null .nil))) (.cons rfl (.str _) (.cons (v := .cur (F64.ofNat 2)) rfl (.cur (by decide +kernel)) .nil))

/-- Its document. -/
example : Document [(c!"b", .null), (c!"a", .str c!"x"), (c!"b", .bool true)] [(c!"a", .str c!"x"), (c!"b", .bool true)] :=
  document_put [(c!"b", .null), (c!"a", .str c!"x"), (c!"b", .bool true)]

/-- A value with no form in a document: a text that is called a document and is none. -/
example : ¬ ∃ j, Shown JsonText.halvesExt (.json c!"{") j := by
  rintro ⟨j, h⟩
  have := (shown_iff _ _ _).2 h
  revert this
  rw [show Value.toJson JsonText.halvesExt (.json c!"{") = fail "Invalid JSON: {}" [c!"not JSON"] by kernel_rfl]
  intro h; cases h

/-- `C134_plain` with a name that is written twice. -/
example (env : Env) : Eval.eval JsonText.halvesExt (.prop (.object ([(c!"a", .null)] ++ (c!"a", .array [.number (.fin (1 / 2))]) :: [(c!"b", .strLit c!"x")])) c!"a") none env =
    .ok (.arr [.num (.fin (1 / 2))]) := by
  refine C134_plain _ _ JsonText.halvesExt_uses none env _ _ _ _ _ rfl (by simp) ?_
  intro m hm
  simp only [List.cons_append, List.nil_append, List.mem_cons, List.not_mem_nil, or_false] at hm
  rcases hm with rfl | rfl | rfl
  · exact ⟨.null, rfl, .null, by simp [JsonText.Spec.numbers], by simp [JsonText.Spec.nesting]⟩
  · refine ⟨JsonText.nest 1, rfl, (JsonText.nest_plain 1).1, ?_, by rw [(JsonText.nest_plain 1).2.2]; omega⟩
    rw [(JsonText.nest_plain 1).2.1]
    simpa using JsonText.half_back
  · exact ⟨.str c!"x", rfl, .str _, by simp [JsonText.Spec.numbers], by simp [JsonText.Spec.nesting]⟩

end ObjectLiterals
