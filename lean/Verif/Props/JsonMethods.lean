import Verif.Props.JsonDocs
/-! C80: the keys, values and members of a JSON document. -/

open Lib

namespace Spec

/-- The value of `:r.k`. -/
def member (X : Ext) (recv : Value) (k : Str) : Res Value := evalVars X (.prop (.var c!"r") k) (Env.empty.insert c!"r" recv)

end Spec

open Spec

theorem keys_eq (X : Ext) (s : Str) : meth0 X (.json s) c!"keys" = (match X.jsonParse s with
    | .ok (.obj ms) => .ok (.arr (ms.map fun m => .str m.1))
    | .ok _ => fail "keys() method requires JSON object"
    | .error e => fail "Invalid JSON: {}" [e]) := by
  have h : meth0 X (.json s) c!"keys" = (parseJson X s >>= fun j => match j with
    | .obj ms => .ok (.arr (ms.map fun m => .str m.1))
    | _ => fail "keys() method requires JSON object") := by kernel_rfl
  rw [h, parseJson]
  cases X.jsonParse s with
  | error e => rfl
  | ok j => cases j <;> rfl

theorem json_values_eq (X : Ext) (s : Str) : meth0 X (.json s) c!"values" = (match X.jsonParse s with
    | .ok (.obj ms) => .ok (.arr (ms.map fun m => m.2.toValue X))
    | .ok _ => fail "values() method requires JSON object"
    | .error e => fail "Invalid JSON: {}" [e]) := by
  have h : meth0 X (.json s) c!"values" = (parseJson X s >>= fun j => match j with
    | .obj ms => .ok (.arr (ms.map fun m => m.2.toValue X))
    | _ => fail "values() method requires JSON object") := by kernel_rfl
  rw [h, parseJson]
  cases X.jsonParse s with
  | error e => rfl
  | ok j => cases j <;> rfl

theorem has_key_eq (X : Ext) (s k : Str) (name : Str) (hn : name = c!"has_key" ∨ name = c!"has") :
    meth1 X (.json s) name (.str k) = (match X.jsonParse s with
    | .ok (.obj ms) => .ok (.bool (objGet k ms).isSome)
    | .ok _ => .ok (.bool false)
    | .error e => fail "Invalid JSON: {}" [e]) := by
  have h : ∀ name, name = c!"has_key" ∨ name = c!"has" → meth1 X (.json s) name (.str k) = (parseJson X s >>= fun j => match j with
    | .obj ms => .ok (.bool (objGet k ms).isSome)
    | _ => .ok (.bool false)) := by
    rintro name (rfl | rfl) <;> kernel_rfl
  rw [h name hn, parseJson]
  cases X.jsonParse s with
  | error e => rfl
  | ok j => cases j <;> rfl

theorem member_eq (X : Ext) (s k : Str) : member X (.json s) k = (match X.jsonParse s with
    | .ok j => (match j.get k with | some p => .ok (p.toValue X) | none => fail "Property '{}' not found in JSON object" [k])
    | .error e => fail "Invalid JSON: {}" [e]) := by
  have h : member X (.json s) k = (parseJson X s >>= fun j => match j.get k with
    | some p => .ok (p.toValue X)
    | none => fail "Property '{}' not found in JSON object" [k]) := by
    simp only [member, evalVars, Eval.eval]; rfl
  rw [h, parseJson]
  cases X.jsonParse s with
  | error e => rfl
  | ok j => rfl

theorem objGet_isSome (k : Str) (ms : List (Str × Json)) : (objGet k ms).isSome = true ↔ k ∈ ms.map Prod.fst := by
  induction ms with
  | nil => simp [objGet]
  | cons m ms ih =>
    obtain ⟨k', j⟩ := m
    rw [objGet]
    split
    · rename_i h; simp [h]
    · rename_i h; rw [ih]; simp [h]

theorem objGet_getElem (ms : List (Str × Json)) (hn : (ms.map Prod.fst).Nodup) (i : ℕ) (m : Str × Json) (h : ms[i]? = some m) :
    objGet m.1 ms = some m.2 := by
  induction ms generalizing i with
  | nil => simp at h
  | cons a ms ih =>
    obtain ⟨k', j⟩ := a
    rw [List.map_cons, List.nodup_cons] at hn
    cases i with
    | zero => simp at h; subst h; simp [objGet]
    | succ i =>
      simp at h
      have hm : m.1 ∈ ms.map Prod.fst := List.mem_map_of_mem (List.mem_of_getElem? h)
      rw [objGet, if_neg (by rintro rfl; exact hn.1 hm)]
      exact ih hn.2 i h

/-- `keys()` and `values()` of an object list the same members in the same order: the value at a position is what the key at that
position reads, by `.key` and by `DIG`. (The keys of a parsed object are distinct: it is a map.) -/
theorem C80_keys_values (X : Ext) (s : Str) (ms : List (Str × Json)) (h : X.jsonParse s = .ok (.obj ms)) (hn : (ms.map Prod.fst).Nodup) :
    ∃ (ks : List Str) (vs : List Value), meth0 X (.json s) c!"keys" = .ok (.arr (ks.map .str)) ∧ meth0 X (.json s) c!"values" = .ok (.arr vs) ∧
      ks = ms.map Prod.fst ∧ ks.length = vs.length ∧
      ∀ (i : ℕ) (k : Str) (v : Value), ks[i]? = some k → vs[i]? = some v → member X (.json s) k = .ok v ∧ fn X c!"DIG" [.json s, .arr [.str k]] = .ok v := by
  refine ⟨ms.map Prod.fst, ms.map fun m => m.2.toValue X, by rw [keys_eq, h]; simp, by rw [json_values_eq, h], rfl, by simp, ?_⟩
  intro i k v hk hv
  rw [List.getElem?_map, Option.map_eq_some_iff] at hk hv
  obtain ⟨m, hm, rfl⟩ := hk
  obtain ⟨m', hm', rfl⟩ := hv
  rw [hm, Option.some.injEq] at hm'; subst hm'
  have := objGet_getElem ms hn i m hm
  constructor
  · rw [member_eq, h]; simp only [Json.get]; rw [this]
  · rw [fn_dig]; simp [JsonFn.dig, argAt, h, JsonFn.digPath, JsonFn.digStep, this]

/-- `has_key(k)` and `has(k)` of an object hold exactly of its keys, and exactly when `.k` does not fail. -/
theorem C80_has_key (X : Ext) (s k : Str) (ms : List (Str × Json)) (h : X.jsonParse s = .ok (.obj ms)) :
    ∃ b, meth1 X (.json s) c!"has_key" (.str k) = .ok (.bool b) ∧ meth1 X (.json s) c!"has" (.str k) = .ok (.bool b) ∧
      (b = true ↔ k ∈ ms.map Prod.fst) ∧ (b = true ↔ ∃ v, member X (.json s) k = .ok v) := by
  refine ⟨(objGet k ms).isSome, by rw [has_key_eq X s k _ (.inl rfl), h], by rw [has_key_eq X s k _ (.inr rfl), h], objGet_isSome k ms, ?_⟩
  rw [member_eq, h]
  simp only [Json.get]
  cases objGet k ms <;> simp [fail]

/-- A document that is no object has no keys: `keys()`, `values()` and `.k` fail and `has_key` is false. A text that is no document
makes all of them fail. -/
theorem C80_others (X : Ext) (s k : Str) :
    (∀ j, X.jsonParse s = .ok j → (∀ ms, j ≠ .obj ms) →
      meth0 X (.json s) c!"keys" = fail "keys() method requires JSON object" ∧ meth0 X (.json s) c!"values" = fail "values() method requires JSON object" ∧
      meth1 X (.json s) c!"has_key" (.str k) = .ok (.bool false) ∧ member X (.json s) k = fail "Property '{}' not found in JSON object" [k]) ∧
    ∀ e, X.jsonParse s = .error e → ∀ r ∈ [meth0 X (.json s) c!"keys", meth0 X (.json s) c!"values", meth1 X (.json s) c!"has_key" (.str k), member X (.json s) k],
      r = fail "Invalid JSON: {}" [e] := by
  rw [keys_eq, json_values_eq, has_key_eq X s k _ (.inl rfl), member_eq]
  constructor
  · intro j hj hne
    rw [hj]
    cases j <;> first | exact ⟨rfl, rfl, rfl, rfl⟩ | exact absurd rfl (hne _)
  · intro e he r hr
    rw [he] at hr
    simpa using hr

example : ∃ s ms, sampleExt.jsonParse s = .ok (.obj ms) ∧ (ms.map Prod.fst).Nodup ∧ ms ≠ [] :=
  ⟨c!"B", [(c!"x", .num (.int 7))], rfl, by simp, by simp⟩
