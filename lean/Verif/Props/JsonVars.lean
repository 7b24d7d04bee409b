import Verif.Props.Syntax
import Verif.Props.JsonDocs
/-! C44: variables from a JSON document. -/

open Lib

namespace Spec

/-- The name a key is bound to: what is neither a letter nor a digit (of any script) becomes an underscore. -/
def CleanName (X : Ext) (key name : Str) : Prop :=
  List.Forall₂ (fun k n => (X.isAlnum k = true ∧ n = k) ∨ (X.isAlnum k = false ∧ n = '_')) key name

/-- A name that can be written as a variable: it starts with an ASCII letter or an underscore, goes on with these and digits, and is not one of the
words `true`, `false`, `null`. -/
def VarName (s : Str) : Prop := IsName s ∧ ¬ SameWord s c!"true" ∧ ¬ SameWord s c!"false" ∧ ¬ SameWord s c!"null"

end Spec

open Spec

theorem cleanName_iff (X : Ext) (key name : Str) : CleanName X key name ↔ sanitize X key = name := by
  unfold CleanName sanitize
  constructor
  · intro h
    induction h with
    | nil => rfl
    | cons hd _ ih =>
      rw [List.map_cons, ih]
      congr 1
      rcases hd with ⟨h1, h2⟩ | ⟨h1, h2⟩
      · simp [h1, h2]
      · rw [h1, h2]
        split
        · rename_i h; simpa using h
        · rfl
  · rintro rfl
    induction key with
    | nil => exact .nil
    | cons c cs ih =>
      refine .cons ?_ ih
      cases h : X.isAlnum c
      · right
        refine ⟨rfl, ?_⟩
        simp only [h, Bool.false_or]
        split
        · rename_i h; simpa using h
        · rfl
      · left; simp [h]

theorem bindMembers_get (X : Ext) (ms : List (Str × Json)) : ∀ (env : Env) (n : Str),
    bindMembers X ms env n = match (ms.reverse.find? fun m => sanitize X m.1 = n) with
      | some m => some (Json.toValue X m.2)
      | none => env n := by
  induction ms with
  | nil => intro env n; rfl
  | cons m ms ih =>
    intro env n
    obtain ⟨k, j⟩ := m
    rw [bindMembers, ih, List.reverse_cons, List.find?_append]
    cases h : ms.reverse.find? fun m => decide (sanitize X m.1 = n) with
    | some m => rfl
    | none =>
      simp only [Option.none_or, List.find?_cons, List.find?_nil, Env.insert]
      by_cases hn : sanitize X k = n
      · simp [hn]
      · have : ¬ n = sanitize X k := fun h => hn h.symm
        simp [hn, this]

/-- **C44.** It is not so that every key can be told from the others and read: two keys that differ in their special characters share one variable and
the earlier value is lost, a member called `arguments` hides the document, a key starting with a digit cannot be written as a variable, nor can `null`. -/
theorem C44_wrong (X : Ext) (t1 t2 t3 t4 : Str)
    (h1 : X.jsonParse t1 = .ok (.obj [(c!"a b", .bool true), (c!"a-b", .bool false)]))
    (h2 : X.jsonParse t2 = .ok (.obj [(c!"arguments", .bool true)]))
    (h3 : X.jsonParse t3 = .ok (.obj [(c!"1a", .bool true)]))
    (h4 : X.jsonParse t4 = .ok (.obj [(c!"null", .bool true)])) :
    (∀ input, evaluateWithJson X input t1 = evaluateWith X input ((Env.empty.insert c!"arguments" (.json t1)).insert c!"a_b" (.bool false))) ∧
    evaluateWithJson X c!":arguments" t2 = .ok (.bool true) ∧
    (∃ m, evaluateWithJson X c!":1a" t3 = .error m) ∧
    (∃ m, evaluateWithJson X c!":null" t4 = .error m) := by
  refine ⟨?_, ?_, ?_, ?_⟩
  · intro input
    unfold evaluateWithJson jsonVars parseJson
    rw [h1]
    change evaluateWith X input _ = _
    congr 1
    funext n
    rw [bindMembers_get]
    have e1 : sanitize X c!"a b" = c!"a_b" := rfl
    have e2 : sanitize X c!"a-b" = c!"a_b" := rfl
    simp only [List.reverse_cons, List.reverse_nil, List.nil_append, List.cons_append, List.find?_cons, List.find?_nil, e1, e2, Env.insert]
    by_cases hn : c!"a_b" = n
    · subst hn; simp [Json.toValue]
    · have : ¬ n = c!"a_b" := fun h => hn h.symm
      simp [hn, this]
  · unfold evaluateWithJson jsonVars parseJson
    rw [h2]
    kernel_rfl
  · unfold evaluateWithJson jsonVars parseJson
    rw [h3]
    refine ⟨.err "Expected variable name after ':'" [] (some 1), ?_⟩
    have hp : parse c!":1a" = .error (.err "Expected variable name after ':'" [] (some 1)) := by kernel_rfl
    change evaluateWith X c!":1a" (bindMembers X [(c!"1a", .bool true)] (Env.empty.insert c!"arguments" (.json t3))) = _
    unfold evaluateWith
    rw [hp]; rfl
  · unfold evaluateWithJson jsonVars parseJson
    rw [h4]
    refine ⟨.err "Expected variable name after ':'" [] (some 1), ?_⟩
    have hp : parse c!":null" = .error (.err "Expected variable name after ':'" [] (some 1)) := by kernel_rfl
    change evaluateWith X c!":null" (bindMembers X [(c!"null", .bool true)] (Env.empty.insert c!"arguments" (.json t4))) = _
    unfold evaluateWith
    rw [hp]; rfl

/-- **C44 (partial).** The document is an object whose keys have different clean names, none of them `arguments`. Then each member is bound to the clean
name of its key, `arguments` to the document, and no other name is bound. -/
theorem C44_bindings_partial (X : Ext) (text : Str) (ms : List (Str × Json)) (hp : X.jsonParse text = .ok (.obj ms))
    (hd : ∀ m ∈ ms, ∀ m' ∈ ms, ∀ n, CleanName X m.1 n → CleanName X m'.1 n → m = m') (ha : ∀ m ∈ ms, ¬ CleanName X m.1 c!"arguments") :
    ∃ env : Env, (∀ input, evaluateWithJson X input text = evaluateWith X input env) ∧
      (∀ k j, (k, j) ∈ ms → ∀ n, CleanName X k n → env n = some (Json.toValue X j)) ∧
      env c!"arguments" = some (.json text) ∧
      ∀ n, n ≠ c!"arguments" → (∀ m ∈ ms, ¬ CleanName X m.1 n) → env n = none := by
  refine ⟨bindMembers X ms (Env.empty.insert c!"arguments" (.json text)), ?_, ?_, ?_, ?_⟩
  · intro input
    unfold evaluateWithJson jsonVars parseJson
    rw [hp]; rfl
  · intro k j hm n hn
    rw [bindMembers_get]
    cases hf : ms.reverse.find? fun m => decide (sanitize X m.1 = n) with
    | none =>
      have := List.find?_eq_none.1 hf (k, j) (List.mem_reverse.2 hm)
      simp [(cleanName_iff X k n).1 hn] at this
    | some m =>
      have h1 := List.mem_reverse.1 (List.mem_of_find?_eq_some hf)
      have h2 := List.find?_some hf
      have := hd _ h1 _ hm n ((cleanName_iff X _ n).2 (by simpa using h2)) hn
      subst this; rfl
  · rw [bindMembers_get]
    rw [List.find?_eq_none.2]
    · rfl
    · intro m hm h
      exact ha m (List.mem_reverse.1 hm) ((cleanName_iff X _ _).2 (by simpa using h))
  · intro n hn hno
    rw [bindMembers_get, List.find?_eq_none.2]
    · simp [Env.insert, Env.empty, hn]
    · intro m hm h
      exact hno m (List.mem_reverse.1 hm) ((cleanName_iff X _ _).2 (by simpa using h))

/-- **C44 (partial).** So every key whose clean name can be written as a variable is read by `:name`. -/
theorem C44_read_partial (X : Ext) (text : Str) (ms : List (Str × Json)) (hp : X.jsonParse text = .ok (.obj ms))
    (hd : ∀ m ∈ ms, ∀ m' ∈ ms, ∀ n, CleanName X m.1 n → CleanName X m'.1 n → m = m') (ha : ∀ m ∈ ms, ¬ CleanName X m.1 c!"arguments")
    (k : Str) (j : Json) (hm : (k, j) ∈ ms) (n : Str) (hn : CleanName X k n) (hv : VarName n) :
    evaluateWithJson X (':' :: n) text = .ok (Json.toValue X j) ∧ evaluateWithJson X c!":arguments" text = .ok (.json text) := by
  obtain ⟨env, h1, h2, h3, _⟩ := C44_bindings_partial X text ms hp hd ha
  rw [h1, h1]
  refine ⟨(C08_variables_case_sensitive X n env hv.1 hv.2.1 hv.2.2.1 hv.2.2.2).2 _ (h2 k j hm n hn), ?_⟩
  have hx : VarName c!"arguments" := by
    refine ⟨⟨'a', c!"rguments", rfl, ?_, ?_⟩, ?_, ?_, ?_⟩ <;> simp [nameStart, nameChar, SameWord]
  exact (C08_variables_case_sensitive X _ env hx.1 hx.2.1 hx.2.2.1 hx.2.2.2).2 _ h3

/-- A document with the key `first-name`. -/
example (X : Ext) : CleanName X c!"first-name" c!"first_name" ∧ VarName c!"first_name" := by
  refine ⟨(cleanName_iff _ _ _).2 rfl, ⟨'f', c!"irst_name", rfl, ?_, ?_⟩, ?_, ?_, ?_⟩ <;> simp [nameStart, nameChar, SameWord]

example : ∃ X : Ext, X.jsonParse c!"A" = .ok sampleDoc := ⟨sampleExt, rfl⟩
