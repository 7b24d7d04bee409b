import Verif.Model.JsValues
import Verif.Base.KernelRfl
import Mathlib.Data.Rat.Defs
/-! C90: values passed to and from JavaScript functions. -/

open Js

namespace Js.Spec

/-- Values that JavaScript has too: numbers, texts, booleans, null and arrays of these. -/
inductive Plain : Value → Prop
  | num (n : F64) : Plain (.num n)
  | str (s : Str) : Plain (.str s)
  | bool (b : Bool) : Plain (.bool b)
  | null : Plain .null
  | arr {vs : List Value} : (∀ v ∈ vs, Plain v) → Plain (.arr vs)

/-- Contains a part with the property, at any depth. -/
inductive Within (P : Value → Prop) : Value → Prop
  | here {v : Value} : P v → Within P v
  | inside {vs : List Value} {v : Value} : v ∈ vs → Within P v → Within P (.arr vs)

/-- `function execute(args) { return args[i] }`; a missing element is `undefined`. -/
def argument (i : Nat) : List Val → Except Str Val := fun args => .ok (args[i]?.getD .undefined)

/-- `function execute(args) { return args }`. -/
def allArguments : List Val → Except Str Val := fun args => .ok (.arr args)

/-- What a JavaScript value means to the caller: objects are documents with the text of `JSON.stringify`, arrays are arrays of what their elements mean. -/
inductive Means : Val → Value → Prop
  | undefined : Means .undefined .null
  | null : Means .null .null
  | bool (b : Bool) : Means (.bool b) (.bool b)
  | num (n : F64) : Means (.num n) (.num n)
  | str (s : Str) : Means (.str (some s)) (.str s)
  | arr {vs : List Val} {rs : List Value} : vs.length = rs.length → (∀ (i : Nat) v r, vs[i]? = some v → rs[i]? = some r → Means v r) → Means (.arr vs) (.arr rs)
  | obj (s : Str) : Means (.obj (.ok (some s))) (.json s)

end Js.Spec

namespace Js
open Js.Spec

theorem round_trip (v : Value) (h : Plain v) : toValue (ofValue v) = .ok v := by
  induction h with
  | num | str | bool | null => rfl
  | @arr vs hs ih =>
    have : toValues (ofValues vs) = .ok vs := by
      induction vs with
      | nil => rfl
      | cons v vs ihv =>
        rw [ofValues, toValues, ih v List.mem_cons_self, ihv (fun w hw => hs w (List.mem_cons_of_mem _ hw)) (fun w hw => ih w (List.mem_cons_of_mem _ hw))]
        rfl
    rw [ofValue, toValue, this]
    rfl

theorem ofValues_get : ∀ (vs : List Value) (i : Nat), (ofValues vs)[i]? = vs[i]?.map ofValue
  | [], i => by simp [ofValues]
  | v :: vs, 0 => by simp [ofValues]
  | v :: vs, i + 1 => by simp [ofValues, ofValues_get vs i]

/-- **C90.** A function that returns one of its arguments gives back the value it was called with, nested arrays included; a missing argument is null. -/
theorem C90_identity_partial (i : Nat) (args : List Value) (h : ∀ v ∈ args[i]?, Plain v) :
    execute (argument i) args = .ok (args[i]?.getD .null) := by
  unfold execute argument
  simp only [ofValues_get]
  cases ha : args[i]? with
  | none => rfl
  | some v => exact round_trip v (h v (by rw [ha]; rfl))

/-- **C90.** All arguments arrive, in order. -/
theorem C90_arguments_partial (args : List Value) (h : ∀ v ∈ args, Plain v) : execute allArguments args = .ok (.arr args) := by
  have := round_trip (.arr args) (.arr h)
  rwa [ofValue] at this

/-- The function cannot tell amounts and dates from numbers, and documents from texts: it is called with the same arguments. -/
theorem C90_types_lost (code : List Val → Except Str Val) (before after : List Value) (n : F64) (t : ℤ) (s : Str) :
    execute code (before ++ .cur n :: after) = execute code (before ++ .num n :: after) ∧
    execute code (before ++ .dt t :: after) = execute code (before ++ .num (F64.ofInt t) :: after) ∧
    execute code (before ++ .json s :: after) = execute code (before ++ .str s :: after) := by
  have app : ∀ (v : Value), ofValues (before ++ v :: after) = ofValues before ++ ofValue v :: ofValues after := by
    intro v
    induction before with
    | nil => rfl
    | cons b bs ih => simp only [List.cons_append, ofValues, ih]
  unfold execute
  simp only [app, ofValue, and_self]

mutual
theorem no_amounts (v : Val) (r : Value) (h : toValue v = .ok r) : ¬ Within (fun v => (∃ n, v = .cur n) ∨ ∃ t, v = .dt t) r := by
  cases v with
  | arr items =>
    rw [toValue] at h
    cases hi : toValues items with
    | error f => rw [hi] at h; cases h
    | ok vs =>
      rw [hi] at h
      cases h
      intro hw
      cases hw with
      | here h => rcases h with ⟨n, h⟩ | ⟨t, h⟩ <;> cases h
      | inside hm hw => exact no_amounts_all items vs hi _ hm hw
  | undefined | null | bool b | num n =>
    rw [toValue] at h; cases h
    intro hw
    cases hw with
    | here h => rcases h with ⟨n, h⟩ | ⟨t, h⟩ <;> cases h
  | str s =>
    cases s <;> rw [toValue] at h <;> cases h
    intro hw
    cases hw with
    | here h => rcases h with ⟨n, h⟩ | ⟨t, h⟩ <;> cases h
  | other s =>
    cases s <;> rw [toValue] at h <;> cases h
    all_goals
      intro hw
      cases hw with
      | here h => rcases h with ⟨n, h⟩ | ⟨t, h⟩ <;> cases h
  | obj j =>
    rcases j with e | (_ | s) <;> rw [toValue] at h <;> cases h
    all_goals
      intro hw
      cases hw with
      | here h => rcases h with ⟨n, h⟩ | ⟨t, h⟩ <;> cases h
theorem no_amounts_all (items : List Val) (vs : List Value) (h : toValues items = .ok vs) : ∀ v ∈ vs, ¬ Within (fun v => (∃ n, v = .cur n) ∨ ∃ t, v = .dt t) v := by
  cases items with
  | nil => cases h; simp
  | cons i is =>
    rw [toValues] at h
    cases h1 : toValue i with
    | error f => rw [h1] at h; cases h
    | ok v =>
      cases h2 : toValues is with
      | error f => rw [h1, h2] at h; cases h
      | ok ws =>
        rw [h1, h2] at h
        cases h
        intro w hw
        rcases List.mem_cons.1 hw with rfl | hw
        · exact no_amounts i _ h1
        · exact no_amounts_all is ws h2 w hw
end

mutual
theorem no_panic (v : Val) (w : String) : toValue v ≠ panics w := by
  intro h
  cases v with
  | arr items =>
    rw [toValue] at h
    cases hi : toValues items with
    | error f =>
      rw [hi] at h
      cases h
      exact no_panic_all items w hi
    | ok vs => rw [hi] at h; cases h
  | undefined | null | bool b | num n => rw [toValue] at h; cases h
  | str s => cases s <;> rw [toValue] at h <;> cases h
  | other s => cases s <;> rw [toValue] at h <;> cases h
  | obj j => rcases j with e | (_ | s) <;> rw [toValue] at h <;> cases h
theorem no_panic_all (items : List Val) (w : String) : toValues items ≠ panics w := by
  intro h
  cases items with
  | nil => cases h
  | cons i is =>
    rw [toValues] at h
    cases h1 : toValue i with
    | error f => rw [h1] at h; cases h; exact no_panic i w h1
    | ok v =>
      cases h2 : toValues is with
      | error f => rw [h1, h2] at h; cases h; exact no_panic_all is w h2
      | ok ws => rw [h1, h2] at h; cases h
end

/-- **C90.** Whatever the program does, the result contains no amount and no date, and it never panics. -/
theorem C90_results (code : List Val → Except Str Val) (args : List Value) :
    (∀ r, execute code args = .ok r → ¬ Within (fun v => (∃ n, v = .cur n) ∨ ∃ t, v = .dt t) r) ∧ ∀ w, execute code args ≠ panics w := by
  constructor
  · intro r h
    unfold execute at h
    split at h
    · exact no_amounts _ _ h
    · cases h
  · intro w h
    unfold execute at h
    split at h
    · exact no_panic _ w h
    · cases h

theorem toValues_of (vs : List Val) (rs : List Value) (hl : vs.length = rs.length)
    (h : ∀ (i : Nat) v r, vs[i]? = some v → rs[i]? = some r → toValue v = .ok r) : toValues vs = .ok rs := by
  induction vs generalizing rs with
  | nil => cases rs with
    | nil => rfl
    | cons r rs => simp at hl
  | cons v vs ih => cases rs with
    | nil => simp at hl
    | cons r rs =>
      rw [toValues, h 0 v r rfl rfl, ih rs (by simpa using hl) fun i v r hv hr => h (i + 1) v r hv hr]
      rfl

theorem toValue_means {v : Val} {r : Value} (h : Means v r) : toValue v = .ok r := by
  induction h with
  | undefined | null | bool | num | str | obj => rfl
  | arr hl _ ih => rw [toValue, toValues_of _ _ hl ih]; rfl

/-- **C90.** What the function returns is the result of the call; what it throws is an error with that text. -/
theorem C90_returned (code : List Val → Except Str Val) (args : List Value) :
    (∀ v r, code (ofValues args) = .ok v → Means v r → execute code args = .ok r) ∧
    (∀ e, code (ofValues args) = .error e → ∃ m, execute code args = fail m [e]) := by
  refine ⟨fun v r hv hm => ?_, fun e he => ⟨"JS function execution failed: {}", ?_⟩⟩
  · unfold execute; rw [hv]; exact toValue_means hm
  · unfold execute; rw [he]

example : execute (fun a => .ok (.arr [.num (.fin 1), .arr a, .obj (.ok (some c!"{\"a\":1}")), .undefined])) [.bool true] =
    .ok (.arr [.num (.fin 1), .arr [.bool true], .json c!"{\"a\":1}", .null]) := rfl

/-- So an amount, a date or a document passed through a function does not come back. -/
theorem C90_identity_fails : execute (argument 0) [.cur (.fin 5)] = .ok (.num (.fin 5)) ∧ execute (argument 0) [.dt 0] = .ok (.num (.zero false)) ∧
    execute (argument 0) [.json c!"{}"] = .ok (.str c!"{}") := ⟨rfl, by kernel_rfl, rfl⟩

example : Plain (.arr [.num (.fin 1), .arr [.str c!"a", .null]]) := by
  refine .arr fun v hv => ?_
  simp only [List.mem_cons, List.not_mem_nil, or_false] at hv
  rcases hv with rfl | rfl
  · exact .num _
  · refine .arr fun v hv => ?_
    simp only [List.mem_cons, List.not_mem_nil, or_false] at hv
    rcases hv with rfl | rfl
    · exact .str _
    · exact .null

end Js
