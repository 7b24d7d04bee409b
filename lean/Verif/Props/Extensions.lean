import Verif.Model.Extensions
import Verif.Model.Registry
import Mathlib.Data.List.Induction
/-! C96: the registry of extensions. -/

namespace Extensions

/-! ### Specification -/
namespace Spec

def functionOf : Op → Option Function | .function f => some f | _ => none
def converterOf : Op → Option Converter | .converter c => some c | _ => none
def handlerOf : Op → Option Handler | .handler h => some h | _ => none
def sourceOf : Op → Option Source | .source s => some s | _ => none

/-- The last element with a property. -/
def IsLast {α : Type} (p : α → Prop) (l : List α) (a : α) : Prop := ∃ before after, l = before ++ a :: after ∧ p a ∧ ∀ b ∈ after, ¬ p b
/-- The first element with a property. -/
def IsFirst {α : Type} (p : α → Prop) (l : List α) (a : α) : Prop := ∃ before after, l = before ++ a :: after ∧ p a ∧ ∀ b ∈ before, ¬ p b

end Spec

open Extensions.Spec

theorem after_snoc (h : List Op) (o : Op) : after (h ++ [o]) = (after h).apply o := by simp [after, List.foldl_append]

theorem isLast_snoc {α : Type} (p : α → Prop) [DecidablePred p] (l : List α) (x a : α) : IsLast p (l ++ [x]) a ↔ if p x then a = x else IsLast p l a := by
  split
  · rename_i hx
    constructor
    · rintro ⟨b, c, e, ha, hc⟩
      cases c using List.reverseRecOn with
      | nil => exact ((List.append_inj' e rfl).2 |> List.singleton_inj.1).symm
      | append_singleton c y =>
        have e' : l ++ [x] = (b ++ a :: c) ++ [y] := by rw [e]; simp
        have := (List.append_inj' e' rfl).2 |> List.singleton_inj.1
        exact absurd hx (hc x (by rw [this]; simp))
    · rintro rfl; exact ⟨l, [], rfl, hx, by simp⟩
  · rename_i hx
    constructor
    · rintro ⟨b, c, e, ha, hc⟩
      cases c using List.reverseRecOn with
      | nil => exact absurd (((List.append_inj' e rfl).2 |> List.singleton_inj.1) ▸ ha) hx
      | append_singleton c y =>
        have e' : l ++ [x] = (b ++ a :: c) ++ [y] := by rw [e]; simp
        exact ⟨b, c, (List.append_inj' e' rfl).1, ha, fun z hz => hc z (by simp [hz])⟩
    · rintro ⟨b, c, e, ha, hc⟩
      refine ⟨b, c ++ [x], by rw [e]; simp, ha, ?_⟩
      intro z hz
      rcases List.mem_append.1 hz with hz | hz
      · exact hc z hz
      · rw [List.mem_singleton.1 hz]; exact hx

/-- A map filled by one kind of registration. -/
theorem last_wins {α : Type} (key : α → Str) (of : Op → Option α) (get : Registry → Str → Option α) (h0 : ∀ k, get .new k = none)
    (hskip : ∀ r o k, of o = none → get (r.apply o) k = get r k) (hset : ∀ r o a k, of o = some a → get (r.apply o) k = if k = key a then some a else get r k)
    (h : List Op) (k : Str) (a : α) : get (after h) k = some a ↔ IsLast (fun a => key a = k) (h.filterMap of) a := by
  induction h using List.reverseRecOn with
  | nil => simp [after, h0, IsLast]
  | append_singleton h o ih =>
    rw [after_snoc, List.filterMap_append]
    cases ho : of o with
    | none => rw [hskip _ _ _ ho, ih]; simp [ho]
    | some b =>
      rw [hset _ _ b _ ho, show [o].filterMap of = [b] by simp [ho], isLast_snoc]
      by_cases hk : key b = k
      · rw [if_pos hk.symm, if_pos hk]; simp [eq_comm]
      · rw [if_neg (fun e => hk e.symm), if_neg hk, ih]

/-- **C96.** After any history of registrations, a name gives the function registered last under exactly that name, whatever else was registered; likewise type converters and data
sources. -/
theorem C96_last_registered (h : List Op) (name : Str) :
    (∀ f, (after h).getFunction name = some f ↔ IsLast (fun f => f.name = name) (h.filterMap functionOf) f) ∧
    (∀ c, (after h).getConverter name = some c ↔ IsLast (fun c => c.target = name) (h.filterMap converterOf) c) ∧
    (∀ s, (after h).getSource name = some s ↔ IsLast (fun s => s.name = name) (h.filterMap sourceOf) s) := by
  refine ⟨fun f => ?_, fun c => ?_, fun s => ?_⟩
  · refine last_wins Function.name functionOf Registry.getFunction (fun _ => rfl) ?_ ?_ h name f
    · intro r o k ho; cases o <;> first | rfl | cases ho
    · intro r o a k ho; cases o <;> cases ho; rfl
  · refine last_wins Converter.target converterOf Registry.getConverter (fun _ => rfl) ?_ ?_ h name c
    · intro r o k ho; cases o <;> first | rfl | cases ho
    · intro r o a k ho; cases o <;> cases ho; rfl
  · refine last_wins Source.name sourceOf Registry.getSource (fun _ => rfl) ?_ ?_ h name s
    · intro r o k ho; cases o <;> first | rfl | cases ho
    · intro r o a k ho; cases o <;> cases ho; rfl

theorem handlers_eq (h : List Op) : (after h).handlers = h.filterMap handlerOf := by
  induction h using List.reverseRecOn with
  | nil => rfl
  | append_singleton h o ih =>
    rw [after_snoc, List.filterMap_append, ← ih]
    cases o <;> simp [Registry.apply, Registry.registerFunction, Registry.registerConverter, Registry.registerHandler, Registry.registerSource, handlerOf]

/-- **C96.** A method goes to the handler registered first among those that can handle it. -/
theorem C96_first_handler (h : List Op) (v : Value) (method : Str) (x : Handler) :
    (after h).findHandler v method = some x ↔ IsFirst (fun x => x.canHandle v method = true) (h.filterMap handlerOf) x := by
  rw [Registry.findHandler, handlers_eq, List.find?_eq_some_iff_append]
  constructor
  · rintro ⟨hx, b, c, e, hb⟩
    exact ⟨b, c, e, hx, fun y hy => by simpa using hb y hy⟩
  · rintro ⟨b, c, e, hx, hb⟩
    exact ⟨hx, b, c, e, fun y hy => by simpa using hb y hy⟩

/-- **C96.** Arguments are accepted exactly when the function takes any number of them, or that many. -/
theorem C96_arity (f : Function) (args : List Value) : f.validate args = .ok () ↔ f.arity = none ∨ f.arity = some args.length := by
  unfold Function.validate
  cases f.arity with
  | none => simp
  | some n =>
    simp only [reduceCtorEq, Option.some.injEq, false_or]
    split
    · rename_i h; exact ⟨(fun e => nomatch e), fun e => absurd e.symm h⟩
    · rename_i h; exact ⟨fun _ => (not_not.1 h).symm, fun _ => rfl⟩

/-- **C96.** A variable is said to exist exactly when it resolves to a value, which is the one among all variables; a key is said to exist exactly when it can be fetched. -/
theorem C96_components (vars : Str → Option Value) (name key : Str) :
    (∀ v, (Resolver.mk vars).resolve name = .ok (some v) ↔ (Resolver.mk vars).all name = some v) ∧
    ((Resolver.mk vars).has name = true ↔ ∃ v, (Resolver.mk vars).resolve name = .ok (some v)) ∧
    (∀ v, (constantSource name vars).fetch key = .ok v ↔ vars key = some v) ∧
    ((constantSource name vars).exists_ key = true ↔ ∃ v, (constantSource name vars).fetch key = .ok v) := by
  have hf : ∀ v, (constantSource name vars).fetch key = .ok v ↔ vars key = some v := by
    intro v
    simp only [constantSource]
    cases vars key with
    | none => simp [fail]
    | some w => simp
  refine ⟨fun v => ?_, ?_, hf, ?_⟩
  · simp [Resolver.resolve, Resolver.all]
  · simp [Resolver.has, Resolver.resolve, Option.isSome_iff_exists]
  · simp only [hf]; exact Option.isSome_iff_exists

/-- Names are taken as they are, unlike in the registry of custom functions: one registered as `double` is not found as `DOUBLE`. -/
theorem C96_case_sensitive (run : List Value → Res Value) : (after [.function ⟨c!"double", none, run⟩]).getFunction c!"DOUBLE" = none := rfl

/-- A case of the theorems: two functions of one name and two handlers. -/
example (f g : List Value → Res Value) (e : Value → Str → List Value → Res Value) :
    let r := after [.function ⟨c!"f", none, f⟩, .handler ⟨fun _ _ => true, e⟩, .function ⟨c!"f", some 1, g⟩, .handler ⟨fun _ _ => true, fun _ _ _ => .ok .null⟩]
    r.getFunction c!"f" = some ⟨c!"f", some 1, g⟩ ∧ r.findHandler .null c!"m" = some ⟨fun _ _ => true, e⟩ := ⟨rfl, rfl⟩

end Extensions
