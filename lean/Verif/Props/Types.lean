import Verif.Lemmas.TypesMain
import Verif.Props.EntryLambda
import Verif.Props.Registration
/-! C111: well-typed expressions do not go wrong. The types and the typing rules are in `Verif.Spec.Types`. -/

namespace Types

open Lib Spec

/-- C111: an expression that has a type, and uses no operation that can fail for some data, always evaluates to a value of that type, whatever the values of the variables are. -/
theorem C111_total (X : Ext) (text : Str) (e : Expr) (Γ : Cx) (τ : Ty) (env : Env) (hp : parse text = .ok e) (ht : HasType true false Γ e τ) (hm : Models env Γ) :
    ∃ v, evaluateWith X text env = .ok v ∧ IsOf τ v := by
  unfold evaluateWith
  rw [hp]
  rcases good X ht env hm with h | ⟨h, _⟩
  · exact h
  · cases h

/-- C111: an expression that has a type evaluates to a value of that type, or fails in one of the ways that depend on the data (`DataFailure`): an index or an empty array, a root, a text
that is no number, NaN in a sort, a percentile or a period out of range, a date that does not exist or lies beyond the calendar, an unknown unit, the index -2^63. It never fails because of a type, a missing variable, an unknown function or a wrong number of arguments. -/
theorem C111_sound (X : Ext) (text : Str) (e : Expr) (Γ : Cx) (τ : Ty) (env : Env) (hp : parse text = .ok e) (ht : HasType false false Γ e τ) (hm : Models env Γ) :
    (∃ v, evaluateWith X text env = .ok v ∧ IsOf τ v) ∨ ∃ f, evaluateWith X text env = .error f ∧ DataFailure f := by
  unfold evaluateWith
  rw [hp]
  rcases good X ht env hm with h | ⟨_, h⟩
  · exact .inl h
  · exact .inr h

theorem program_good (X : Ext) {t : Bool} {Γ Δ : Cx} {e : Expr} {τ : Ty} (h : Program t Γ e τ Δ) :
    ∀ env, Models env Γ → Fine t (fun p => IsOf τ p.1 ∧ Models p.2 Δ) (evalAssignCtx X e env) := by
  unfold evalAssignCtx
  induction h with
  | @value Γ e τ ht =>
    intro env hm
    have hr : Eval.assignments X e env = (do return (← Eval.eval X e none env, env)) := by cases ht <;> rw [Eval.assignments] <;> (intros; simp_all)
    rw [hr]
    exact Fine.bind (good X ht env hm : Fine t (IsOf τ) (Eval.eval X e none env)) fun v hv => Fine.ok ⟨hv, hm⟩
  | @assign Γ x e τ ht =>
    intro env hm
    rw [Eval.assignments]
    exact Fine.bind (good X ht env hm : Fine t (IsOf τ) (Eval.eval X e none env)) fun v hv => Fine.ok ⟨hv, models_bind hm hv⟩
  | @one Γ e τ Δ _ ih =>
    intro env hm
    rw [Eval.assignments, Eval.assignmentsSeq]
    exact (ih env hm).bind fun p hp => by rw [Eval.assignmentsSeq]; exact Fine.ok hp
  | @then_ Γ e σ Δ d ds τ Θ _ _ ih1 ih2 =>
    intro env hm
    rw [Eval.assignments, Eval.assignmentsSeq]
    refine (ih1 env hm).bind fun p hp => ?_
    have := ih2 p.2 hp.2
    rw [Eval.assignments] at this
    rw [Eval.assignmentsSeq] at this ⊢
    exact this

/-- C111 for programs: assignments give their variables types, for what follows and for the variables handed back. -/
theorem C111_programs (X : Ext) (text : Str) (e : Expr) (Γ Δ : Cx) (τ : Ty) (env : Env) (hp : parse text = .ok e) (hm : Models env Γ) :
    (Program true Γ e τ Δ → ∃ v env', evaluateWithAssignmentsCtx X text env = .ok (v, env') ∧ IsOf τ v ∧ Models env' Δ) ∧
    (Program false Γ e τ Δ → (∃ v env', evaluateWithAssignmentsCtx X text env = .ok (v, env') ∧ IsOf τ v ∧ Models env' Δ) ∨
      ∃ f, evaluateWithAssignmentsCtx X text env = .error f ∧ DataFailure f) := by
  unfold evaluateWithAssignmentsCtx
  rw [hp]
  constructor
  · intro h
    rcases program_good X h env hm with ⟨p, hr, h⟩ | ⟨h, _⟩
    · exact ⟨p.1, p.2, hr, h⟩
    · cases h
  · intro h
    rcases program_good X h env hm with ⟨p, hr, h⟩ | ⟨_, h⟩
    · exact .inl ⟨p.1, p.2, hr, h⟩
    · exact .inr h

/-- C111 for the servers, which evaluate with the registered functions: the same holds as long as no function of that name is registered, and lambdas of methods do not depend on the
presence of a registry (C10). -/
theorem C111_custom (X : Ext) (text : Str) (e : Expr) (Γ : Cx) (τ : Ty) (env : Env) (reg : Registry) (hp : parse text = .ok e) (ht : HasType true false Γ e τ) (hm : Models env Γ)
    (hr : ∀ n ∈ called X e, reg n = none) (hl : Spec.LambdasUnaware X e) : ∃ v, evaluateWithCustom X reg text env = .ok v ∧ IsOf τ v := by
  obtain ⟨v, hv, h⟩ := C111_total X text e Γ τ env hp ht hm
  refine ⟨v, ?_, h⟩
  have h1 := C10_custom_with_empty_registry_lambdas_partial X text e env hp hl
  rw [hv] at h1
  have h2 : evaluateWithCustom X reg text env = evaluateWithCustom X Registry.empty text env := by
    unfold evaluateWithCustom
    rw [hp]
    exact C72_coincidence X e reg Registry.empty (fun n hn => hr n hn) env
  rw [h2]
  revert h1
  cases evaluateWithCustom X Registry.empty text env with
  | ok w => intro h1; cases h1; rfl
  | error f => cases f <;> intro h1 <;> cases h1

/-- The variables of an example: an array of numbers, a number, a text. -/
def sample : Cx := ((Cx.bind (fun _ => none) c!"sales" (.arr .num)).bind c!"limit" .num).bind c!"name" .text

/-- A program with a lambda, methods, a spread, a slice, a conditional and assignments has a type. -/
example : ∃ e Δ, parse c!":big := :sales.filter(:x > :limit); :label := :name.upper().substring(0, 3); CONCAT(:label, \": \", ROUND(AVG(...:big), 2), [1, 2][:1].length() >= 1 ? \"!\" : \"\", MAP(:big, :x % 7))" = .ok e ∧
    Program true sample e .text Δ ∧ Δ c!"big" = some (.arr .num) ∧ Δ c!"label" = some .text :=
  ⟨.seq [.assign c!"big" (.method (.var c!"sales") c!"filter" [.binary (.var c!"x") .gt (.var c!"limit")] false),
      .assign c!"label" (.method (.method (.var c!"name") c!"upper" [] false) c!"substring" [.number (.zero false), .number (.fin 3)] false),
      .call c!"CONCAT" [.var c!"label", .strLit c!": ", .call c!"ROUND" [.call c!"AVG" [.spread (.var c!"big")], .number (.fin 2)],
        .call c!"__TERNARY__" [.binary (.method (.slice (.array [.number (.fin 1), .number (.fin 2)]) none (some (.number (.fin 1)))) c!"length" [] false) .ge (.number (.fin 1)),
          .strLit c!"!", .strLit []],
        .call c!"MAP" [.var c!"big", .binary (.var c!"x") .mod (.number (.fin 7))]]],
    (sample.bind c!"big" (.arr .num)).bind c!"label" .text, by kernel_rfl,
    .then_ (.assign (.filterMethod (.var rfl) (.order (τ := .num) (by decide) (by decide) (.var rfl) (.var rfl))))
      (.then_ (.assign (.method (.substring2 (by decide)) (.method (.text (by decide)) (.var rfl) .nil) (.cons (.number _) (.cons (.number _) .nil))))
        (.one (.value (.callMany (by decide) (.cons (.var rfl) (.cons (.text _) (.cons (.call (.number2 (by decide)) (.cons (.callMany (by decide) (.spread (.var rfl) .nil)) (.cons (.number _) .nil)))
          (.cons (.ternary (.order (τ := .num) (by decide) (by decide) (.method (.arrLength (by decide)) (.sliceTo (.array (.cons (.number _) (.cons (.number _) .nil))) (.number _)) .nil) (.number _))
            (.text _) (.text _)) (.cons (.map (σ := .num) (τ := .num) (.var rfl) (.arith (by decide) (.var rfl) (.number _))) .nil))))))))),
    rfl, rfl⟩

/-- There are variables of these types. -/
example : Models ((((Env.empty.insert c!"sales" (.arr [.num (.fin 5), .num .nan])).insert c!"limit" (.num (.fin 2))).insert c!"name" (.str c!"north"))) sample :=
  models_bind (models_bind (models_bind (fun _ _ h => nomatch h) (τ := .arr .num) (by intro v hv; simp at hv; rcases hv with rfl | rfl <;> trivial)) (τ := .num) trivial) (τ := .text) trivial

/-- Each failure of the list does happen in an expression that has a type. -/
theorem C111_failures_happen (X : Ext) :
    (∃ e, parse c!"[1][1]" = .ok e ∧ HasType false false (fun _ => none) e .num ∧ evaluateWith X c!"[1][1]" Env.empty = fail "Index out of bounds") ∧
    (∃ e, parse c!"FIRST([])" = .ok e ∧ HasType false false (fun _ => none) e .num ∧ evaluateWith X c!"FIRST([])" Env.empty = fail "FIRST on empty array") ∧
    (∃ e, parse c!"LAST([])" = .ok e ∧ HasType false false (fun _ => none) e .num ∧ evaluateWith X c!"LAST([])" Env.empty = fail "LAST on empty array") ∧
    (∃ e, parse c!"(0 - 1).sqrt()" = .ok e ∧ HasType false false (fun _ => none) e .num ∧ evaluateWith X c!"(0 - 1).sqrt()" Env.empty = fail "Cannot take square root of negative number") ∧
    (∃ e, parse c!"'a'::Float" = .ok e ∧ HasType false false (fun _ => none) e .num ∧ evaluateWith X c!"'a'::Float" Env.empty = fail "Cannot cast String to Float") ∧
    (∃ e, parse c!"[1][-9223372036854775808]" = .ok e ∧ HasType false false (fun _ => none) e .num ∧
      evaluateWith X c!"[1][-9223372036854775808]" Env.empty = panics "attempt to negate with overflow") :=
  ⟨⟨.index (.array [.number (.fin 1)]) (.number (.fin 1)), by kernel_rfl, .index rfl (.array (.cons (.number _) .nil)) (.number _), by kernel_rfl⟩,
    ⟨.call c!"FIRST" [.array []], by kernel_rfl, .first rfl (.array .nil), by kernel_rfl⟩,
    ⟨.call c!"LAST" [.array []], by kernel_rfl, .last rfl (.array .nil), by kernel_rfl⟩,
    ⟨.method (.binary (.number (.zero false)) .sub (.number (.fin 1))) c!"sqrt" [] false, by kernel_rfl, .sqrt rfl (.arith (by decide) (.number _) (.number _)), by kernel_rfl⟩,
    ⟨.cast (.strLit c!"a") .float, by kernel_rfl, .read rfl (.text _), by kernel_rfl⟩,
    ⟨.index (.array [.number (.fin 1)]) (.unary .minus (.number (.fin 9223372036854775808))), by kernel_rfl, .index rfl (.array (.cons (.number _) .nil)) (.sign (by decide) (.number _)), by kernel_rfl⟩⟩

/-- An expression of some type, without variables, that ends like this. -/
def Ends (X : Ext) (text : Str) (r : Res Value) : Prop := ∃ e τ, parse text = .ok e ∧ HasType false false (fun _ => none) e τ ∧ evaluateWith X text Env.empty = r

/-- The failures of the statistical, financial and date functions happen as well. -/
theorem C111_range_failures_happen (X : Ext) :
    Ends X c!"'a'::Currency" (fail "Cannot cast String to Currency") ∧
    Ends X c!"PERCENTILE_INC([1], 2)" (fail "Percentile must be between 0 and 1") ∧
    Ends X c!"QUARTILE_INC([1], 5)" (fail "Quartile must be 0-4") ∧
    Ends X c!"PMT(1, 0, 1)" (fail "PMT nper must be positive") ∧
    Ends X c!"FV(1, -1, 1)" (fail "FV nper must be non-negative") ∧
    Ends X c!"DB(1, 1, 0, 1)" (fail "DB arguments must be non-negative (life must be positive)") ∧
    Ends X c!"IPMT(1, 3, 2, 1)" (fail "IPMT period must be between 1 and nper") ∧
    Ends X c!"DATE(2023, 2, 29)" (fail "Invalid date") ∧
    Ends X c!"DATEADD(DATE(2024, 1, 1), 1, 'age')" (fail "DATEADD unit must be one of: days, hours, minutes, seconds, weeks, months, years") ∧
    Ends X c!"DATEDIFF(DATE(2024, 1, 1), DATE(2024, 1, 1), 'age')" (fail "DATEDIFF unit must be one of: days, hours, minutes, seconds, weeks, months, years") ∧
    Ends X c!"SORT([0 / 0, 1])" (panics "called `Option::unwrap()` on a `None` value") ∧
    Ends X c!"DATEADD(DATE(2024, 1, 1), 10000000000000000, 's')" (panics "TimeDelta out of bounds") ∧
    Ends X c!"DATEADD(DATE(2024, 1, 1), 300000000, 'd')" (panics "`DateTime + TimeDelta` overflowed") ∧
    Ends X c!"DATEADD(DATE(2024, 1, 1), 2147483647, 'months')" (panics "attempt to add with overflow") :=
  ⟨⟨.cast (.strLit c!"a") .currency, _, by kernel_rfl, .readMoney rfl (.text _), by kernel_rfl⟩,
    ⟨.call c!"PERCENTILE_INC" [.array [.number (.fin 1)], .number (.fin 2)], _, by kernel_rfl, .ranged rfl (.percentile (by decide)) (.cons (.array (.cons (.number _) .nil)) (.cons (.number _) .nil)), by kernel_rfl⟩,
    ⟨.call c!"QUARTILE_INC" [.array [.number (.fin 1)], .number (.fin 5)], _, by kernel_rfl, .ranged rfl (.percentile (by decide)) (.cons (.array (.cons (.number _) .nil)) (.cons (.number _) .nil)), by kernel_rfl⟩,
    ⟨.call c!"PMT" [.number (.fin 1), .number (.zero false), .number (.fin 1)], _, by kernel_rfl, .ranged rfl (.loan3 (by decide)) (.cons (.number _) (.cons (.number _) (.cons (.number _) .nil))), by kernel_rfl⟩,
    ⟨.call c!"FV" [.number (.fin 1), .unary .minus (.number (.fin 1)), .number (.fin 1)], _, by kernel_rfl, .ranged rfl (.loan3 (by decide)) (.cons (.number _) (.cons (.sign (by decide) (.number _)) (.cons (.number _) .nil))), by kernel_rfl⟩,
    ⟨.call c!"DB" [.number (.fin 1), .number (.fin 1), .number (.zero false), .number (.fin 1)], _, by kernel_rfl, .ranged rfl (.loan4 (by decide)) (.cons (.number _) (.cons (.number _) (.cons (.number _) (.cons (.number _) .nil)))), by kernel_rfl⟩,
    ⟨.call c!"IPMT" [.number (.fin 1), .number (.fin 3), .number (.fin 2), .number (.fin 1)], _, by kernel_rfl, .ranged rfl (.loan4 (by decide)) (.cons (.number _) (.cons (.number _) (.cons (.number _) (.cons (.number _) .nil)))), by kernel_rfl⟩,
    ⟨.call c!"DATE" [.number (.fin 2023), .number (.fin 2), .number (.fin 29)], _, by kernel_rfl, .ranged rfl .date (.cons (.number _) (.cons (.number _) (.cons (.number _) .nil))), by kernel_rfl⟩,
    ⟨.call c!"DATEADD" [.call c!"DATE" [.number (.fin 2024), .number (.fin 1), .number (.fin 1)], .number (.fin 1), .strLit c!"age"], _, by kernel_rfl, .ranged rfl .dateadd (.cons (.ranged rfl .date (.cons (.number _) (.cons (.number _) (.cons (.number _) .nil)))) (.cons (.number _) (.cons (.text _) .nil))), by kernel_rfl⟩,
    ⟨.call c!"DATEDIFF" [.call c!"DATE" [.number (.fin 2024), .number (.fin 1), .number (.fin 1)], .call c!"DATE" [.number (.fin 2024), .number (.fin 1), .number (.fin 1)], .strLit c!"age"], _, by kernel_rfl, .ranged rfl .datediff (.cons (.ranged rfl .date (.cons (.number _) (.cons (.number _) (.cons (.number _) .nil)))) (.cons (.ranged rfl .date (.cons (.number _) (.cons (.number _) (.cons (.number _) .nil)))) (.cons (.text _) .nil))), by kernel_rfl⟩,
    ⟨.call c!"SORT" [.array [.binary (.number (.zero false)) .div (.number (.zero false)), .number (.fin 1)]], _, by kernel_rfl, .ranged rfl .sort1 (.cons (.array (.cons (.arith (by decide) (.number _) (.number _)) (.cons (.number _) .nil))) .nil), by kernel_rfl⟩,
    ⟨.call c!"DATEADD" [.call c!"DATE" [.number (.fin 2024), .number (.fin 1), .number (.fin 1)], .number (.fin 10000000000000000), .strLit c!"s"], _, by kernel_rfl, .ranged rfl .dateadd (.cons (.ranged rfl .date (.cons (.number _) (.cons (.number _) (.cons (.number _) .nil)))) (.cons (.number _) (.cons (.text _) .nil))), by kernel_rfl⟩,
    ⟨.call c!"DATEADD" [.call c!"DATE" [.number (.fin 2024), .number (.fin 1), .number (.fin 1)], .number (.fin 300000000), .strLit c!"d"], _, by kernel_rfl, .ranged rfl .dateadd (.cons (.ranged rfl .date (.cons (.number _) (.cons (.number _) (.cons (.number _) .nil)))) (.cons (.number _) (.cons (.text _) .nil))), by kernel_rfl⟩,
    ⟨.call c!"DATEADD" [.call c!"DATE" [.number (.fin 2024), .number (.fin 1), .number (.fin 1)], .number (.fin 2147483647), .strLit c!"months"], _, by kernel_rfl, .ranged rfl .dateadd (.cons (.ranged rfl .date (.cons (.number _) (.cons (.number _) (.cons (.number _) .nil)))) (.cons (.number _) (.cons (.text _) .nil))), by kernel_rfl⟩⟩

/-- A program with money, dates and statistics has a type. -/
example : ∃ e Δ, parse c!":due := DATEADD(DATE(2024, 1, 31), 1, \"months\"); :fee := 12.5::Currency; CONCAT(YEAR(:due), \" \", MEDIAN(:sales, :fee), VARP(:sales), PMT(:limit, 12, SUM(:sales, :fee)))" = .ok e ∧
    Program false sample e .text Δ ∧ Δ c!"due" = some .date ∧ Δ c!"fee" = some .money :=
  ⟨.seq [.assign c!"due" (.call c!"DATEADD" [.call c!"DATE" [.number (.fin 2024), .number (.fin 1), .number (.fin 31)], .number (.fin 1), .strLit c!"months"]),
      .assign c!"fee" (.cast (.number (.fin (25 / 2))) .currency),
      .call c!"CONCAT" [.call c!"YEAR" [.var c!"due"], .strLit c!" ", .call c!"MEDIAN" [.var c!"sales", .var c!"fee"], .call c!"VARP" [.var c!"sales"],
        .call c!"PMT" [.var c!"limit", .number (.fin 12), .call c!"SUM" [.var c!"sales", .var c!"fee"]]]],
    (sample.bind c!"due" .date).bind c!"fee" .money, by kernel_rfl,
    .then_ (.assign (.ranged rfl .dateadd (.cons (.ranged rfl .date (.cons (.number _) (.cons (.number _) (.cons (.number _) .nil)))) (.cons (.number _) (.cons (.text _) .nil)))))
      (.then_ (.assign (.cast (.currency (σ := .num) (by decide)) (.number _)))
        (.one (.value (.callMany (by decide) (.cons (.call (.dateField (by decide)) (.cons (.var rfl) .nil)) (.cons (.text _)
          (.cons (.ranged rfl .median (.cons (τ := .arr .num) (.var rfl) (.cons (τ := .money) (.var rfl) .nil)))
            (.cons (.callMany (n := c!"VARP") (τ := .num) (by decide) (.cons (τ := .arr .num) (.var rfl) .nil))
              (.cons (.ranged rfl (.loan3 (by decide)) (.cons (.var rfl) (.cons (.number _)
                (.cons (.callMany (n := c!"SUM") (τ := .num) (by decide) (.cons (τ := .arr .num) (.var rfl) (.cons (τ := .money) (.var rfl) .nil))) .nil)))) .nil))))))))),
    rfl, rfl⟩

/-- Expressions without a type do fail because of types: the rules are not empty words. -/
example (X : Ext) : evaluateWith X c!"1 + 'a'" Env.empty = fail "Arithmetic op on non-number" ∧ evaluateWith X c!"'a' < 1" Env.empty = fail "Comparison of incompatible types" ∧
    evaluateWith X c!"MID('a')" Env.empty = fail "MID expects string, start, [num_chars]" := ⟨by kernel_rfl, by kernel_rfl, by kernel_rfl⟩

end Types
