import Verif.Props.Grammar
import Verif.Props.Aggregates
/-! C105: which functions are reported as built in. C106: the numbers extracted from a value. -/

open Lib Spec

/-! ### C105 -/

namespace Spec

/-- The first argument list of the table that is listed for a function. -/
def sampleOf (name : Str) : List (List Str × List Value) → List Value
  | [] => []
  | (ns, vs) :: t => if name ∈ ns then vs else sampleOf name t

/-- Argument lists with which functions succeed. -/
def samples : List (List Str × List Value) :=
  [([c!"ROUND", c!"CEIL", c!"CEILING", c!"FLOOR", c!"ABS", c!"SQRT", c!"INT"], [.num (.fin 1)]),
   ([c!"POW", c!"POWER", c!"MOD"], [.num (.fin 1), .num (.fin 2)]),
   ([c!"NOT"], [.bool true]),
   ([c!"XOR"], [.bool true, .bool true]),
   ([c!"IF"], [.bool true, .null, .null]),
   ([c!"IFS"], [.bool true, .null]),
   ([c!"LENGTH", c!"UPPER", c!"LOWER", c!"TRIM", c!"ISBLANK", c!"ISNUMBER", c!"ISTEXT"], [.str c!"a"]),
   ([c!"SPLIT"], [.str c!"a", .str c!","]),
   ([c!"INCLUDES"], [.str c!"a", .str c!"b"]),
   ([c!"LEFT", c!"RIGHT"], [.str c!"a", .num (.fin 1)]),
   ([c!"SUBSTRING", c!"MID"], [.str c!"a", .num (.fin 1), .num (.fin 1)]),
   ([c!"REPLACE"], [.str c!"a", .num (.fin 1), .num (.fin 1), .str c!"b"]),
   ([c!"SUBSTITUTE", c!"SUBSTITUTEM"], [.str c!"a", .str c!"b", .str c!"c"]),
   ([c!"FIRST", c!"LAST", c!"COUNT", c!"FLATTEN"], [.arr [.null]]),
   ([c!"UNIQUE", c!"SORT", c!"REVERSE"], [.arr []]),
   ([c!"CONTAINS", c!"IN"], [.arr [], .null]),
   ([c!"JOIN"], [.arr [], .str c!","]),
   ([c!"YEAR", c!"MONTH", c!"DAY"], [.dt 0]),
   ([c!"DATEADD"], [.dt 0, .num (.fin 1), .str c!"days"]),
   ([c!"DATEDIFF"], [.dt 0, .dt 0, .str c!"days"]),
   ([c!"PMT", c!"FV"], [.num (.zero false), .num (.fin 1), .num (.fin 1)]),
   ([c!"DB"], [.num (.fin 1), .num (.fin 1), .num (.fin 1), .num (.fin 2)]),
   ([c!"IPMT"], [.num (.zero false), .num (.fin 1), .num (.fin 1), .num (.fin 1)]),
   ([c!"PERCENTILE.INC", c!"PERCENTILEINC", c!"PERCENTILE_INC", c!"QUARTILE.INC", c!"QUARTILEINC", c!"QUARTILE_INC"], [.arr [], .num (.fin 1)]),
   ([c!"DIG"], [.json c!"null", .arr []])]

end Spec

theorem hasFunction_iff (name : Str) : Dispatch.hasFunction name = true ↔ name ∈ builtinNames := by
  simp only [Dispatch.hasFunction, builtinNames, Bool.or_eq_true, decide_eq_true_eq, List.mem_append]
  tauto

/-- C105: a function that is not reported as built in is unknown: every call of it, with any arguments, fails with this message. -/
theorem C105_not_reported (X : Ext) (name : Str) (h : Dispatch.hasFunction name = false) (vs : List Value) :
    execFast X name vs = fail "Unknown function: {}" [name] := by
  have h' : name ∉ builtinNames := fun hm => by simp [(hasFunction_iff name).2 hm] at h
  simp only [builtinNames, List.mem_append, not_or] at h'
  simp [execFast, h']

/-- Whether a call succeeded. -/
def Spec.succeeds : Res Value → Bool
  | .ok _ => true
  | .error _ => false

theorem samples_succeed (X : Ext) : ∀ name ∈ builtinNames, name ≠ c!"DATEADD" → name ≠ c!"DATEDIFF" → name ≠ c!"DIG" →
    succeeds (execFast X name (sampleOf name samples)) = true := by
  intro name h h1 h3 h2
  simp only [builtinNames, Dispatch.arrayNames, Dispatch.arithmeticNames, Dispatch.logicalNames, Dispatch.stringNames, Dispatch.datetimeNames,
    Dispatch.financialNames, Dispatch.statisticalNames, Dispatch.jsonNames, List.cons_append, List.nil_append, List.mem_cons, List.not_mem_nil, or_false] at h
  repeat' (rcases h with rfl | h)
  all_goals first
    | exact absurd rfl h1
    | exact absurd rfl h2
    | exact absurd rfl h3
    | kernel_rfl

/-- C105: a function reported as built in can be called with success, provided the platform lower-cases `days` and reads the JSON `null`. -/
theorem C105_reported (X : Ext) (hl : X.lower c!"days" = c!"days") (hj : X.jsonParse c!"null" = .ok .null) (name : Str)
    (h : Dispatch.hasFunction name = true) : ∃ vs v, execFast X name vs = .ok v := by
  have h' := (hasFunction_iff name).1 h
  refine ⟨sampleOf name samples, ?_⟩
  by_cases h1 : name = c!"DATEADD"
  · subst h1
    have : execFast X c!"DATEADD" (sampleOf c!"DATEADD" samples) = DT.dateaddCore 0 1 (DT.unitOf (X.lower c!"days")) := by kernel_rfl
    rw [this, hl]
    exact ⟨.dt 86400, by kernel_rfl⟩
  by_cases h3 : name = c!"DATEDIFF"
  · subst h3
    have : execFast X c!"DATEDIFF" (sampleOf c!"DATEDIFF" samples) = DT.datediffCore 0 0 (DT.unitOf (X.lower c!"days")) := by kernel_rfl
    rw [this, hl]
    exact ⟨.num (.zero false), by kernel_rfl⟩
  by_cases h2 : name = c!"DIG"
  · subst h2
    have : execFast X c!"DIG" (sampleOf c!"DIG" samples) = (match X.jsonParse c!"null" with
      | .error e => fail "Invalid JSON: {}" [e]
      | .ok j => match JsonFn.digPath j [] with
        | some found => .ok (found.toValue X)
        | none => .ok .null) := by kernel_rfl
    rw [this, hj]
    exact ⟨.null, by kernel_rfl⟩
  have := samples_succeed X name h' h1 h3 h2
  cases he : execFast X name (sampleOf name samples) with
  | ok v => exact ⟨v, rfl⟩
  | error e => rw [he] at this; exact absurd this (by simp [Spec.succeeds])

/-- C105: the number of built in functions is the number of names for which they are reported. -/
theorem C105_count : ∃ names : List Str, names.Nodup ∧ (∀ name, name ∈ names ↔ Dispatch.hasFunction name = true) ∧
    Dispatch.functionCount = names.length :=
  ⟨builtinNames, by decide +kernel, fun name => (hasFunction_iff name).symm, by decide +kernel⟩

example : Dispatch.hasFunction c!"SUM" = true ∧ Dispatch.hasFunction c!"sum" = false ∧ Dispatch.functionCount = 80 := by decide +kernel

/-- C105: in an expression, a function of these names that is not overridden does what is reported: one that is not reported is unknown. -/
theorem C105_expression (X : Ext) (name : Str) (hn : name ∉ ownNames) (h : Dispatch.hasFunction name = false) (r : Option Registry)
    (hr : NotCustom X r name) (env : Env) (es : List Expr) (vs : List Value) (ha : Args X r env es vs) :
    Eval.eval X (.call name es) r env = fail "Unknown function: {}" [name] := by
  rw [call_exec X name r env es vs hn hr ha, C105_not_reported X name h]

/-- C105 fails for the functions with an expression among their arguments, and for some others: they are not reported, although they can
be called. And the five names with a dot are reported, although no expression calls them (`C82_dotted_functions_cannot_be_called`). -/
theorem C105_unreported (X : Ext) :
    (∀ name ∈ [c!"FILTER", c!"FIND", c!"MAP", c!"REDUCE", c!"SUMIF", c!"AVGIF", c!"COUNTIF", c!"JQ"], Dispatch.hasFunction name = false) ∧
    evaluate X c!"FILTER([1, 2], :x > 1)" = .ok (.arr [.num (.fin 2)]) ∧
    evaluate X c!"FIND([1, 2], :x > 1)" = .ok (.num (.fin 2)) ∧
    evaluate X c!"MAP([1], :x + 1)" = .ok (.arr [.num (.fin 2)]) ∧
    evaluate X c!"REDUCE([1, 2], :acc + :x, 0)" = .ok (.num (.fin 3)) ∧
    evaluate X c!"SUMIF([1, 2], :x > 1)" = .ok (.num (.fin 2)) ∧
    evaluate X c!"AVGIF([1, 2], :x > 1)" = .ok (.num (.fin 2)) ∧
    evaluate X c!"COUNTIF([1, 2], :x > 1)" = .ok (.num (.fin 1)) := by
  refine ⟨by decide +kernel, ?_, ?_, ?_, ?_, ?_, ?_, ?_⟩ <;> kernel_rfl

/-! ### C106 -/

theorem extractNumerics_collects : ∀ vs : List Value, JsonFn.extractNumerics vs = Stat.collects vs
  | [] => rfl
  | .arr items :: vs => by
    rw [JsonFn.extractNumerics, JsonFn.extractNumeric, Stat.collects, Stat.collect, extractNumerics_collects items, extractNumerics_collects vs]
  | .num _ :: vs => by simp [JsonFn.extractNumerics, JsonFn.extractNumeric, Stat.collects, Stat.collect, extractNumerics_collects vs]
  | .cur _ :: vs => by simp [JsonFn.extractNumerics, JsonFn.extractNumeric, Stat.collects, Stat.collect, extractNumerics_collects vs]
  | .bool _ :: vs => by simp [JsonFn.extractNumerics, JsonFn.extractNumeric, Stat.collects, Stat.collect, extractNumerics_collects vs]
  | .str _ :: vs => by simp [JsonFn.extractNumerics, JsonFn.extractNumeric, Stat.collects, Stat.collect, extractNumerics_collects vs]
  | .null :: vs => by simp [JsonFn.extractNumerics, JsonFn.extractNumeric, Stat.collects, Stat.collect, extractNumerics_collects vs]
  | .dt _ :: vs => by simp [JsonFn.extractNumerics, JsonFn.extractNumeric, Stat.collects, Stat.collect, extractNumerics_collects vs]
  | .json _ :: vs => by simp [JsonFn.extractNumerics, JsonFn.extractNumeric, Stat.collects, Stat.collect, extractNumerics_collects vs]

/-- C106: the numbers extracted from a value are the amounts (numbers and currencies) among its leaves, from left to right. -/
theorem C106_extract (v : Value) (ls : List Value) (h : LeavesOf [v] ls) : JsonFn.extractNumeric v = amounts ls := by
  have := extractNumerics_collects [v]
  simp only [JsonFn.extractNumerics, List.append_nil] at this
  rw [this, collects_leaves h]

theorem amounts_map_num (xs : List F64) : amounts (xs.map .num) = xs := by
  induction xs with
  | nil => rfl
  | cons x xs ih => simp [amounts, ih]

/-- C106: the functions that aggregate numbers give, for a value, what they give for the numbers extracted from it. -/
theorem C106_aggregates (X : Ext) (v : Value) :
    ∀ name ∈ [c!"SUM", c!"AVG", c!"AVERAGE", c!"MIN", c!"MAX", c!"MEDIAN", c!"MODE.SNGL", c!"VAR.P", c!"STDEV.P"],
      fn X name [v] = fn X name ((JsonFn.extractNumeric v).map .num) := by
  obtain ⟨ls, h⟩ : ∃ ls, LeavesOf [v] ls := ⟨_, flattens_leaves [v]⟩
  have hw : LeavesOf ((JsonFn.extractNumeric v).map .num) ((JsonFn.extractNumeric v).map .num) :=
    .self (by simp)
  have ha : amounts ((JsonFn.extractNumeric v).map .num) = amounts ls := by rw [amounts_map_num, C106_extract v ls h]
  have hc : Stat.collects [v] = Stat.collects ((JsonFn.extractNumeric v).map .num) :=
    (collects_leaves h).trans (ha.symm.trans (collects_leaves hw).symm)
  obtain ⟨a1, a2, a3, a4, a5⟩ := C38_aggregates X _ _ h
  obtain ⟨b1, b2, b3, b4, b5⟩ := C38_aggregates X _ _ hw
  rw [ha] at b1 b2 b4 b5
  intro name hn
  simp only [List.mem_cons, List.not_mem_nil, or_false] at hn
  rcases hn with rfl | rfl | rfl | rfl | rfl | rfl | rfl | rfl | rfl
  · rw [a1, b1]
  · rw [a2, b2]
  · rw [a3, b3, a2, b2]
  · rw [a4, b4]
  · rw [a5, b5]
  · rw [fn_eq X _ _ (by decide), fn_eq X _ _ (by decide)]
    change Stat.median [v] = Stat.median _
    simp only [Stat.median, hc]
  · rw [fn_eq X _ _ (by decide), fn_eq X _ _ (by decide)]
    change Stat.mode [v] = Stat.mode _
    simp only [Stat.mode, hc]
  · rw [fn_eq X _ _ (by decide), fn_eq X _ _ (by decide)]
    change Stat.varP [v] = Stat.varP _
    simp only [Stat.varP, hc]
  · rw [fn_eq X _ _ (by decide), fn_eq X _ _ (by decide)]
    change Stat.stdevP X [v] = Stat.stdevP X _
    simp only [Stat.stdevP, hc]

example : JsonFn.extractNumeric (.arr [.num (.fin 1), .str c!"7", .arr [.cur (.fin 2), .arr []], .null, .bool true]) = [.fin 1, .fin 2] := rfl
