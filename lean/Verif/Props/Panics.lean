import Verif.Lemmas.Quiet
import Verif.Props.Strings
import Verif.Props.OrderStats
/-! C71: when evaluation panics. -/

namespace Spec

mutual
/-- The methods called by name; predicates (`x.even?`) are not methods. -/
def methods : Expr → List Str
  | .number _ | .strLit _ | .null | .var _ => []
  | .unary _ e | .prop e _ | .safeProp e _ | .spread e | .cast e _ | .assign _ e => methods e
  | .binary a _ b | .index a b => methods a ++ methods b
  | .call _ es | .array es | .seq es => methodsList es
  | .object ms => methodsMembers ms
  | .safeCall t n es => n :: methods t ++ methodsList es
  | .method t n es p => (if p then [] else [n]) ++ methods t ++ methodsList es
  | .slice t a b => methods t ++ methodsOpt a ++ methodsOpt b
/-- Of a list. -/
def methodsList : List Expr → List Str
  | [] => []
  | e :: es => methods e ++ methodsList es
/-- Of object members. -/
def methodsMembers : List (Str × Expr) → List Str
  | [] => []
  | (_, e) :: ms => methods e ++ methodsMembers ms
/-- Of an optional operand. -/
def methodsOpt : Option Expr → List Str
  | none => []
  | some e => methods e
end

mutual
/-- The expressions used as an index (`a[i]`). -/
def indices : Expr → List Expr
  | .number _ | .strLit _ | .null | .var _ => []
  | .unary _ e | .prop e _ | .safeProp e _ | .spread e | .cast e _ | .assign _ e => indices e
  | .binary a _ b => indices a ++ indices b
  | .index a b => b :: indices a ++ indices b
  | .call _ es | .array es | .seq es => indicesList es
  | .object ms => indicesMembers ms
  | .safeCall t _ es | .method t _ es _ => indices t ++ indicesList es
  | .slice t a b => indices t ++ indicesOpt a ++ indicesOpt b
/-- Of a list. -/
def indicesList : List Expr → List Expr
  | [] => []
  | e :: es => indices e ++ indicesList es
/-- Of object members. -/
def indicesMembers : List (Str × Expr) → List Expr
  | [] => []
  | (_, e) :: ms => indices e ++ indicesMembers ms
/-- Of an optional operand. -/
def indicesOpt : Option Expr → List Expr
  | none => []
  | some e => indices e
end

/-- The functions that compare numbers and cannot cope with NaN. -/
def sorters : List Str :=
  [c!"SORT", c!"MEDIAN", c!"PERCENTILE.INC", c!"PERCENTILEINC", c!"PERCENTILE_INC", c!"QUARTILE.INC", c!"QUARTILEINC", c!"QUARTILE_INC"]

/-- A literal index that is no integer below -2^63. -/
def PlainIndex : Expr → Prop
  | .number n => n.toI64 ≠ -2 ^ 63
  | .unary .minus (.number n) => n.neg.toI64 ≠ -2 ^ 63
  | _ => False

/-- The messages of the panics the evaluator itself can end in: sorting NaN (and dates that do not exist), an index of -2^63, and
date arithmetic out of range. -/
def panicTexts : List String :=
  ["called `Option::unwrap()` on a `None` value", "attempt to negate with overflow", "TimeDelta out of bounds",
   "`DateTime + TimeDelta` overflowed", "attempt to add with overflow"]

end Spec

open Spec

namespace Quiet

variable {P : String → Prop}

/-- What `unwrap` says. -/
def unwrapped : String := "called `Option::unwrap()` on a `None` value"

theorem slice_chars' (s : Str) (i j : ℕ) (h : i ≤ j) : Only P (StrFn.slice s (Str.byteOffset s i) (Str.byteOffset s j)) := by
  simp only [StrFn.slice, slice_chars s i j h]; exact .ok _

theorem string (X : Ext) (name : Str) (args : List Value) : Only P (execString X name args) := by
  unfold execString
  refine Table.exec ?_ args _ _
  unfold StrFn.table
  simp only [Table]
  have hcount : ∀ e a, Only P (StrFn.countArg e a) := by intro e a; unfold StrFn.countArg; quiet
  refine ⟨?_, ?_, ?_, ?_, ?_, ?_, ?_, ?_, ?_, ?_, ?_, ?_, ?_, ?_, ?_, ?_, ?_, ?_, trivial⟩
  all_goals intro _ args
  · unfold StrFn.substitute; quiet
  · unfold StrFn.substitute; quiet
  · unfold StrFn.left
    split
    · exact .failed _ _
    · split
      · refine .bind' (hcount _ _) fun n => ?_
        simp only [StrFn.slice, StrFn.charByteOffset, slice_from_start]; exact .ok _
      · exact .failed _ _
  · unfold StrFn.right
    split
    · exact .failed _ _
    · split
      · refine .bind' (hcount _ _) fun n => ?_
        simp only [StrFn.slice, StrFn.charByteOffset, StrFn.charCount, slice_to_end _ _ (Nat.sub_le ..)]; exact .ok _
      · exact .failed _ _
  · have hm : ∀ s n l, Only P (StrFn.midCore s n l) := by
      intro s n l
      unfold StrFn.midCore
      extract_lets total s1 si ei
      by_cases hc : si ≥ total ∨ si ≥ ei
      · rw [if_pos hc]; exact .ok _
      · rw [if_neg hc]; exact slice_chars' _ _ _ (by omega)
    unfold StrFn.mid
    repeat' split
    all_goals first | exact .failed _ _ | exact hm _ _ _
  · unfold StrFn.length; quiet
  · exact .ok _
  · unfold StrFn.upper; quiet
  · unfold StrFn.lower; quiet
  · unfold StrFn.trim; quiet
  · have hm : ∀ s n l, Only P (StrFn.substringCore s n l) := by
      intro s n l
      unfold StrFn.substringCore
      simp only
      split
      · exact .ok _
      · exact slice_chars' _ _ _ (le_max_right _ _)
    unfold StrFn.substring
    repeat' split
    all_goals first | exact .failed _ _ | exact hm _ _ _
  · unfold StrFn.split; quiet
  · have hm : ∀ s n m l, Only P (StrFn.replaceCore s n m l) := by
      intro s n m l
      unfold StrFn.replaceCore
      extract_lets len st si tk ei
      have : ei ≤ s.length := min_le_right _ _
      simp only [StrFn.charByteOffset]
      rw [slice_from_start, slice_to_end _ _ this]
      exact .ok _
    unfold StrFn.replace
    repeat' split
    all_goals first | exact .failed _ _ | exact hm _ _ _ _
  · unfold StrFn.reverse; quiet
  · unfold StrFn.isBlankFn; quiet
  · unfold StrFn.isNumber; quiet
  · unfold StrFn.isText; quiet
  · unfold StrFn.includes; quiet

theorem sortNums (xs : List F64) (h : P unwrapped) : Only P (Arr.sortNums xs) := by
  unfold Arr.sortNums
  split
  · exact .panicked h
  · exact .ok _

theorem allNums (m : String) (vs : List Value) : Only P (Arr.allNums m vs) := by
  induction vs with
  | nil => exact .ok _
  | cons v vs ih => cases v <;> simp only [Arr.allNums] <;> quiet

theorem joinParts (X : Ext) (vs : List Value) : Only P (Arr.joinParts X vs) := by
  induction vs with
  | nil => exact .ok _
  | cons v vs ih =>
    have : Only P (Arr.joinPart X v) := by unfold Arr.joinPart; quiet
    simp only [Arr.joinParts]; quiet

theorem array (X : Ext) (name : Str) (args : List Value) (h : name ∈ sorters → P unwrapped) : Only P (execArray X name args) := by
  unfold execArray
  refine Table.exec ?_ args _ _
  unfold Arr.table
  simp only [Table]
  refine ⟨?_, ?_, ?_, ?_, ?_, ?_, ?_, ?_, ?_, ?_, ?_, trivial⟩
  all_goals intro hn args
  · exact .ok _
  · exact .ok _
  · unfold Arr.first; quiet
  · unfold Arr.last; quiet
  · unfold Arr.contains; quiet
  · unfold Arr.inFn; quiet
  · unfold Arr.count; quiet
  · unfold Arr.unique; quiet
  · unfold Arr.sort
    split
    · refine .bind' (allNums _ _) fun xs => .bind' (sortNums xs (h (by rw [hn]; decide))) fun ys => .ok _
    · exact .failed _ _
  · unfold Arr.reverse; quiet
  · unfold Arr.join
    split
    · exact .bind' (joinParts X _) fun _ => .ok _
    · exact .failed _ _

theorem at_index (xs : List F64) (i : Nat) (h : i < xs.length) : Only P (Stat.at' xs i) := by rw [at_ok xs i h]; exact .ok _

theorem sortNums_length {xs ys : List F64} (h : Arr.sortNums xs = .ok ys) : ys.length = xs.length := by
  unfold Arr.sortNums at h
  split at h
  · simp [panics] at h
  · cases h; exact sortBy_length xs

theorem interpolate (xs : List F64) (p : F64) (hne : xs ≠ []) (h : P unwrapped) : Only P (Stat.interpolate xs p) := by
  unfold Stat.interpolate
  refine .bind (sortNums xs h) fun ys hys => ?_
  have hl := sortNums_length hys
  have hpos : 0 < ys.length := by rw [hl]; exact List.length_pos_iff.2 hne
  extract_lets len rank lo hi
  have hfc : lo ≤ hi := floor_le_ceil rank
  split
  · exact .bind' (at_index _ _ (by omega)) fun _ => .ok _
  · exact .bind' (at_index _ _ (by omega)) fun _ => .bind' (at_index _ _ (by omega)) fun _ => .ok _

theorem mode (args : List Value) : Only P (Stat.mode args) := by
  unfold Stat.mode
  extract_lets nums
  split
  · exact .ok _
  · rename_i hne
    have hne : nums ≠ [] := by simpa using hne
    obtain ⟨h1, h2, h3⟩ := foldl_max (Stat.occurrences nums) nums 0
    have hex : ∃ x ∈ nums, Stat.occurrences nums x = Stat.maxCount nums := by
      rcases h3 with h3 | h3
      · obtain ⟨x, hx⟩ := List.exists_mem_of_ne_nil _ hne
        have := h2 x hx
        have hp : 0 < nums.count x := List.count_pos_iff.2 hx
        rw [occurrences_eq] at this
        omega
      · exact h3
    cases hf : nums.find? (fun x => Stat.occurrences nums x == Stat.maxCount nums) with
    | none =>
      rw [List.find?_eq_none] at hf
      obtain ⟨x, hx, h⟩ := hex
      exact absurd (by simpa using h) (hf x hx)
    | some m => exact .ok _

theorem median (args : List Value) (h : P unwrapped) : Only P (Stat.median args) := by
  unfold Stat.median
  extract_lets nums
  split
  · exact .ok _
  · rename_i hne
    have hne : nums ≠ [] := by simpa using hne
    refine .bind (sortNums nums h) fun ys hys => ?_
    have hl := sortNums_length hys
    have hpos : 0 < ys.length := by rw [hl]; exact List.length_pos_iff.2 hne
    extract_lets len
    split
    · exact .bind' (at_index _ _ (by omega)) fun _ => .bind' (at_index _ _ (by omega)) fun _ => .ok _
    · exact .bind' (at_index _ _ (by omega)) fun _ => .ok _

theorem percentile (args : List Value) (h : P unwrapped) : Only P (Stat.percentile args) := by
  unfold Stat.percentile
  split
  · exact .failed _ _
  · simp only
    split
    · split
      · exact .ok _
      · rename_i hne
        split
        · exact .failed _ _
        · exact interpolate _ _ (by simpa using hne) h
    · exact .failed _ _

theorem quartile (args : List Value) (h : P unwrapped) : Only P (Stat.quartile args) := by
  unfold Stat.quartile
  split
  · exact .failed _ _
  · simp only
    split
    · split
      · exact .ok _
      · rename_i hne
        split
        · exact .failed _ _
        · exact interpolate _ _ (by simpa using hne) h
    · exact .failed _ _

theorem statistical (X : Ext) (name : Str) (args : List Value) (h : name ∈ sorters → P unwrapped) : Only P (execStatistical X name args) := by
  unfold execStatistical
  refine Table.exec ?_ args _ _
  unfold Stat.table
  simp only [Table]
  refine ⟨?_, ?_, ?_, ?_, ?_, ?_, ?_, ?_, ?_, ?_, ?_, ?_, ?_, ?_, ?_, ?_, trivial⟩
  all_goals intro hn args
  · exact median _ (h (by rw [hn]; decide))
  · exact mode _
  · exact mode _
  · exact mode _
  · unfold Stat.stdevP; quiet
  · unfold Stat.stdevP; quiet
  · unfold Stat.stdevP; quiet
  · unfold Stat.varP; quiet
  · unfold Stat.varP; quiet
  · unfold Stat.varP; quiet
  · exact percentile _ (h (by rw [hn]; decide))
  · exact percentile _ (h (by rw [hn]; decide))
  · exact percentile _ (h (by rw [hn]; decide))
  · exact quartile _ (h (by rw [hn]; decide))
  · exact quartile _ (h (by rw [hn]; decide))
  · exact quartile _ (h (by rw [hn]; decide))

theorem dateadd (X : Ext) (args : List Value) (h : ∀ t ∈ panicTexts, P t) : Only P (DT.dateadd X args) := by
  have hdur : ∀ t i u, Only P (Cal.addDuration t i u) := by
    intro t i u
    unfold Cal.addDuration
    simp only
    split
    · exact .panicked (h _ (by simp [panicTexts]))
    · split
      · exact .ok _
      · exact .panicked (h _ (by simp [panicTexts]))
  have h28 : ∀ y m d s, Only P (DT.dateOr28 y m d s) := by
    intro y m d s
    unfold DT.dateOr28
    split
    · exact .ok _
    · split
      · exact .ok _
      · exact .panicked (h _ (by simp [panicTexts]))
  have hadd : ∀ a b, Only P (DT.addI32 a b) := by
    intro a b
    unfold DT.addI32
    split
    · exact .ok _
    · exact .panicked (h _ (by simp [panicTexts]))
  have hcore : ∀ t i u, Only P (DT.dateaddCore t i u) := by
    intro t i u
    unfold DT.dateaddCore
    repeat' split
    all_goals first
      | exact .failed _ _
      | exact .bind' (hdur _ _ _) fun _ => .ok _
      | (refine .bind' ?_ fun _ => .ok _
         first
         | (unfold DT.addMonths; exact .bind' (hadd _ _) fun _ => h28 _ _ _ _)
         | (unfold DT.addYears; exact .bind' (hadd _ _) fun _ => h28 _ _ _ _))
  unfold DT.dateadd
  repeat' split
  all_goals first | exact .failed _ _ | exact hcore _ _ _

theorem datetime (X : Ext) (name : Str) (args : List Value) (h : name = c!"DATEADD" → ∀ t ∈ panicTexts, P t) : Only P (execDatetime X name args) := by
  unfold execDatetime
  refine Table.exec ?_ args _ _
  unfold DT.table
  simp only [Table]
  refine ⟨?_, ?_, ?_, ?_, ?_, ?_, ?_, ?_, trivial⟩
  all_goals intro hn args
  · exact .ok _
  · unfold DT.date; quiet
  · exact .ok _
  · unfold DT.year DT.field; quiet
  · unfold DT.month DT.field; quiet
  · unfold DT.day DT.field; quiet
  · exact dateadd X args (h hn)
  · have hcore : ∀ a b u, Only P (DT.datediffCore a b u) := by intro a b u; unfold DT.datediffCore; quiet
    unfold DT.datediff
    repeat' split
    all_goals first | exact .failed _ _ | exact hcore _ _ _

/-- What a builtin of that name may panic with. -/
structure Fn (P : String → Prop) (name : Str) : Prop where
  sorts : name ∈ sorters → P unwrapped
  dates : name = c!"DATEADD" → ∀ t ∈ panicTexts, P t

theorem execFast (X : Ext) (name : Str) (args : List Value) (h : Fn P name) : Only P (execFast X name args) := by
  unfold _root_.execFast
  split
  · exact array X name args h.sorts
  split
  · exact arithmetic X name args
  split
  · exact logical name args
  split
  · exact string X name args
  split
  · exact datetime X name args h.dates
  split
  · exact financial X name args
  split
  · exact statistical X name args h.sorts
  split
  · exact json X name args
  · exact .failed _ _

theorem execBuiltin (X : Ext) (name : Str) (args : List Value) (h : Fn P name) : Only P (execBuiltin X name args) := by
  unfold _root_.execBuiltin
  refine orElse (arithmetic X name args) (orElse (logical name args) (orElse (string X name args) (orElse (array X name args h.sorts) ?_)))
  split
  · exact datetime X name args h.dates
  · exact orElse (financial X name args) (orElse (statistical X name args h.sorts) (.failed _ _))

/-! ### Evaluation -/

/-- The custom functions in reach panic only as `P` says. -/
def Reg (P : String → Prop) (r : Option Registry) : Prop :=
  ∀ reg, r = some reg → ∀ n f args, reg n = some f → Only P (f.run args)

theorem Reg.none : Reg P none := by intro _ h; cases h

/-- An unevaluated expression that panics only as `P` says, whatever the variables. -/
def D (P : String → Prop) (d : Den) : Prop := ∀ r env, Reg P r → Only P (d r env)

structure A (P : String → Prop) (a : Arg) : Prop where
  run : D P a.run
  spread : ∀ d, a.spread = some d → D P d

abbrev As (P : String → Prop) (as : List Arg) : Prop := ∀ a ∈ as, A P a

theorem custom (X : Ext) {reg : Registry} (h : Reg P (some reg)) (n : Str) (args : List Value) : Only P (reg.execute X n args) := by
  unfold Registry.execute
  split
  · exact .failed _ _
  · rename_i f hf
    have := h reg rfl _ f args hf
    quiet

theorem evalArgs {r : Option Registry} (hr : Reg P r) (env : Env) {as : List Arg} (h : As P as) : Only P (evalArgs r env as) := by
  induction as with
  | nil => exact .ok _
  | cons a as ih =>
    have ha := h a (by simp)
    have ih := ih fun b hb => h b (by simp [hb])
    simp only [_root_.evalArgs]
    split
    · rename_i d hd
      refine .bind' (ha.spread d hd r env hr) fun v => ?_
      split
      · exact .bind' ih fun _ => .ok _
      · exact .failed _ _
    · exact .bind' (ha.run r env hr) fun v => .bind' ih fun _ => .ok _

theorem elements {r : Option Registry} (hr : Reg P r) (env : Env) {as : List Arg} (h : As P as) : Only P (elements r env as) := by
  induction as with
  | nil => exact .ok _
  | cons a as ih =>
    have ih := ih fun b hb => h b (by simp [hb])
    simp only [_root_.elements]
    exact .bind' ((h a (by simp)).run r env hr) fun v => .bind' ih fun _ => .ok _

theorem lastOf {r : Option Registry} (hr : Reg P r) (env : Env) {as : List Arg} (h : As P as) (v : Value) : Only P (lastOf r env v as) := by
  induction as generalizing v with
  | nil => exact .ok _
  | cons a as ih =>
    simp only [_root_.lastOf]
    exact .bind' ((h a (by simp)).run r env hr) fun v => ih (fun b hb => h b (by simp [hb])) v

theorem objectMembers (X : Ext) {r : Option Registry} (hr : Reg P r) (env : Env) (ms : List (Str × Json)) {ds : List (Str × Den)}
    (h : ∀ m ∈ ds, D P m.2) : Only P (objectMembers X r env ms ds) := by
  induction ds generalizing ms with
  | nil => exact .ok _
  | cons d ds ih =>
    obtain ⟨k, d⟩ := d
    simp only [_root_.objectMembers]
    exact .bind' (h (k, d) (by simp) r env hr) fun v => .bind' (toJson X v) fun j => ih _ fun m hm => h m (by simp [hm])

section loops
variable {lam : Env → Res Value} (hl : ∀ env, Only P (lam env))
include hl

theorem loop_filter (p : Str) (env : Env) (items : List Value) : Only P (Loop.filter lam p env items) := by
  induction items generalizing env with
  | nil => exact .ok _
  | cons v vs ih => simp only [Loop.filter]; exact .bind' (hl _) fun _ => .bind' (ih _) fun _ => .ok _

theorem loop_find (p : Str) (env : Env) (items : List Value) : Only P (Loop.find lam p env items) := by
  induction items generalizing env with
  | nil => exact .ok _
  | cons v vs ih =>
    simp only [Loop.find]
    refine .bind' (hl _) fun _ => ?_
    split
    · exact .ok _
    · exact ih _

theorem loop_map (p : Str) (env : Env) (items : List Value) : Only P (Loop.map lam p env items) := by
  induction items generalizing env with
  | nil => exact .ok _
  | cons v vs ih => simp only [Loop.map]; exact .bind' (hl _) fun _ => .bind' (ih _) fun _ => .ok _

theorem loop_reduce (p q : Str) (env : Env) (acc : Value) (items : List Value) : Only P (Loop.reduce lam p q env acc items) := by
  induction items generalizing env acc with
  | nil => exact .ok _
  | cons v vs ih => simp only [Loop.reduce]; exact .bind' (hl _) fun _ => ih _ _

theorem loop_reduceAccFirst (env : Env) (acc : Value) (items : List Value) : Only P (Loop.reduceAccFirst lam env acc items) := by
  induction items generalizing env acc with
  | nil => exact .ok _
  | cons v vs ih => simp only [Loop.reduceAccFirst]; exact .bind' (hl _) fun _ => ih _ _

theorem loop_sumif (env : Env) (acc : F64) (items : List Value) : Only P (Loop.sumif lam env acc items) := by
  induction items generalizing env acc with
  | nil => exact .ok _
  | cons v vs ih => simp only [Loop.sumif]; exact .bind' (hl _) fun _ => ih _ _

theorem loop_avgif (env : Env) (acc : F64) (n : Nat) (items : List Value) : Only P (Loop.avgif lam env acc n items) := by
  induction items generalizing env acc n with
  | nil => exact .ok _
  | cons v vs ih =>
    simp only [Loop.avgif]
    refine .bind' (hl _) fun _ => ?_
    split
    · exact ih _ _ _
    · exact ih _ _ _

theorem loop_countif (env : Env) (n : Nat) (items : List Value) : Only P (Loop.countif lam env n items) := by
  induction items generalizing env n with
  | nil => exact .ok _
  | cons v vs ih => simp only [Loop.countif]; exact .bind' (hl _) fun _ => ih _ _

end loops

theorem total (m : String) (acc : F64) (vs : List Value) : Only P (Method.total m acc vs) := by
  induction vs generalizing acc with
  | nil => exact .ok _
  | cons v vs ih => cases v <;> simp only [Method.total] <;> first | exact ih _ | exact .failed _ _

theorem extremeOf (f : F64 → F64 → F64) (m : String) (vs : List Value) : Only P (Method.extremeOf f m vs) := by
  have : ∀ cur, Only P (Method.extreme f m cur vs) := by
    induction vs with
    | nil => intro cur; exact .ok _
    | cons v vs ih => intro cur; cases v <;> simp only [Method.extreme] <;> first | exact ih _ | exact .failed _ _
  unfold Method.extremeOf
  split
  · exact .ok _
  · exact .bind' (this _) fun _ => .ok _

theorem method_joinParts (X : Ext) (vs : List Value) : Only P (Method.joinParts X vs) := by
  induction vs with
  | nil => exact .ok _
  | cons v vs ih => cases v <;> simp only [Method.joinParts] <;> first | exact .bind' ih fun _ => .ok _ | exact .failed _ _

section methods
variable {as : List Arg} (ha : As P as)
include ha

theorem textArg (env : Env) (m b : String) : Only P (Method.textArg env m b as) := by
  unfold Method.textArg
  split
  · exact .failed _ _
  · refine .bind' ((ha _ (by simp)).run _ _ .none) fun v => ?_
    quiet

theorem onString (X : Ext) (env : Env) (name s : Str) : Only P (Method.onString X env name s as) := by
  have ht := fun m b => textArg ha env m b
  have hev : ∀ a ∈ as, Only P (Method.ev env a) := fun a h => (ha a h).run _ _ .none
  have hrep : Only P (Method.replace env s as) := by
    unfold Method.replace
    split
    · exact .bind' (hev _ (by simp)) fun _ => .bind' (hev _ (by simp)) fun _ => by quiet
    · exact .failed _ _
  have hsub : Only P (Method.substring env s as) := by
    unfold Method.substring
    split
    · exact .failed _ _
    · refine .bind' (hev _ (by simp)) fun _ => ?_
      split
      · simp only
        split
        · refine .bind' (hev _ (by simp)) fun _ => ?_
          split
          · exact .ok _
          · exact .failed _ _
        · exact .ok _
      · exact .failed _ _
  unfold Method.onString
  simp only
  repeat' (first
    | (with_reducible refine Only.ite (fun _ => ?_) (fun _ => ?_))
    | with_reducible exact Only.ok _
    | exact hrep
    | exact hsub
    | with_reducible exact Only.failed _ _
    | exact .bind' (ht _ _) fun _ => .ok _)

theorem onArray (X : Ext) (env : Env) (name : Str) (items : List Value)
    (hs : X.lower name = c!"sort" → ∀ xs, Only P (X.sortUnspecified xs)) : Only P (Method.onArray X env name items as) := by
  have hev : ∀ a ∈ as, Only P (Method.ev env a) := fun a h => (ha a h).run _ _ .none
  have hjoin : Only P (Method.join X env items as) := by
    unfold Method.join
    extract_lets jp
    have hjp : ∀ s, Only P (jp s) := fun s => .bind' (method_joinParts X _) fun _ => .ok _
    split
    · exact hjp _
    · refine .bind' (hev _ (by simp)) fun _ => ?_
      split
      · exact hjp _
      · exact hjp _
  have htot : ∀ m acc, Only P (Method.total m acc items) := fun m acc => total m acc items
  have hext : ∀ f m, Only P (Method.extremeOf f m items) := fun f m => extremeOf f m items
  have hsort : (∀ xs, Only P (X.sortUnspecified xs)) → Only P (Method.sort X env items as) := by
    intro hu
    unfold Method.sort
    extract_lets jp
    have hjp : ∀ d, Only P (jp d) := by
      refine fun d => .bind' (allNums _ _) fun xs => .bind' ?_ fun _ => .ok _
      unfold Method.sortNums
      split
      · exact hu xs
      · exact .ok _
    split
    · exact hjp _
    · refine .bind' (hev _ (by simp)) fun _ => ?_
      split
      · exact hjp _
      · exact hjp _
  unfold Method.onArray
  simp only
  repeat' (first
    | (with_reducible refine Only.ite (fun _ => ?_) (fun _ => ?_))
    | with_reducible exact Only.ok _
    | exact hext _ _
    | exact hjoin
    | exact hsort (hs (by assumption))
    | with_reducible exact Only.failed _ _
    | exact .bind' (htot _ _) fun _ => .ok _
    | exact .bind' (hev _ (by simp)) fun _ => .ok _
    | split)

theorem onNumber (X : Ext) (env : Env) (name : Str) (n : F64) : Only P (Method.onNumber X env name n as) := by
  have hev : ∀ a ∈ as, Only P (Method.ev env a) := fun a h => (ha a h).run _ _ .none
  have hround : Only P (Method.round X env n as) := by
    unfold Method.round
    split
    · exact .ok _
    · refine .bind' (hev _ (by simp)) fun _ => ?_
      quiet
  have hamount : ∀ m v, Only P (Method.amount m v) := by intro m v; unfold Method.amount; quiet
  have hbetween : Only P (Method.between env n as) := by
    unfold Method.between
    split
    · exact .bind' (hev _ (by simp)) fun _ => .bind' (hev _ (by simp)) fun _ => .bind' (hamount _ _) fun _ => .bind' (hamount _ _) fun _ => .ok _
    · exact .failed _ _
  unfold Method.onNumber
  simp only
  repeat' (first
    | (with_reducible refine Only.ite (fun _ => ?_) (fun _ => ?_))
    | with_reducible exact Only.ok _
    | exact hround
    | exact hbetween
    | with_reducible exact Only.failed _ _)

theorem onJson (X : Ext) (env : Env) (name s : Str) : Only P (Method.onJson X env name s as) := by
  have hev : ∀ a ∈ as, Only P (Method.ev env a) := fun a h => (ha a h).run _ _ .none
  have hdig : Only P (Method.dig X env s as) := by
    unfold Method.dig
    split
    · exact .failed _ _
    · refine .bind' (hev _ (by simp)) fun path => ?_
      extract_lets jp
      have hjp : ∀ d, Only P (jp d) := by
        intro d
        change Only P (match path with
          | .arr path => (_root_.parseJson X s >>= fun j => match JsonFn.digPath j path with
            | some found => pure (Json.toValue X found)
            | none => pure d)
          | _ => fail "dig expects first argument to be an array path")
        split
        · refine .bind' (parseJson X s) fun j => ?_
          quiet
        · exact .failed _ _
      split
      · exact hjp _
      · exact .bind' (hev _ (by simp)) fun _ => hjp _
  unfold Method.onJson
  simp only
  repeat' (first
    | (with_reducible refine Only.ite (fun _ => ?_) (fun _ => ?_))
    | with_reducible exact Only.ok _
    | exact hdig
    | with_reducible exact Only.failed _ _
    | exact .bind' (parseJson X s) fun _ => by quiet
    | (refine .bind' (hev _ (by simp)) fun _ => ?_)
    | split)

theorem exec (X : Ext) {r : Option Registry} (hr : Reg P r) (env : Env) (name : Str) (p : Bool) (v : Value)
    (hs : p = false → X.lower name = c!"sort" → ∀ xs, Only P (X.sortUnspecified xs)) : Only P (Method.exec X r env name p v as) := by
  unfold Method.exec
  cases p with
  | true =>
    rw [if_pos rfl]
    unfold Method.predicate
    simp only
    repeat' (first | (with_reducible refine Only.ite (fun _ => ?_) (fun _ => ?_)) | with_reducible exact Only.ok _ | with_reducible exact Only.failed _ _)
  | false =>
    rw [if_neg (by simp)]
    simp only
    have hlam : ∀ a ∈ as, ∀ env, Only P (a.run r env) := fun a h env => (ha a h).run r env hr
    split
    · rename_i res hres
      unfold Method.conversion at hres
      repeat' (split at hres)
      all_goals first
        | (cases hres; done)
        | (cases hres; exact .ok _)
        | skip
      cases hres
      unfold Method.toJson
      split
      · exact .ok _
      · exact .ok _
      · exact .bind' (toJsonValue X _) fun _ => .ok _
    · split
      · exact onString ha X env name _
      · split
        · unfold Method.filter
          split
          · exact .failed _ _
          · exact .bind' (loop_filter (fun env => hlam _ (by simp) env) _ _ _) fun _ => .ok _
        split
        · unfold Method.map
          split
          · exact .failed _ _
          · exact .bind' (loop_map (fun env => hlam _ (by simp) env) _ _ _) fun _ => .ok _
        split
        · unfold Method.find
          split
          · exact .failed _ _
          · exact loop_find (fun env => hlam _ (by simp) env) _ _ _
        split
        · unfold Method.reduce
          split
          · exact .bind' (hlam _ (by simp) _) fun _ => loop_reduce (fun env => hlam _ (by simp) env) _ _ _ _ _
          · exact .failed _ _
        · exact onArray ha X env name _ (hs rfl)
      · exact onNumber ha X env name _
      · exact onJson ha X env name _
      · exact .failed _ _

end methods

section calls
variable {as : List Arg} (ha : As P as)
include ha

theorem opt_head (i : Nat) : ∀ a, as[i]? = some a → A P a := fun a h => ha a (List.mem_of_getElem? h)

theorem ternary {r : Option Registry} (hr : Reg P r) (env : Env) : Only P (Legacy.ternary r env as) := by
  unfold Legacy.ternary
  split
  · refine .bind' ((ha _ (by simp)).run r env hr) fun v => ?_
    split
    · split
      · exact (ha _ (by simp)).run r env hr
      · exact (ha _ (by simp)).run r env hr
    · exact .failed _ _
  · exact .failed _ _

end calls

theorem legacy_param (env : Env) {a : Option Arg} (h : ∀ b, a = some b → A P b) : Only P (Legacy.paramName env a) := by
  unfold Legacy.paramName
  split
  · exact .bind' ((h _ rfl).run none env .none) fun _ => by quiet
  · exact .ok _

theorem legacy_paramOr (env : Env) (d : Str) {a : Option Arg} (h : ∀ b, a = some b → A P b) : Only P (Legacy.paramNameOr env d a) := by
  have := legacy_param env h
  unfold Legacy.paramNameOr
  split
  · exact .ok _
  · rename_i w hw; intro w' hw'; cases hw'; exact this w hw
  · exact .ok _

theorem eval_param {r : Option Registry} (hr : Reg P r) (env : Env) (d : Str) {a : Option Arg} (h : ∀ b, a = some b → A P b) :
    Only P (Eval.paramName r env d a) := by
  unfold Eval.paramName
  split
  · exact .bind' ((h _ rfl).run r env hr) fun _ => by quiet
  · exact .ok _

theorem mem_head {a : Arg} {l as : List Arg} (ha : As P as) (hl : ∀ b ∈ l, b ∈ as) (h : l.head? = some a) : A P a :=
  ha a (hl a (List.mem_of_mem_head? h))

theorem mem_at {a : Arg} {l as : List Arg} {i : Nat} (ha : As P as) (hl : ∀ b ∈ l, b ∈ as) (h : l[i]? = some a) : A P a :=
  ha a (hl a (List.mem_of_getElem? h))

theorem lambda {a : Arg} (h : A P a) (env : Env) : Only P (Legacy.lambda a env) := by
  unfold Legacy.lambda
  split
  · exact .failed _ _
  · exact h.run none env .none

theorem legacy_higherOrder {as : List Arg} (ha : As P as) {r : Option Registry} (hr : Reg P r) (env : Env) {name : Str}
    {f : Option Registry → Env → List Arg → Res Value} (hf : Legacy.higherOrder name = some f) : Only P (f r env as) := by
  have hrun : ∀ a ∈ as, ∀ env, Only P (a.run r env) := fun a h env => (ha a h).run r env hr
  have hrun0 : ∀ a ∈ as, ∀ env, Only P (a.run none env) := fun a h env => (ha a h).run none env .none
  unfold Legacy.higherOrder at hf
  repeat' (split at hf)
  all_goals first | (cases hf; done) | cases hf
  · unfold Legacy.filter
    split
    · rename_i a lam rest
      refine .bind' (hrun0 _ (by simp) _) fun v => .bind' (legacy_param _ fun b hb => mem_head ha (by simp_all) hb) fun p => ?_
      split
      · exact .bind' (loop_filter (fun env => lambda (ha _ (by simp)) env) _ _ _) fun _ => .ok _
      · exact .failed _ _
    · exact .failed _ _
    · refine .bind' (hrun _ (by simp) _) fun v => ?_
      split
      · exact .bind' (loop_filter (fun env => hrun _ (by simp) env) _ _ _) fun _ => .ok _
      · exact .failed _ _
    · exact .failed _ _
  · unfold Legacy.find
    split
    · refine .bind' (hrun0 _ (by simp) _) fun v => .bind' (legacy_param _ fun b hb => mem_head ha (by simp_all) hb) fun p => ?_
      split
      · exact loop_find (fun env => lambda (ha _ (by simp)) env) _ _ _
      · exact .failed _ _
    · exact .failed _ _
    · refine .bind' (hrun _ (by simp) _) fun v => ?_
      split
      · exact loop_find (fun env => hrun _ (by simp) env) _ _ _
      · exact .failed _ _
    · exact .failed _ _
  · unfold Legacy.map
    split
    · refine .bind' (hrun0 _ (by simp) _) fun v => .bind' (legacy_param _ fun b hb => mem_head ha (by simp_all) hb) fun p => ?_
      split
      · exact .bind' (loop_map (fun env => lambda (ha _ (by simp)) env) _ _ _) fun _ => .ok _
      · exact .failed _ _
    · exact .failed _ _
    · refine .bind' (hrun _ (by simp) _) fun v => ?_
      split
      · exact .bind' (loop_map (fun env => hrun _ (by simp) env) _ _ _) fun _ => .ok _
      · exact .failed _ _
    · exact .failed _ _
  · unfold Legacy.reduce
    split
    · refine .bind' (hrun0 _ (by simp) _) fun v => .bind' (hrun0 _ (by simp) _) fun acc =>
        .bind' (legacy_paramOr _ _ fun b hb => mem_head ha (by simp_all) hb) fun p =>
        .bind' (legacy_paramOr _ _ fun b hb => mem_at ha (by simp_all) hb) fun q => ?_
      split
      · exact loop_reduce (fun env => lambda (ha _ (by simp)) env) _ _ _ _ _
      · exact .failed _ _
    · exact .failed _ _
    · refine .bind' (hrun _ (by simp) _) fun v => .bind' (hrun _ (by simp) _) fun acc => ?_
      split
      · exact loop_reduceAccFirst (fun env => hrun _ (by simp) env) _ _ _
      · exact .failed _ _
    · exact .failed _ _
  · unfold Legacy.sumif
    split
    · refine .bind' (hrun _ (by simp) _) fun v => ?_
      split
      · exact .bind' (loop_sumif (fun env => hrun _ (by simp) env) _ _ _) fun _ => .ok _
      · exact .failed _ _
    · exact .failed _ _
  · unfold Legacy.avgif
    split
    · refine .bind' (hrun _ (by simp) _) fun v => ?_
      split
      · exact .bind' (loop_avgif (fun env => hrun _ (by simp) env) _ _ _ _) fun _ => .ok _
      · exact .failed _ _
    · exact .failed _ _
  · unfold Legacy.countif
    split
    · refine .bind' (hrun _ (by simp) _) fun v => ?_
      split
      · exact .bind' (loop_countif (fun env => hrun _ (by simp) env) _ _ _) fun _ => .ok _
      · exact .failed _ _
    · exact .failed _ _

theorem eval_higherOrder (X : Ext) {as : List Arg} (ha : As P as) {r : Option Registry} (hr : Reg P r) (env : Env) {name : Str}
    {f : Option Registry → Env → List Arg → Res Value} (hf : Eval.higherOrder X name = some f) : Only P (f r env as) := by
  have hrun : ∀ a ∈ as, ∀ env, Only P (a.run r env) := fun a h env => (ha a h).run r env hr
  have hrun0 : ∀ a ∈ as, ∀ env, Only P (a.run none env) := fun a h env => (ha a h).run none env .none
  unfold Eval.higherOrder at hf
  repeat' (split at hf)
  all_goals first | (cases hf; done) | cases hf
  · unfold Eval.filter
    split
    · refine .bind' (hrun _ (by simp) _) fun v => .bind' (eval_param hr _ _ fun b hb => mem_head ha (by simp_all) hb) fun p => ?_
      split
      · exact .bind' (loop_filter (fun env => hrun0 _ (by simp) env) _ _ _) fun _ => .ok _
      · exact .failed _ _
    · exact .failed _ _
  · unfold Eval.find
    split
    · refine .bind' (hrun _ (by simp) _) fun v => .bind' (eval_param hr _ _ fun b hb => mem_head ha (by simp_all) hb) fun p => ?_
      split
      · exact loop_find (fun env => hrun0 _ (by simp) env) _ _ _
      · exact .failed _ _
    · exact .failed _ _
  · unfold Eval.map
    split
    · refine .bind' (hrun _ (by simp) _) fun v => .bind' (eval_param hr _ _ fun b hb => mem_head ha (by simp_all) hb) fun p => ?_
      split
      · exact .bind' (loop_map (fun env => hrun0 _ (by simp) env) _ _ _) fun _ => .ok _
      · exact .failed _ _
    · exact .failed _ _
  · unfold Eval.reduce
    split
    · refine .bind' (hrun _ (by simp) _) fun v => .bind' (hrun _ (by simp) _) fun acc =>
        .bind' (eval_param hr _ _ fun b hb => mem_head ha (by simp_all) hb) fun p =>
        .bind' (eval_param hr _ _ fun b hb => mem_at ha (by simp_all) hb) fun q => ?_
      split
      · exact loop_reduce (fun env => hrun0 _ (by simp) env) _ _ _ _ _
      · exact .failed _ _
    · exact .failed _ _
  · have hst : ∀ a ∈ as, Only P (Eval.staticCriterion r env a) := by
      intro a h w hw
      unfold Eval.staticCriterion at hw
      split at hw
      · cases hw
      · cases hw
      · cases hw
      · cases hw
      · rename_i w' hw'; cases hw; exact hrun a h env w hw'
    unfold Eval.sumif
    simp only
    split
    · refine .bind' (hrun _ (by simp) _) fun v => .bind' (.pure' _) fun s => .bind' (hst _ (by simp)) fun c => ?_
      split
      · exact .ok _
      · split
        · exact .failed _ _
        · split
          · exact .bind' (loop_sumif (fun env => hrun0 _ (by simp) env) _ _ _) fun _ => .ok _
          · exact .failed _ _
    · refine .bind' (hrun _ (by simp) _) fun v => .bind' (hrun _ (by simp) _) fun w => .bind' (.pure' _) fun s => .bind' (hst _ (by simp)) fun c => ?_
      split
      · exact .ok _
      · split
        · exact .failed _ _
        · split
          · exact .bind' (loop_sumif (fun env => hrun0 _ (by simp) env) _ _ _) fun _ => .ok _
          · exact .failed _ _
    · exact .failed _ _
  · unfold Eval.avgif
    split
    · refine .bind' (hrun _ (by simp) _) fun v => ?_
      split
      · exact .bind' (loop_avgif (fun env => hrun0 _ (by simp) env) _ _ _ _) fun _ => .ok _
      · exact .failed _ _
    · exact .failed _ _
  · unfold Eval.countif
    split
    · refine .bind' (hrun _ (by simp) _) fun v => ?_
      split
      · exact .bind' (loop_countif (fun env => hrun0 _ (by simp) env) _ _ _) fun _ => .ok _
      · exact .failed _ _
    · exact .failed _ _
  · unfold Eval.jq
    split
    · refine .bind' (hrun _ (by simp) _) fun v => .bind' (hrun _ (by simp) _) fun w => ?_
      split
      · split
        · unfold JsonFn.applyJsonPath
          refine .bind' (pathToJson X _) fun j => ?_
          quiet
        · exact .failed _ _
      · exact .failed _ _
    · exact .failed _ _

theorem legacy_call (X : Ext) {as : List Arg} (ha : As P as) {r : Option Registry} (hr : Reg P r) (env : Env) (name : Str) (hn : Fn P name) :
    Only P (Legacy.call X name as r env) := by
  unfold Legacy.call
  split
  · exact ternary ha hr env
  split
  · rename_i reg h
    have hreg : r = some reg := by
      cases r with
      | none => cases h
      | some reg' => simp only at h; split at h <;> cases h; rfl
    subst hreg
    exact .bind' (evalArgs hr env ha) fun args => custom X hr name args
  · split
    · exact legacy_higherOrder ha hr env (by assumption)
    · exact .bind' (evalArgs hr env ha) fun args => execBuiltin X name args hn

theorem eval_call (X : Ext) {as : List Arg} (ha : As P as) {r : Option Registry} (hr : Reg P r) (env : Env) (name : Str) (hn : Fn P name) :
    Only P (Eval.call X name as r env) := by
  unfold Eval.call
  split
  · exact ternary ha hr env
  split
  · exact .ok _
  split
  · exact .ok _
  split
  · rename_i reg h
    have hreg : r = some reg := by
      cases r with
      | none => cases h
      | some reg' => simp only at h; split at h <;> cases h; rfl
    subst hreg
    exact .bind' (evalArgs hr env ha) fun args => custom X hr name args
  · split
    · exact eval_higherOrder X ha hr env (by assumption)
    · exact .bind' (evalArgs hr env ha) fun args => execFast X name args hn

/-- What is asked of the parts of an expression. -/
structure E (P : String → Prop) (X : Ext) (cs ms : List Str) (is : List Expr) : Prop where
  calls : ∀ n ∈ cs, Fn P n
  methods : ∀ n ∈ ms, X.lower n = c!"sort" → ∀ xs, Only P (X.sortUnspecified xs)
  indices : ∀ i ∈ is, P negated ∨ PlainIndex i

theorem E.sub {X : Ext} {cs cs' ms ms' : List Str} {is is' : List Expr} (h : E P X cs ms is) (h1 : ∀ n ∈ cs', n ∈ cs) (h2 : ∀ n ∈ ms', n ∈ ms)
    (h3 : ∀ i ∈ is', i ∈ is) : E P X cs' ms' is' :=
  ⟨fun n hn => h.calls n (h1 n hn), fun n hn => h.methods n (h2 n hn), fun i hi => h.indices i (h3 i hi)⟩

theorem plain_index {X : Ext} {i : Expr} (h : PlainIndex i) (r : Option Registry) (env : Env) (v : Value)
    (hv : Eval.eval X i r env = .ok v ∨ Legacy.eval X i r env = .ok v) (n : F64) (hn : v = .num n) : n.toI64 ≠ F64.i64Min := by
  subst hn
  unfold PlainIndex at h
  split at h
  · simp only [Eval.eval, Legacy.eval, Except.ok.injEq, Value.num.injEq, or_self] at hv
    subst hv; exact h
  · simp only [Eval.eval, Legacy.eval, or_self] at hv
    change Except.ok (Value.num _) = Except.ok (Value.num n) at hv
    simp only [Except.ok.injEq, Value.num.injEq] at hv
    subst hv; exact h
  · exact h.elim

macro "part" : tactic => `(tactic| (intro x hx; simp_all [Spec.calls, Spec.methods, Spec.indices, callsList, methodsList, indicesList, callsMembers, methodsMembers, indicesMembers, callsOpt, methodsOpt, indicesOpt]))

mutual
theorem legacy (X : Ext) (e : Expr) (h : E P X (Spec.calls e) (Spec.methods e) (Spec.indices e)) : D P (Legacy.eval X e) := by
  intro r env hr
  have hsub : ∀ e' : Expr, (∀ n ∈ Spec.calls e', n ∈ Spec.calls e) → (∀ n ∈ Spec.methods e', n ∈ Spec.methods e) →
      (∀ n ∈ Spec.indices e', n ∈ Spec.indices e) → E P X (Spec.calls e') (Spec.methods e') (Spec.indices e') := fun e' => h.sub
  cases e with
  | number _ => simp only [Legacy.eval]; exact .ok _
  | strLit _ => simp only [Legacy.eval]; exact .ok _
  | null => simp only [Legacy.eval]; exact .ok _
  | spread _ => simp only [Legacy.eval]; exact .failed _ _
  | var n => simp only [Legacy.eval]; quiet
  | unary op e => simp only [Legacy.eval]; exact .bind' (legacy X e (hsub e (by part) (by part) (by part)) r env hr) fun _ => unary _ _
  | prop e n =>
    simp only [Legacy.eval]
    exact .bind' (legacy X e (hsub e (by part) (by part) (by part)) r env hr) fun _ =>
      property X _ (by intro v w; unfold Legacy.noProps; split <;> simp) _ _ _
  | safeProp e n =>
    simp only [Legacy.eval]
    exact .bind' (legacy X e (hsub e (by part) (by part) (by part)) r env hr) fun _ =>
      property X _ (by intro v w; unfold Legacy.noProps; split <;> simp) _ _ _
  | cast e t => simp only [Legacy.eval]; exact .bind' (legacy X e (hsub e (by part) (by part) (by part)) r env hr) fun _ => cast X _ _
  | assign x e => simp only [Legacy.eval]; exact legacy X e (hsub e (by part) (by part) (by part)) r env hr
  | binary a op b =>
    simp only [Legacy.eval]
    exact .bind' (legacy X a (hsub a (by part) (by part) (by part)) r env hr) fun _ =>
      .bind' (legacy X b (hsub b (by part) (by part) (by part)) r env hr) fun _ => binary X _ _ _
  | index a b =>
    simp only [Legacy.eval]
    refine .bind' (legacy X a (hsub a (by part) (by part) (by part)) r env hr) fun _ =>
      .bind (legacy X b (hsub b (by part) (by part) (by part)) r env hr) fun iv hiv => ?_
    split
    · refine index _ _ fun n hn hm => ?_
      rcases h.indices b (by simp [Spec.indices]) with h | h
      · exact h
      · exact absurd hm (plain_index h _ env iv (.inr hiv) n hn)
    · exact indexCustom _ _
  | call n es =>
    simp only [Legacy.eval]
    exact legacy_call X (legacy_args X es (h.sub (by part) (by part) (by part))) hr env n (h.calls n (by simp [Spec.calls]))
  | array es =>
    simp only [Legacy.eval]
    exact .bind' (elements hr env (legacy_args X es (h.sub (by part) (by part) (by part)))) fun _ => .ok _
  | seq es =>
    simp only [Legacy.eval]
    exact lastOf hr env (legacy_args X es (h.sub (by part) (by part) (by part))) _
  | object ms =>
    simp only [Legacy.eval]
    exact .bind' (objectMembers X hr env _ (legacy_members X ms (h.sub (by part) (by part) (by part)))) fun _ => .ok _
  | safeCall t n es =>
    simp only [Legacy.eval]
    refine .bind' (legacy X t (hsub t (by part) (by part) (by part)) r env hr) fun v => ?_
    split
    · exact .ok _
    · exact exec (legacy_args X es (h.sub (by part) (by part) (by part))) X hr env n false _ fun _ => h.methods n (by simp [Spec.methods])
  | method t n es p =>
    simp only [Legacy.eval]
    exact .bind' (legacy X t (hsub t (by part) (by part) (by part)) r env hr) fun v =>
      exec (legacy_args X es (h.sub (by part) (by part) (by part))) X hr env n p _ fun hp => h.methods n (by simp [Spec.methods, hp])
  | slice t a b =>
    have h1 := legacy_opt X a (h.sub (by part) (by part) (by part))
    have h2 := legacy_opt X b (h.sub (by part) (by part) (by part))
    have hopt : ∀ {o : Option Den}, (∀ d, o = some d → D P d) → Only P (Legacy.optional r env o) := by
      intro o ho
      unfold Legacy.optional
      split
      · exact .ok _
      · exact .bind' (ho _ rfl r env hr) fun _ => .ok _
    have hbound : ∀ {o : Option Den} l d m, (∀ d, o = some d → D P d) → Only P (Legacy.boundCustom r env l d m o) := by
      intro o l d m ho
      unfold Legacy.boundCustom
      split
      · exact .ok _
      · exact .bind' (ho _ rfl r env hr) fun _ => by quiet
    simp only [Legacy.eval]
    refine .bind' (legacy X t (hsub t (by part) (by part) (by part)) r env hr) fun v => ?_
    split
    · split
      · exact .bind' (hopt h1) fun _ => .bind' (hopt h2) fun _ => slice _ _ _
      · exact .failed _ _
    · unfold Legacy.sliceCustom
      split
      · refine .bind' (hbound _ _ _ h1) fun _ => .bind' (hbound _ _ _ h2) fun _ => ?_
        split
        · exact .ok _
        · exact .ok _
      · exact .failed _ _
theorem legacy_args (X : Ext) (es : List Expr) (h : E P X (callsList es) (methodsList es) (indicesList es)) : As P (Legacy.argsOf X es) := by
  cases es with
  | nil => intro a ha; simp [Legacy.argsOf] at ha
  | cons e es =>
    rw [Legacy.argsOf_cons]
    intro a ha
    rcases List.mem_cons.1 ha with rfl | ha
    · have hrun := legacy X e (h.sub (by part) (by part) (by part))
      cases e with
      | spread e =>
        refine ⟨hrun, ?_⟩
        intro d hd
        cases hd
        exact legacy X e (h.sub (by part) (by part) (by part))
      | _ => exact ⟨hrun, fun d hd => by cases hd⟩
    · exact legacy_args X es (h.sub (by part) (by part) (by part)) a ha
theorem legacy_members (X : Ext) (ms : List (Str × Expr)) (h : E P X (callsMembers ms) (methodsMembers ms) (indicesMembers ms)) :
    ∀ m ∈ Legacy.membersOf X ms, D P m.2 := by
  cases ms with
  | nil => intro a ha; simp [Legacy.membersOf] at ha
  | cons m ms =>
    obtain ⟨k, e⟩ := m
    simp only [Legacy.membersOf]
    intro a ha
    rcases List.mem_cons.1 ha with rfl | ha
    · exact legacy X e (h.sub (by part) (by part) (by part))
    · exact legacy_members X ms (h.sub (by part) (by part) (by part)) a ha
theorem legacy_opt (X : Ext) (o : Option Expr) (h : E P X (callsOpt o) (methodsOpt o) (indicesOpt o)) :
    ∀ d, Legacy.optOf X o = some d → D P d := by
  cases o with
  | none => intro d hd; simp [Legacy.optOf] at hd
  | some e =>
    intro d hd
    simp only [Legacy.optOf, Option.some.injEq] at hd
    subst hd
    exact legacy X e (h.sub (by part) (by part) (by part))
end

mutual
theorem evaluator (X : Ext) (e : Expr) (h : E P X (Spec.calls e) (Spec.methods e) (Spec.indices e)) : D P (Eval.eval X e) := by
  intro r env hr
  have hsub : ∀ e' : Expr, (∀ n ∈ Spec.calls e', n ∈ Spec.calls e) → (∀ n ∈ Spec.methods e', n ∈ Spec.methods e) →
      (∀ n ∈ Spec.indices e', n ∈ Spec.indices e) → E P X (Spec.calls e') (Spec.methods e') (Spec.indices e') := fun e' => h.sub
  cases e with
  | number _ => simp only [Eval.eval]; exact .ok _
  | strLit _ => simp only [Eval.eval]; exact .ok _
  | null => simp only [Eval.eval]; exact .ok _
  | spread _ => simp only [Eval.eval]; exact .failed _ _
  | var n => simp only [Eval.eval]; quiet
  | unary op e => simp only [Eval.eval]; exact .bind' (evaluator X e (hsub e (by part) (by part) (by part)) r env hr) fun _ => unary _ _
  | prop e n =>
    simp only [Eval.eval]
    exact .bind' (evaluator X e (hsub e (by part) (by part) (by part)) r env hr) fun _ =>
      property X _ (by intro v w; simp [Eval.noProps]) _ _ _
  | safeProp e n =>
    simp only [Eval.eval]
    exact .bind' (evaluator X e (hsub e (by part) (by part) (by part)) r env hr) fun _ =>
      property X _ (by intro v w; simp [Eval.noProps]) _ _ _
  | cast e t => simp only [Eval.eval]; exact .bind' (evaluator X e (hsub e (by part) (by part) (by part)) r env hr) fun _ => cast X _ _
  | assign x e => simp only [Eval.eval]; exact evaluator X e (hsub e (by part) (by part) (by part)) r env hr
  | binary a op b =>
    simp only [Eval.eval]
    exact .bind' (evaluator X a (hsub a (by part) (by part) (by part)) r env hr) fun _ =>
      .bind' (evaluator X b (hsub b (by part) (by part) (by part)) r env hr) fun _ => binary X _ _ _
  | index a b =>
    simp only [Eval.eval]
    refine .bind' (evaluator X a (hsub a (by part) (by part) (by part)) r env hr) fun _ =>
      .bind (evaluator X b (hsub b (by part) (by part) (by part)) r env hr) fun iv hiv => ?_
    refine index _ _ fun n hn hm => ?_
    rcases h.indices b (by simp [Spec.indices]) with h | h
    · exact h
    · exact absurd hm (plain_index h _ env iv (.inl hiv) n hn)
  | call n es =>
    simp only [Eval.eval]
    exact eval_call X (evaluator_args X es (h.sub (by part) (by part) (by part))) hr env n (h.calls n (by simp [Spec.calls]))
  | array es =>
    simp only [Eval.eval]
    exact .bind' (elements hr env (evaluator_args X es (h.sub (by part) (by part) (by part)))) fun _ => .ok _
  | seq es =>
    simp only [Eval.eval]
    exact lastOf hr env (evaluator_args X es (h.sub (by part) (by part) (by part))) _
  | object ms =>
    simp only [Eval.eval]
    exact .bind' (objectMembers X hr env _ (evaluator_members X ms (h.sub (by part) (by part) (by part)))) fun _ => .ok _
  | safeCall t n es =>
    simp only [Eval.eval]
    refine .bind' (evaluator X t (hsub t (by part) (by part) (by part)) r env hr) fun v => ?_
    split
    · exact .ok _
    · exact exec (legacy_args X es (h.sub (by part) (by part) (by part))) X hr env n false _ fun _ => h.methods n (by simp [Spec.methods])
  | method t n es p =>
    simp only [Eval.eval]
    exact .bind' (evaluator X t (hsub t (by part) (by part) (by part)) r env hr) fun v =>
      exec (legacy_args X es (h.sub (by part) (by part) (by part))) X hr env n p _ fun hp => h.methods n (by simp [Spec.methods, hp])
  | slice t a b =>
    have h1 := evaluator_opt X a (h.sub (by part) (by part) (by part))
    have h2 := evaluator_opt X b (h.sub (by part) (by part) (by part))
    have hopt : ∀ {o : Option Den}, (∀ d, o = some d → D P d) → Only P (Legacy.optional r env o) := by
      intro o ho
      unfold Legacy.optional
      split
      · exact .ok _
      · exact .bind' (ho _ rfl r env hr) fun _ => .ok _
    simp only [Eval.eval]
    refine .bind' (evaluator X t (hsub t (by part) (by part) (by part)) r env hr) fun v => ?_
    split
    · exact .bind' (hopt h1) fun _ => .bind' (hopt h2) fun _ => slice _ _ _
    · exact .failed _ _
theorem evaluator_args (X : Ext) (es : List Expr) (h : E P X (callsList es) (methodsList es) (indicesList es)) : As P (Eval.argsOf X es) := by
  cases es with
  | nil => intro a ha; simp [Eval.argsOf] at ha
  | cons e es =>
    rw [Eval.argsOf_cons]
    intro a ha
    rcases List.mem_cons.1 ha with rfl | ha
    · have hrun := evaluator X e (h.sub (by part) (by part) (by part))
      cases e with
      | spread e =>
        refine ⟨hrun, ?_⟩
        intro d hd
        cases hd
        exact evaluator X e (h.sub (by part) (by part) (by part))
      | _ => exact ⟨hrun, fun d hd => by cases hd⟩
    · exact evaluator_args X es (h.sub (by part) (by part) (by part)) a ha
theorem evaluator_members (X : Ext) (ms : List (Str × Expr)) (h : E P X (callsMembers ms) (methodsMembers ms) (indicesMembers ms)) :
    ∀ m ∈ Eval.membersOf X ms, D P m.2 := by
  cases ms with
  | nil => intro a ha; simp [Eval.membersOf] at ha
  | cons m ms =>
    obtain ⟨k, e⟩ := m
    simp only [Eval.membersOf]
    intro a ha
    rcases List.mem_cons.1 ha with rfl | ha
    · exact evaluator X e (h.sub (by part) (by part) (by part))
    · exact evaluator_members X ms (h.sub (by part) (by part) (by part)) a ha
theorem evaluator_opt (X : Ext) (o : Option Expr) (h : E P X (callsOpt o) (methodsOpt o) (indicesOpt o)) :
    ∀ d, Eval.optOf X o = some d → D P d := by
  cases o with
  | none => intro d hd; simp [Eval.optOf] at hd
  | some e =>
    intro d hd
    simp only [Eval.optOf, Option.some.injEq] at hd
    subst hd
    exact evaluator X e (h.sub (by part) (by part) (by part))
end

mutual
theorem assignments (X : Ext) (e : Expr) (h : E P X (Spec.calls e) (Spec.methods e) (Spec.indices e)) (env : Env) :
    Only P (Eval.assignments X e env) := by
  cases e with
  | assign x e =>
    simp only [Eval.assignments]
    exact .bind' (evaluator X e (h.sub (by part) (by part) (by part)) none env .none) fun _ => .ok _
  | seq es =>
    simp only [Eval.assignments]
    exact assignmentsSeq X es (h.sub (by part) (by part) (by part)) _ env
  | _ => simp only [Eval.assignments]; exact .bind' (evaluator X _ h none env .none) fun _ => .ok _
theorem assignmentsSeq (X : Ext) (es : List Expr) (h : E P X (callsList es) (methodsList es) (indicesList es)) (last : Value) (env : Env) :
    Only P (Eval.assignmentsSeq X es last env) := by
  cases es with
  | nil => simp only [Eval.assignmentsSeq]; exact .ok _
  | cons e es =>
    simp only [Eval.assignmentsSeq]
    exact .bind' (assignments X e (h.sub (by part) (by part) (by part)) env) fun p =>
      assignmentsSeq X es (h.sub (by part) (by part) (by part)) _ _
end

end Quiet

open Quiet Lib

/-! ### C71 -/

/-- C71 is false as stated: sorting NaN, the median of NaN, an index of -2^63 and date arithmetic out of range each
make the evaluation panic. -/
theorem C71_panics (X : Ext) :
    (∃ w, evaluate X c!"SORT([0 / 0, 1])" = .error (.panic w)) ∧
    (∃ w, evaluate X c!"MEDIAN(1, 0 / 0)" = .error (.panic w)) ∧
    (∃ w, evaluate X c!"[1][-9223372036854775808]" = .error (.panic w)) ∧
    (∃ w, evaluate X c!"DATEADD(DATE(2024, 1, 1), 999999999, \"days\")" = .error (.panic w)) :=
  ⟨⟨panicTexts[0], by kernel_rfl⟩, ⟨panicTexts[0], by kernel_rfl⟩, ⟨panicTexts[1], by kernel_rfl⟩, ⟨panicTexts[3], by kernel_rfl⟩⟩

/-- C71, partial: an expression that calls no sorting function, not DATEADD and not the method `sort`, and indexes only with literal
numbers above -2^63, does not panic, whatever the variables, and whatever the custom functions as long as none of them panics.
Missing: the other expressions, which panic for some variables. -/
theorem C71_calm_partial (X : Ext) (e : Expr) (hc : ∀ f ∈ calls e, f ∉ sorters ∧ f ≠ c!"DATEADD") (hm : ∀ m ∈ methods e, X.lower m ≠ c!"sort")
    (hi : ∀ i ∈ indices e, PlainIndex i) (reg : Registry) (hr : ∀ n f args w, reg n = some f → f.run args ≠ .error (.panic w)) (env : Env) (w : String) :
    evalPlain X e ≠ .error (.panic w) ∧ evalVars X e env ≠ .error (.panic w) ∧ evalCustom X reg e env ≠ .error (.panic w) ∧
    evalAssignCtx X e env ≠ .error (.panic w) := by
  have h : E (fun _ => False) X (calls e) (methods e) (indices e) :=
    ⟨fun n hn => ⟨fun h => (hc n hn).1 h, fun h => ((hc n hn).2 h).elim⟩, fun n hn h => (hm n hn h).elim, fun i h => .inr (hi i h)⟩
  refine ⟨fun he => ?_, fun he => ?_, fun he => ?_, fun he => ?_⟩
  · exact evaluator X e h none _ .none w he
  · exact evaluator X e h none _ .none w he
  · exact evaluator X e h (some reg) env (by rintro _ ⟨⟩ n f args hf w hw; exact hr n f args w hf hw) w he
  · exact assignments X e h env w he

/-- The conditions of the partial theorem hold of an ordinary program. -/
example (X : Ext) : ∃ e, parse c!"SUM(:xs.map(:x * 2)) + :xs[-1] + LENGTH(SUBSTRING(:s, 1, 3))" = .ok e ∧
    (∀ f ∈ calls e, f ∉ sorters ∧ f ≠ c!"DATEADD") ∧ (∀ m ∈ methods e, X.lower m ≠ c!"sort") ∧ ∀ i ∈ indices e, PlainIndex i := by
  refine ⟨.binary (.binary (.call c!"SUM" [.method (.var c!"xs") c!"map" [.binary (.var c!"x") .mul (.number (.fin 2))] false]) .add
    (.index (.var c!"xs") (.unary .minus (.number (.fin 1))))) .add
    (.call c!"LENGTH" [.call c!"SUBSTRING" [.var c!"s", .number (.fin 1), .number (.fin 3)]]), by kernel_rfl, ?_, ?_, ?_⟩
  · decide +kernel
  · intro m hm
    have : m = c!"map" := by simpa [methods, methodsList] using hm
    subst this
    have : X.lower c!"map" = c!"map" := by kernel_rfl
    rw [this]
    decide +kernel
  · intro i hi
    have : i = .unary .minus (.number (.fin 1)) := by simpa [indices, indicesList] using hi
    subst this
    unfold PlainIndex
    decide +kernel

/-- C71: for every expression, when the custom functions do not panic and sorting by an inconsistent comparison does not, the panic is one
of the five named ones; the other panics the code contains (out-of-bounds accesses, slicing off a character boundary, `unreachable!`)
never happen. -/
theorem C71_reasons (X : Ext) (hX : ∀ xs w, X.sortUnspecified xs ≠ .error (.panic w)) (e : Expr) (reg : Registry)
    (hr : ∀ n f args w, reg n = some f → f.run args ≠ .error (.panic w)) (env : Env) (w : String)
    (h : evalVars X e env = .error (.panic w) ∨ evalCustom X reg e env = .error (.panic w) ∨ evalAssignCtx X e env = .error (.panic w)) :
    w ∈ panicTexts := by
  have hE : E (fun w => w ∈ panicTexts) X (calls e) (methods e) (indices e) :=
    ⟨fun n _ => ⟨fun _ => by simp [panicTexts, unwrapped], fun _ t ht => ht⟩, fun n _ _ xs w hw => (hX xs w hw).elim,
      fun i _ => .inl (by simp [panicTexts, negated])⟩
  rcases h with h | h | h
  · exact evaluator X e hE none env .none w h
  · exact evaluator X e hE (some reg) env (by rintro _ ⟨⟩ n f args hf w hw; exact (hr n f args w hf hw).elim) w h
  · exact assignments X e hE env w h

/-- Each of the named panics does occur. -/
example (X : Ext) : (evaluate X c!"SORT([0 / 0, 1])" = .error (.panic (panicTexts[0]!))) ∧
    (evaluate X c!"[1][-9223372036854775808]" = .error (.panic (panicTexts[1]!))) ∧
    (evaluate X c!"DATEADD(DATE(2024, 1, 1), 9999999999999999, \"days\")" = .error (.panic (panicTexts[2]!))) ∧
    (evaluate X c!"DATEADD(DATE(2024, 1, 1), 999999999, \"days\")" = .error (.panic (panicTexts[3]!))) ∧
    (evaluate X c!"DATEADD(DATE(2024, 1, 1), 2147483647, \"months\")" = .error (.panic (panicTexts[4]!))) :=
  ⟨by kernel_rfl, by kernel_rfl, by kernel_rfl, by kernel_rfl, by kernel_rfl⟩
