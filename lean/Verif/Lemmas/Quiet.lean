import Verif.Model.Eval
import Verif.Lemmas.EvalBasic
/-! Which panics a computation can end in: the functions and methods on values. -/

/-- If the computation panics, its message satisfies `P`. -/
def Only {α : Type} (P : String → Prop) (r : Res α) : Prop := ∀ w, r = .error (.panic w) → P w

namespace Only

variable {α β : Type} {P : String → Prop}

theorem ok (a : α) : Only P (.ok a : Res α) := by intro w h; cases h
theorem pure' (a : α) : Only P (pure a : Res α) := ok a
theorem failed (m : String) (args : List Str) : Only P (fail m args : Res α) := by intro w h; simp [fail] at h
theorem err (m : String) (args : List Str) (p : Option Int) : Only P (.error (.err m args p) : Res α) := by intro w h; simp at h
theorem panicked {w : String} (h : P w) : Only P (panics w : Res α) := by intro w' hw; simp only [panics, Except.error.injEq, Fail.panic.injEq] at hw; exact hw ▸ h
theorem bind {x : Res α} {f : α → Res β} (hx : Only P x) (hf : ∀ a, x = .ok a → Only P (f a)) : Only P (x >>= f) := by
  cases x with
  | error e =>
    intro w h
    exact hx w (by rw [show (Except.error e >>= f) = (Except.error e : Res β) from rfl] at h; cases h; rfl)
  | ok a => exact hf a rfl
theorem bind' {x : Res α} {f : α → Res β} (hx : Only P x) (hf : ∀ a, Only P (f a)) : Only P (x >>= f) := bind hx fun a _ => hf a
theorem ite {c : Prop} [Decidable c] {a b : Res α} (ha : c → Only P a) (hb : ¬ c → Only P b) : Only P (if c then a else b) := by
  by_cases h : c
  · rw [if_pos h]; exact ha h
  · rw [if_neg h]; exact hb h
theorem mono {Q : String → Prop} (h : ∀ w, P w → Q w) {r : Res α} (hr : Only P r) : Only Q r := fun w hw => h w (hr w hw)
theorem none_ {r : Res α} : Only (fun _ => False) r ↔ ∀ w, r ≠ .error (.panic w) := Iff.rfl

end Only

/-- Closes `Only P r` for a computation built from successes, errors and computations known to satisfy it. -/
macro "quiet" : tactic => `(tactic| repeat' (first
  | with_reducible exact Only.ok _
  | with_reducible exact Only.pure' _
  | with_reducible exact Only.failed _ _
  | with_reducible exact Only.err _ _ _
  | assumption
  | (with_reducible apply Only.bind')
  | (with_reducible intro _)
  | (simp only [])
  | split))

namespace Quiet

variable {P : String → Prop}

theorem toJson_pair (X : Ext) : (∀ v : Value, Only P (v.toJson X)) ∧ ∀ vs : List Value, Only P (Value.toJsonList X vs) := by
  constructor
  · intro v
    refine Value.rec (motive_1 := fun v => Only P (v.toJson X)) (motive_2 := fun vs => Only P (Value.toJsonList X vs))
      ?_ ?_ ?_ ?_ ?_ ?_ ?_ ?_ ?_ ?_ v
    all_goals intros
    all_goals (simp only [Value.toJson, Value.toJsonList]; quiet)
  · intro vs
    refine Value.rec_1 (motive_1 := fun v => Only P (v.toJson X)) (motive_2 := fun vs => Only P (Value.toJsonList X vs))
      ?_ ?_ ?_ ?_ ?_ ?_ ?_ ?_ ?_ ?_ vs
    all_goals intros
    all_goals (simp only [Value.toJson, Value.toJsonList]; quiet)

theorem toJson (X : Ext) (v : Value) : Only P (v.toJson X) := (toJson_pair X).1 v

theorem jsonNumber (m : String) (n : F64) : Only P (Method.jsonNumber m n) := by unfold Method.jsonNumber; quiet

theorem parseJson (X : Ext) (s : Str) : Only P (parseJson X s) := by unfold _root_.parseJson; quiet

theorem toJsonValue (X : Ext) (v : Value) : Only P (Method.toJsonValue X v) := by
  refine Value.rec (motive_1 := fun v => Only P (Method.toJsonValue X v)) (motive_2 := fun vs => Only P (Method.toJsonValues X vs))
    ?_ ?_ ?_ ?_ ?_ ?_ ?_ ?_ ?_ ?_ v
  all_goals intros
  all_goals (simp only [Method.toJsonValue, Method.toJsonValues]; first | exact jsonNumber _ _ | exact parseJson _ _ | quiet)

theorem pathToJson (X : Ext) (v : Value) : Only P (JsonFn.toJson X v) := by
  refine Value.rec (motive_1 := fun v => Only P (JsonFn.toJson X v)) (motive_2 := fun vs => Only P (JsonFn.toJsons X vs))
    ?_ ?_ ?_ ?_ ?_ ?_ ?_ ?_ ?_ ?_ v
  all_goals intros
  all_goals (simp only [JsonFn.toJson, JsonFn.toJsons]; quiet)

theorem cast (X : Ext) (v : Value) (t : CastTy) : Only P (castValue X v t) := by unfold castValue; quiet

theorem unary (op : UnaryOp) (v : Value) : Only P (Ops.unary op v) := by unfold Ops.unary; quiet

theorem compare (op : BinaryOp) (a b : Value) : Only P (Ops.compare op a b) := by unfold Ops.compare; quiet

theorem binary (X : Ext) (op : BinaryOp) (a b : Value) : Only P (Ops.binary X op a b) := by
  cases op <;> simp only [Ops.binary, Ops.arith] <;> first | exact compare _ _ _ | quiet

theorem property (X : Ext) (bad : Value → Fail) (hb : ∀ v w, bad v ≠ .panic w) (safe : Bool) (t : Value) (n : Str) :
    Only P (Ops.property X bad safe t n) := by
  unfold Ops.property
  have herr : ∀ v, Only P (.error (bad v) : Res Value) := by
    intro v w h
    simp only [Except.error.injEq] at h
    exact absurd h (hb v w)
  split
  · exact .bind' (parseJson X _) (fun j => by quiet)
  · split
    · exact .ok _
    · exact herr _
  · exact herr _

theorem slice (items : List Value) (a b : Option Value) : Only P (sliceArray items a b) := by
  have hb : ∀ d v, Only P (sliceBound d v) := by intro d v; unfold sliceBound; quiet
  unfold sliceArray
  refine .bind' (hb _ _) fun _ => .bind' (hb _ _) fun _ => ?_
  quiet

/-- The panic of an index of -2^63 or below. -/
def negated : String := "attempt to negate with overflow"

theorem indexArray (items : List Value) (i : Int) (h : i = F64.i64Min → P negated) : Only P (indexArray items i) := by
  unfold _root_.indexArray
  refine .bind ?_ ?_
  · unfold clampIndex
    split
    · exact .ok _
    split
    · exact .panicked (h (by assumption))
    · exact .ok _
  · intro a ha
    split
    · rename_i k
      have hk : k < items.length := by
        unfold clampIndex at ha
        split at ha
        · split at ha <;> simp only [Except.ok.injEq, Option.some.injEq, reduceCtorEq] at ha
          omega
        split at ha
        · simp [panics] at ha
        · split at ha <;> simp only [Except.ok.injEq, Option.some.injEq, reduceCtorEq] at ha
          omega
      rw [List.getElem?_eq_getElem hk]
      exact .ok _
    · exact .failed _ _

theorem index (t i : Value) (h : ∀ n, i = .num n → n.toI64 = F64.i64Min → P negated) : Only P (Legacy.index t i) := by
  unfold Legacy.index
  cases i with
  | num n =>
    simp only [Value.asNumber]
    split
    · exact indexArray _ _ (h n rfl)
    · exact .failed _ _
  | _ => exact .failed _ _

theorem indexCustom (t i : Value) : Only P (Legacy.indexCustom t i) := by
  unfold Legacy.indexCustom
  split
  · split
    · exact .failed _ _
    · extract_lets k len real
      by_cases hc : real < 0 ∨ len ≤ real
      · rw [if_pos hc]; exact .failed _ _
      · rw [if_neg hc, List.getElem?_eq_getElem (by omega)]
        exact .ok _
  · exact .failed _ _

theorem orElse {r next : Res Value} (h : Only P r) (hn : Only P next) : Only P (orElse r next) := by
  unfold _root_.orElse
  split
  · exact .ok _
  · exact h
  · exact hn

/-- Every entry with the given name panics only as `P` says. -/
def Table (P : String → Prop) (name : Str) : List (Str × Builtin) → Prop
  | [] => True
  | (k, f) :: rest => (name = k → ∀ args, Only P (f args)) ∧ Table P name rest

theorem Table.lookup {name : Str} {t : List (Str × Builtin)} (h : Table P name t) {f : Builtin} (hf : lookupFn name t = some f)
    (args : List Value) : Only P (f args) := by
  induction t with
  | nil => simp [lookupFn] at hf
  | cons p t ih =>
    obtain ⟨k, g⟩ := p
    simp only [lookupFn] at hf
    split at hf
    · cases hf; exact h.1 (by assumption) args
    · exact ih h.2 hf

theorem Table.exec {name : Str} {t : List (Str × Builtin)} (h : Table P name t) (args : List Value) (m : String) (as : List Str) :
    Only P (match lookupFn name t with | some f => f args | none => fail m as : Res Value) := by
  split
  · exact h.lookup (by assumption) args
  · exact .failed _ _

theorem arithmetic (X : Ext) (name : Str) (args : List Value) : Only P (execArithmetic X name args) := by
  unfold execArithmetic
  refine Table.exec ?_ args _ _
  unfold Arith.table
  simp only [Table]
  refine ⟨?_, ?_, ?_, ?_, ?_, ?_, ?_, ?_, ?_, ?_, ?_, ?_, ?_, ?_, ?_, ?_, ?_, trivial⟩
  all_goals intro _ args
  all_goals first
    | exact .ok _
    | (unfold Arith.round; quiet)
    | (unfold Arith.avg; exact .ok _)

theorem logical (name : Str) (args : List Value) : Only P (execLogical name args) := by
  unfold execLogical
  refine Table.exec ?_ args _ _
  unfold Logic.table
  simp only [Table]
  refine ⟨?_, ?_, ?_, ?_, ?_, ?_, ?_, ?_, ?_, ?_, trivial⟩
  all_goals intro _ args
  all_goals first
    | exact .ok _
    | (unfold Logic.ternary; quiet)
    | (unfold Logic.xor; quiet)
    | (unfold Logic.ifFn; quiet)
    | (unfold Logic.ifs; quiet)
    | (unfold Logic.between; quiet)

theorem json (X : Ext) (name : Str) (args : List Value) : Only P (execJson X name args) := by
  unfold execJson
  split
  · unfold JsonFn.dig; quiet
  · exact .failed _ _

theorem need (args : List Value) (i : Nat) (m : String) (h : i < args.length) : Only P (Fin'.need args i m) := by
  unfold Fin'.need argAt
  rw [List.getElem?_eq_getElem h]
  quiet

theorem financial (X : Ext) (name : Str) (args : List Value) : Only P (execFinancial X name args) := by
  unfold execFinancial
  refine Table.exec ?_ args _ _
  unfold Fin'.table
  simp only [Table]
  refine ⟨?_, ?_, ?_, ?_, trivial⟩
  all_goals intro _ args
  · unfold Fin'.pmt
    split
    · exact .failed _ _
    · refine .bind' (need _ _ _ (by omega)) fun _ => .bind' (need _ _ _ (by omega)) fun _ => .bind' (need _ _ _ (by omega)) fun _ => ?_
      quiet
  · unfold Fin'.db
    split
    · exact .failed _ _
    · refine .bind' (need _ _ _ (by omega)) fun _ => .bind' (need _ _ _ (by omega)) fun _ => .bind' (need _ _ _ (by omega)) fun _ =>
        .bind' (need _ _ _ (by omega)) fun _ => ?_
      quiet
  · unfold Fin'.fv
    split
    · exact .failed _ _
    · refine .bind' (need _ _ _ (by omega)) fun _ => .bind' (need _ _ _ (by omega)) fun _ => .bind' (need _ _ _ (by omega)) fun _ => ?_
      quiet
  · unfold Fin'.ipmt
    split
    · exact .failed _ _
    · refine .bind' (need _ _ _ (by omega)) fun _ => .bind' (need _ _ _ (by omega)) fun _ => .bind' (need _ _ _ (by omega)) fun _ =>
        .bind' (need _ _ _ (by omega)) fun _ => ?_
      quiet

end Quiet
