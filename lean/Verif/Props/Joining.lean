import Verif.Props.Strings
import Verif.Props.Arrays
/-! C83: how `JOIN`, `join` and `CONCAT` write values. -/

open Lib Spec

namespace Spec

/-- How a value is written when it is joined to others; an array is not written. Numbers and amounts as formatted by the
standard library (`X`). -/
def written (X : Ext) : Value → Option Str
  | .str s => some s
  | .num n => some (X.fmt n)
  | .bool true => some c!"TRUE"
  | .bool false => some c!"FALSE"
  | .null => some []
  | .cur n => some (X.fmtFix 4 n)
  | .dt t => some (toString t).toList
  | .json s => some s
  | .arr _ => none

end Spec

theorem join_intercalate (d : Str) (parts : List Str) : Str.join d parts = d.intercalate parts := by
  induction parts with
  | nil => rfl
  | cons a parts ih =>
    cases parts with
    | nil => simp [Str.join, List.intercalate]
    | cons b parts => rw [Str.join, ih]; simp [List.intercalate]

theorem joinPart_written (X : Ext) (v : Value) (p : Str) (h : written X v = some p) : Arr.joinPart X v = .ok p := by
  cases v with
  | bool b => cases b <;> (simp [written] at h; subst h; rfl)
  | arr l => simp [written] at h
  | _ => simp only [written, Option.some.injEq] at h; subst h; rfl

theorem joinParts_written (X : Ext) (items : List Value) (parts : List Str) (h : items.map (written X) = parts.map some) :
    Arr.joinParts X items = .ok parts := by
  induction items generalizing parts with
  | nil => cases parts with
    | nil => rfl
    | cons => simp at h
  | cons v items ih => cases parts with
    | nil => simp at h
    | cons p parts =>
      simp only [List.map_cons, List.cons.injEq] at h
      rw [Arr.joinParts, joinPart_written X v p h.1, ih parts h.2]; rfl

/-- `JOIN` writes the elements with the separator between them; without one it is a comma. -/
theorem C83_join (X : Ext) (items : List Value) (parts : List Str) (d : Str) (h : items.map (written X) = parts.map some) :
    fn X c!"JOIN" [.arr items, .str d] = .ok (.str (d.intercalate parts)) ∧
    fn X c!"JOIN" [.arr items] = .ok (.str (c!",".intercalate parts)) := by
  constructor
  · rw [fn_eq X _ _ (by decide), show execFast X c!"JOIN" [.arr items, .str d] = Arr.join X [.arr items, .str d] from rfl]
    simp [Arr.join, argAt, joinParts_written X items parts h, bind, Except.bind, pure, Except.pure, join_intercalate]
  · rw [fn_eq X _ _ (by decide), show execFast X c!"JOIN" [.arr items] = Arr.join X [.arr items] from rfl]
    simp [Arr.join, argAt, joinParts_written X items parts h, bind, Except.bind, pure, Except.pure, join_intercalate]

example (X : Ext) : [Value.str c!"a", .bool true, .null, .json c!"{}", .dt (-5)].map (written X) =
    [c!"a", c!"TRUE", [], c!"{}", c!"-5"].map some := by kernel_rfl

/-- It fails when there is an array among the elements. -/
theorem C83_join_array (X : Ext) (items : List Value) (d : Value) (h : ∃ l, .arr l ∈ items) :
    fn X c!"JOIN" [.arr items, d] = fail "JOIN does not flatten nested arrays" := by
  rw [fn_eq X _ _ (by decide), show execFast X c!"JOIN" [.arr items, d] = Arr.join X [.arr items, d] from rfl]
  have : Arr.joinParts X items = fail "JOIN does not flatten nested arrays" := by
    obtain ⟨l, hl⟩ := h
    induction items with
    | nil => simp at hl
    | cons v items ih =>
      rw [Arr.joinParts]
      rcases List.mem_cons.1 hl with rfl | hl
      · rfl
      · rw [ih hl]; cases v <;> rfl
  simp only [Arr.join, argAt, List.getElem?_cons_zero, this]; rfl

/-- The method form agrees for texts and numbers. -/
theorem C83_method_partial (X : Ext) (items : List Value) (d : Str) (h : ∀ v ∈ items, (∃ s, v = .str s) ∨ ∃ n, v = .num n) :
    meth1 X (.arr items) c!"join" (.str d) = fn X c!"JOIN" [.arr items, .str d] ∧
    meth0 X (.arr items) c!"join" = fn X c!"JOIN" [.arr items] := by
  have key : ∃ parts : List Str, items.map (written X) = parts.map some ∧ Method.joinParts X items = .ok parts := by
    induction items with
    | nil => exact ⟨[], rfl, rfl⟩
    | cons v items ih =>
      obtain ⟨ps, h1, h2⟩ := ih fun v hv => h v (List.mem_cons_of_mem _ hv)
      rcases h v (by simp) with ⟨s, rfl⟩ | ⟨n, rfl⟩
      · exact ⟨s :: ps, by simp [written, h1], by rw [Method.joinParts, h2]; rfl⟩
      · exact ⟨X.fmt n :: ps, by simp [written, h1], by rw [Method.joinParts, h2]; rfl⟩
  obtain ⟨parts, h1, h2⟩ := key
  have hj : ∀ env items args, Method.exec X none env c!"join" false (.arr items) args = Method.join X env items args := fun _ _ _ => rfl
  constructor
  · rw [(C83_join X items parts d h1).1, meth1_eq, hj]
    simp only [Method.join, Method.ev, h2, bind, Except.bind]
    rw [show (Legacy.argOf X (.var c!"a")).run none ((Env.empty.insert c!"r" (.arr items)).insert c!"a" (.str d)) = .ok (.str d) from rfl]
    simp only [pure, Except.pure, join_intercalate]
  · rw [(C83_join X items parts d h1).2, meth0_eq, hj]
    simp only [Method.join, h2, bind, Except.bind, pure, Except.pure, join_intercalate]

/-- It does not for the others: booleans are written in lower case and nulls, amounts, dates and documents are refused. -/
theorem C83_method_differs (X : Ext) :
    evaluate X c!"[TRUE].join()" = .ok (.str c!"true") ∧ evaluate X c!"JOIN([TRUE])" = .ok (.str c!"TRUE") ∧
    evaluate X c!"[NULL].join()" = fail "join method cannot convert value to string" ∧ evaluate X c!"JOIN([NULL])" = .ok (.str []) :=
  ⟨by kernel_rfl, by kernel_rfl, by kernel_rfl, by kernel_rfl⟩

/-- The values that `CONCAT` writes. -/
def Spec.Concats : Value → Prop
  | .cur _ | .dt _ | .json _ => False
  | _ => True

/-- `CONCAT` writes the elements of its arguments one after the other, as `JOIN` does; it writes nothing for
amounts, dates and documents. Every list of arguments has leaves (`C26_flatten_total_idempotent`). -/
theorem C83_concat_partial (X : Ext) (vs ls : List Value) (h : LeavesOf vs ls) :
    ∃ parts : List Str, List.Forall₂ (fun v p => (Concats v → written X v = some p) ∧ (¬ Concats v → p = [])) ls parts ∧
      fn X c!"CONCAT" vs = .ok (.str parts.flatten) := by
  have key : ∃ parts : List Str, List.Forall₂ (fun v p => (Concats v → written X v = some p) ∧ (¬ Concats v → p = [])) ls parts ∧
      StrFn.concatTexts X vs = parts.flatten := by
    induction h with
    | nil => exact ⟨[], .nil, rfl⟩
    | nested _ _ ih1 ih2 =>
      obtain ⟨p, h1, h2⟩ := ih1
      obtain ⟨q, h3, h4⟩ := ih2
      refine ⟨p ++ q, List.rel_append h1 h3, ?_⟩
      rw [StrFn.concatTexts, StrFn.concatText, h2, h4, List.flatten_append]
    | @leaf v vs ys hv _ ih =>
      obtain ⟨q, h3, h4⟩ := ih
      refine ⟨StrFn.concatText X v :: q, .cons ?_ h3, ?_⟩
      · cases v with
        | arr us => exact absurd rfl (hv us)
        | bool b => cases b <;> simp [Concats, written, StrFn.concatText]
        | _ => simp [Concats, written, StrFn.concatText]
      · rw [StrFn.concatTexts, h4, List.flatten_cons]
  obtain ⟨parts, h1, h2⟩ := key
  exact ⟨parts, h1, by rw [fn_concat, h2]⟩

/-- `CONCAT` loses amounts; `JOIN` does not. -/
theorem C83_concat_drops_amounts (X : Ext) :
    evaluate X c!"CONCAT(\"a\", 5::currency)" = .ok (.str c!"a") ∧ evaluate X c!"JOIN([5::currency])" = .ok (.str (X.fmtFix 4 (F64.ofNat 5))) :=
  ⟨by kernel_rfl, by kernel_rfl⟩
