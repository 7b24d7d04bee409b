import Verif.Props.Aggregates
import Verif.Props.JsonDocs
/-! C108: `JQ` returns what its path selects. -/

open Lib Spec

namespace Spec

mutual
/-- The numbers in a value are doubles, as they are in every run. -/
def Doubles : Value → Prop
  | .num x | .cur x => IsDouble x
  | .arr vs => DoublesAll vs
  | _ => True
/-- Of a list. -/
def DoublesAll : List Value → Prop
  | [] => True
  | v :: vs => Doubles v ∧ DoublesAll vs
end

mutual
/-- `JqDoc X v j`: `j` is the document that `JQ` queries when it is given the value `v`. Whole numbers of 64 bits become JSON integers
(2^63 becomes 2^63 - 1), other finite numbers and amounts JSON floats, dates their seconds; a document is read from its text. -/
inductive JqDoc (X : Ext) : Value → Json → Prop
  | null : JqDoc X .null .null
  | bool (b : Bool) : JqDoc X (.bool b) (.bool b)
  | str (s : Str) : JqDoc X (.str s) (.str s)
  | whole {x : F64} {i : ℤ} : x.isFinite = true → x.toRat = i → -2 ^ 63 ≤ i → i < 2 ^ 63 → JqDoc X (.num x) (.num (.int i))
  | edge : JqDoc X (.num (.fin (2 ^ 63))) (.num (.int (2 ^ 63 - 1)))
  | other {x : F64} : IsDouble x → x.isFinite = true → (∀ i : ℤ, x.toRat = i → i < -2 ^ 63 ∨ 2 ^ 63 < i) → JqDoc X (.num x) (.num (.float x))
  | amount {x : F64} : x.isFinite = true → JqDoc X (.cur x) (.num (.float x))
  | date (t : Int) : JqDoc X (.dt t) (.num (.int t))
  | doc {s : Str} {j : Json} : X.jsonParse s = .ok j → JqDoc X (.json s) j
  | arr {vs : List Value} {js : List Json} : JqDocs X vs js → JqDoc X (.arr vs) (.arr js)
/-- Elementwise. -/
inductive JqDocs (X : Ext) : List Value → List Json → Prop
  | nil : JqDocs X [] []
  | cons {v : Value} {j : Json} {vs : List Value} {js : List Json} : JqDoc X v j → JqDocs X vs js → JqDocs X (v :: vs) (j :: js)
end

/-- What `JQ` makes of the values of the selected nodes. -/
def packed : List Value → Value
  | [v] => v
  | vs => .arr vs

end Spec

theorem toIntSat_whole {x : F64} {i : ℤ} (hf : x.isFinite = true) (hx : x.toRat = i) (h1 : -2 ^ 63 ≤ i) (h2 : i < 2 ^ 63) : x.toI64 = i := by
  cases x with
  | nan => simp [F64.isFinite] at hf
  | inf s => simp [F64.isFinite] at hf
  | zero s =>
    simp only [F64.toRat] at hx
    have : i = 0 := by exact_mod_cast hx.symm
    subst this; rfl
  | fin q =>
    simp only [F64.toRat] at hx
    subst hx
    simp only [F64.toI64, F64.toIntSat, truncRat_int, F64.i64Min, F64.i64Max]
    norm_num at h1 h2
    split
    · omega
    · split <;> omega

theorem fract_whole {x : F64} {i : ℤ} (hf : x.isFinite = true) (hx : x.toRat = i) : F64.feq x.fract (.zero false) = true := by
  cases x with
  | nan => simp [F64.isFinite] at hf
  | inf s => simp [F64.isFinite] at hf
  | zero s => cases s <;> rfl
  | fin q =>
    simp only [F64.toRat] at hx
    subst hx
    simp only [F64.fract, F64.trunc, truncRat_int, F64.ofRounded, F64.sub]
    split
    · rename_i h0
      simp [h0, F64.neg, F64.add, F64.feq, F64.toRat]
    · simp only [F64.neg, F64.add, add_neg_cancel]
      decide +kernel

mutual
theorem jqDoc_toJson (X : Ext) : ∀ {v : Value} {j : Json}, JqDoc X v j → JsonFn.toJson X v = .ok j
  | _, _, .null => rfl
  | _, _, .bool b => rfl
  | _, _, .str s => rfl
  | _, _, .whole (x := x) (i := i) hf hx h1 h2 => by
    have hc : (F64.feq x.fract (.zero false) && F64.fge x (F64.ofInt F64.i64Min) && F64.fle x (F64.ofInt F64.i64Max)) = true := by
      have hn : x ≠ .nan := by rintro rfl; simp [F64.isFinite] at hf
      rw [fract_whole hf hx, ofInt_max, ofInt_min, Bool.true_and, Bool.and_eq_true]
      refine ⟨(F64.fle_iff _ _).2 ⟨by simp, hn, ?_⟩, (F64.fle_iff _ _).2 ⟨hn, by simp, ?_⟩⟩
      · rw [key_finite hf, key_finite (x := .fin (-2 ^ 63)) rfl, Prod.Lex.toLex_le_toLex]
        right; refine ⟨rfl, ?_⟩
        rw [hx]; simp only [F64.toRat]; exact_mod_cast h1
      · rw [key_finite hf, key_finite (x := .fin (2 ^ 63)) rfl, Prod.Lex.toLex_le_toLex]
        right; refine ⟨rfl, ?_⟩
        rw [hx]; simp only [F64.toRat]; exact_mod_cast h2.le
    simp only [JsonFn.toJson]
    rw [if_pos hc, toIntSat_whole hf hx h1 h2]
  | _, _, .edge => by
    simp only [JsonFn.toJson]
    rw [if_pos (by kernel_rfl)]; congr 1
  | _, _, .other (x := x) hd hf h => by
    have hc : ¬ (F64.feq x.fract (.zero false) && F64.fge x (F64.ofInt F64.i64Min) && F64.fle x (F64.ofInt F64.i64Max)) = true := by
      intro hc
      simp only [Bool.and_eq_true] at hc
      obtain ⟨⟨h1, h2⟩, h3⟩ := hc
      rw [ofInt_max] at h3
      rw [ofInt_min] at h2
      obtain ⟨i, _, hi⟩ := integer_of_fract hd hf h1
      have lo : -2 ^ 63 ≤ x.toRat := fle_toRat (show F64.fle (.fin (-2 ^ 63)) x = true from h2) rfl hf
      have hi' : x.toRat ≤ 2 ^ 63 := fle_toRat h3 hf rfl
      rw [hi] at lo hi'
      have a : (-2 ^ 63 : ℤ) ≤ i := by exact_mod_cast lo
      have b : i ≤ (2 ^ 63 : ℤ) := by exact_mod_cast hi'
      rcases h i hi with h | h <;> omega
    simp only [JsonFn.toJson]
    rw [if_neg hc, if_pos hf]
  | _, _, .amount hf => by simp only [JsonFn.toJson]; rw [if_pos hf]
  | _, _, .date t => rfl
  | _, _, .doc h => by simp only [JsonFn.toJson, h]
  | _, _, .arr h => by simp [JsonFn.toJson, jqDoc_toJsons X h, bind, Except.bind, pure, Except.pure]
theorem jqDoc_toJsons (X : Ext) : ∀ {vs : List Value} {js : List Json}, JqDocs X vs js → JsonFn.toJsons X vs = .ok js
  | _, _, .nil => rfl
  | _, _, .cons h hs => by simp [JsonFn.toJsons, jqDoc_toJson X h, jqDoc_toJsons X hs, bind, Except.bind, pure, Except.pure]
end

theorem jq_eval (X : Ext) (r : Option Registry) (env : Env) (d p : Expr) (hr : NotCustom X r c!"JQ") :
    Eval.eval X (.call c!"JQ" [d, p]) r env = Eval.jq X r env [Eval.argOf X d, Eval.argOf X p] := by
  have h2 : (match r with | some reg => if reg.has X c!"JQ" then some reg else none | none => none) = none := by
    cases r with
    | none => rfl
    | some reg => simp [hr reg rfl]
  rw [Eval.eval, Eval.argsOf_eq]
  simp only [Eval.call]
  rw [if_neg (by decide), if_neg (by decide), if_neg (by decide)]
  split
  · rename_i h; exact absurd (h2.symm.trans h) (by simp)
  · rfl

theorem packed_eq (X : Ext) (js : List Json) : ∀ vs, ReadsAll X js vs → vs = js.map (Json.toValue X)
  | _, .nil => rfl
  | _, .cons h hs => by rw [List.map_cons, ← packed_eq X _ _ hs, h.unique (reads_toValue X _)]

theorem apply_packed (X : Ext) (v : Value) (j : Json) (path : Str) (js : List Json) (vs : List Value) (hv : JqDoc X v j)
    (hp : X.jsonPath j path = .ok js) (hr : ReadsAll X js vs) : JsonFn.applyJsonPath X v path = .ok (packed vs) := by
  simp only [JsonFn.applyJsonPath, jqDoc_toJson X hv, bind, Except.bind, hp]
  rw [packed_eq X js vs hr]
  match js with
  | [] => rfl
  | [_] => rfl
  | _ :: _ :: _ => rfl

mutual
theorem toJson_total (X : Ext) : ∀ v : Value, (∃ j, JsonFn.toJson X v = .ok j) ∨ ∃ m as, JsonFn.toJson X v = fail m as
  | .null | .bool _ | .str _ | .dt _ => .inl ⟨_, rfl⟩
  | .num x => by simp only [JsonFn.toJson]; split; exact .inl ⟨_, rfl⟩; split; exact .inl ⟨_, rfl⟩; exact .inr ⟨_, _, rfl⟩
  | .cur x => by simp only [JsonFn.toJson]; split; exact .inl ⟨_, rfl⟩; exact .inr ⟨_, _, rfl⟩
  | .json s => by simp only [JsonFn.toJson]; cases X.jsonParse s; exact .inr ⟨_, _, rfl⟩; exact .inl ⟨_, rfl⟩
  | .arr vs => by
    simp only [JsonFn.toJson, bind, Except.bind, pure, Except.pure]
    rcases toJsons_total X vs with ⟨js, h⟩ | ⟨m, as, h⟩
    · rw [h]; exact .inl ⟨_, rfl⟩
    · rw [h]; exact .inr ⟨m, as, rfl⟩
theorem toJsons_total (X : Ext) : ∀ vs : List Value, (∃ js, JsonFn.toJsons X vs = .ok js) ∨ ∃ m as, JsonFn.toJsons X vs = fail m as
  | [] => .inl ⟨_, rfl⟩
  | v :: vs => by
    simp only [JsonFn.toJsons, bind, Except.bind, pure, Except.pure]
    rcases toJson_total X v with ⟨j, h⟩ | ⟨m, as, h⟩
    · rw [h]
      rcases toJsons_total X vs with ⟨js, h'⟩ | ⟨m, as, h'⟩
      · rw [h']; exact .inl ⟨_, rfl⟩
      · rw [h']; exact .inr ⟨m, as, rfl⟩
    · rw [h]; exact .inr ⟨m, as, rfl⟩
end

mutual
theorem toJson_jqDoc (X : Ext) : ∀ (v : Value) (j : Json), Doubles v → JsonFn.toJson X v = .ok j → JqDoc X v j
  | .null, j, _, h => by simp only [JsonFn.toJson, Except.ok.injEq] at h; subst h; exact .null
  | .bool b, j, _, h => by simp only [JsonFn.toJson, Except.ok.injEq] at h; subst h; exact .bool b
  | .str s, j, _, h => by simp only [JsonFn.toJson, Except.ok.injEq] at h; subst h; exact .str s
  | .dt t, j, _, h => by simp only [JsonFn.toJson, Except.ok.injEq] at h; subst h; exact .date t
  | .cur x, j, _, h => by
    simp only [JsonFn.toJson] at h
    split at h
    · rename_i hf; simp only [Except.ok.injEq] at h; subst h; exact .amount hf
    · simp [fail] at h
  | .json s, j, _, h => by
    simp only [JsonFn.toJson] at h
    cases hs : X.jsonParse s with
    | ok j' => rw [hs] at h; simp only [Except.ok.injEq] at h; subst h; exact .doc hs
    | error e => rw [hs] at h; simp [fail] at h
  | .num x, j, hd, h => by
    have hfin : x.isFinite = true := by
      cases x with
      | nan => simp [JsonFn.toJson, F64.fract, F64.sub, F64.add, F64.feq, F64.isFinite, fail] at h
      | inf s => cases s <;> simp [JsonFn.toJson, F64.fract, F64.trunc, F64.sub, F64.neg, F64.add, F64.feq, F64.isFinite, fail] at h
      | zero s => rfl
      | fin q => rfl
    by_cases hi : ∃ i : ℤ, x.toRat = i ∧ -2 ^ 63 ≤ i ∧ i ≤ 2 ^ 63
    · obtain ⟨i, hx, h1, h2⟩ := hi
      have key : ∀ {j'}, JqDoc X (.num x) j' → JqDoc X (.num x) j := by
        intro j' hj
        have := jqDoc_toJson X hj
        rw [this] at h
        simp only [Except.ok.injEq] at h; subst h; exact hj
      rcases Int.lt_or_eq_of_le h2 with h2 | h2
      · exact key (.whole hfin hx h1 h2)
      · have : x = .fin (2 ^ 63) := by
          cases x with
          | nan => simp [F64.isFinite] at hfin
          | inf s => simp [F64.isFinite] at hfin
          | zero s => simp only [F64.toRat] at hx; exfalso; rw [h2] at hx; norm_num at hx
          | fin q => simp only [F64.toRat] at hx; rw [hx, h2]; norm_num
        subst this
        exact key .edge
    · have hj : JqDoc X (.num x) (.num (.float x)) := .other hd hfin (by
        intro i hx
        by_contra hc
        exact hi ⟨i, hx, by omega, by omega⟩)
      have := jqDoc_toJson X hj
      rw [this] at h
      simp only [Except.ok.injEq] at h; subst h; exact hj
  | .arr vs, j, hd, h => by
    simp only [JsonFn.toJson, bind, Except.bind, pure, Except.pure] at h
    cases hs : JsonFn.toJsons X vs with
    | ok js => rw [hs] at h; simp only [Except.ok.injEq] at h; subst h; exact .arr (toJsons_jqDocs X vs js hd hs)
    | error e => rw [hs] at h; simp at h
theorem toJsons_jqDocs (X : Ext) : ∀ (vs : List Value) (js : List Json), DoublesAll vs → JsonFn.toJsons X vs = .ok js → JqDocs X vs js
  | [], js, _, h => by simp only [JsonFn.toJsons, Except.ok.injEq] at h; subst h; exact .nil
  | v :: vs, js, hd, h => by
    simp only [JsonFn.toJsons, bind, Except.bind, pure, Except.pure] at h
    cases h1 : JsonFn.toJson X v with
    | error e => rw [h1] at h; simp at h
    | ok j =>
      rw [h1] at h
      cases h2 : JsonFn.toJsons X vs with
      | error e => rw [h2] at h; simp at h
      | ok js' =>
        rw [h2] at h
        simp only [Except.ok.injEq] at h; subst h
        exact .cons (toJson_jqDoc X v j hd.1 h1) (toJsons_jqDocs X vs js' hd.2 h2)
end

theorem jq_str (X : Ext) (r : Option Registry) (env : Env) (d p : Expr) (v : Value) (path : Str) (hr : NotCustom X r c!"JQ")
    (hd : Eval.eval X d r env = .ok v) (hp : Eval.eval X p r env = .ok (.str ('$' :: path))) :
    Eval.eval X (.call c!"JQ" [d, p]) r env = JsonFn.applyJsonPath X v ('$' :: path) := by
  rw [jq_eval X r env d p hr]
  simp only [Eval.jq, Eval.argOf_run, hd, hp, bind, Except.bind]
  rw [if_pos (by simp [Str.startsWith])]

/-- C108: `JQ(d, p)` gives the value of the node that the path selects when it selects one, and otherwise the array of the values of all
selected nodes in their order. -/
theorem C108_selects (X : Ext) (r : Option Registry) (env : Env) (d p : Expr) (v : Value) (path : Str) (j : Json) (js : List Json)
    (vs : List Value) (hr : NotCustom X r c!"JQ") (hd : Eval.eval X d r env = .ok v) (hp : Eval.eval X p r env = .ok (.str ('$' :: path)))
    (hv : JqDoc X v j) (hq : X.jsonPath j ('$' :: path) = .ok js) (hs : ReadsAll X js vs) :
    Eval.eval X (.call c!"JQ" [d, p]) r env = .ok (packed vs) := by
  rw [jq_str X r env d p v path hr hd hp]
  exact apply_packed X v j _ js vs hv hq hs

theorem readsAll_map (X : Ext) : ∀ js : List Json, ReadsAll X js (js.map (Json.toValue X))
  | [] => .nil
  | j :: js => .cons (reads_toValue X j) (readsAll_map X js)

/-- C108: it gives a value exactly when the path is a text that starts with `$`, the data is a document (or can be written as one) and the
path is one that the path library accepts. Otherwise it is an error. -/
theorem C108_answers_iff (X : Ext) (r : Option Registry) (env : Env) (d p : Expr) (v w : Value) (hr : NotCustom X r c!"JQ")
    (hd : Eval.eval X d r env = .ok v) (hp : Eval.eval X p r env = .ok w) (hv : Doubles v) :
    ((∃ u, Eval.eval X (.call c!"JQ" [d, p]) r env = .ok u) ↔
      ∃ path j js, w = .str ('$' :: path) ∧ JqDoc X v j ∧ X.jsonPath j ('$' :: path) = .ok js) ∧
    ((∀ u, Eval.eval X (.call c!"JQ" [d, p]) r env ≠ .ok u) → ∃ m as, Eval.eval X (.call c!"JQ" [d, p]) r env = fail m as) := by
  have bad : (∀ path, w ≠ .str ('$' :: path)) → ∃ m as, Eval.eval X (.call c!"JQ" [d, p]) r env = fail m as := by
    intro hw
    rw [jq_eval X r env d p hr]
    simp only [Eval.jq, Eval.argOf_run, hd, hp, bind, Except.bind]
    cases w with
    | str s =>
      have : ¬ Str.startsWith s c!"$" = true := by
        cases s with
        | nil => simp [Str.startsWith]
        | cons c s =>
          intro h
          simp [Str.startsWith] at h
          exact hw s (by rw [h])
      simp only [if_neg this]
      exact ⟨_, _, rfl⟩
    | _ => exact ⟨_, _, rfl⟩
  by_cases hw : ∃ path, w = .str ('$' :: path)
  · obtain ⟨path, rfl⟩ := hw
    rw [jq_str X r env d p v path hr hd hp]
    have hc : (∃ j, JsonFn.toJson X v = .ok j) ∨ ∃ m as, JsonFn.toJson X v = fail m as := toJson_total X v
    rcases hc with ⟨j, hj⟩ | ⟨m, as, hj⟩
    · have hdoc := toJson_jqDoc X v j hv hj
      cases hq : X.jsonPath j ('$' :: path) with
      | ok js =>
        have ha := apply_packed X v j _ js _ hdoc hq (readsAll_map X js)
        rw [ha]
        exact ⟨⟨fun _ => ⟨path, j, js, rfl, hdoc, hq⟩, fun _ => ⟨_, rfl⟩⟩, fun h => absurd rfl (h _)⟩
      | error e =>
        have ha : JsonFn.applyJsonPath X v ('$' :: path) = fail "JSONPath error: {}" [e] := by
          simp only [JsonFn.applyJsonPath, hj, bind, Except.bind, hq]
        rw [ha]
        refine ⟨⟨fun ⟨u, hu⟩ => by simp [fail] at hu, ?_⟩, fun _ => ⟨_, _, rfl⟩⟩
        rintro ⟨path', j', js, he, hdoc', hq'⟩
        simp only [Value.str.injEq, List.cons.injEq, true_and] at he
        subst he
        have : j' = j := by have := jqDoc_toJson X hdoc'; rw [hj] at this; simpa using this.symm
        subst this
        rw [hq] at hq'; simp at hq'
    · have ha : JsonFn.applyJsonPath X v ('$' :: path) = fail m as := by
        simp only [JsonFn.applyJsonPath, hj, bind, Except.bind, fail]
      rw [ha]
      refine ⟨⟨fun ⟨u, hu⟩ => by simp [fail] at hu, ?_⟩, fun _ => ⟨_, _, rfl⟩⟩
      rintro ⟨path', j', js, he, hdoc', hq'⟩
      have := jqDoc_toJson X hdoc'
      rw [hj] at this; simp [fail] at this
  · have hw' : ∀ path, w ≠ .str ('$' :: path) := fun path h => hw ⟨path, h⟩
    obtain ⟨m, as, hb⟩ := bad hw'
    rw [hb]
    exact ⟨⟨fun ⟨u, hu⟩ => by simp [fail] at hu, fun ⟨path, _, _, h, _⟩ => absurd h (hw' path)⟩, fun _ => ⟨_, _, rfl⟩⟩

/-- C108: the functions that aggregate numbers see the numbers of all selected nodes, whether there are none, one or many. -/
theorem C108_aggregates (X : Ext) (r : Option Registry) (env : Env) (d p : Expr) (v : Value) (path : Str) (j : Json) (js : List Json)
    (vs : List Value) (hr : NotCustom X r c!"JQ") (hd : Eval.eval X d r env = .ok v) (hp : Eval.eval X p r env = .ok (.str ('$' :: path)))
    (hv : JqDoc X v j) (hq : X.jsonPath j ('$' :: path) = .ok js) (hs : ReadsAll X js vs) :
    ∀ name ∈ [c!"SUM", c!"AVG", c!"AVERAGE", c!"MIN", c!"MAX", c!"MEDIAN", c!"MODE.SNGL", c!"VAR.P", c!"STDEV.P"], NotCustom X r name →
      Eval.eval X (.call name [.call c!"JQ" [d, p]]) r env = fn X name vs := by
  intro name hn hrn
  have h := C108_selects X r env d p v path j js vs hr hd hp hv hq hs
  have hown : name ∉ ownNames := by
    simp only [List.mem_cons, List.not_mem_nil, or_false] at hn
    rcases hn with rfl | rfl | rfl | rfl | rfl | rfl | rfl | rfl | rfl <;> decide
  rw [call_eq_fn X name r env _ [packed vs] hown hrn (.plain (by simp) h .nil)]
  refine C38_grouping X _ _ (Arr.flattens vs) ?_ (flattens_leaves vs) name hn
  match vs with
  | [] => simpa [packed, Arr.flattens] using LeavesOf.nested .nil .nil
  | [v] => exact flattens_leaves [v]
  | a :: b :: rest => simpa [packed] using LeavesOf.nested (flattens_leaves (a :: b :: rest)) .nil

/-- C108: where the path library leads a path to the node that a list of segments leads to, `JQ` gives what `DIG` gives; where both lead
nowhere, `JQ` gives an empty array and `DIG` null. -/
theorem C108_dig (X : Ext) (r : Option Registry) (env : Env) (d p : Expr) (s path : Str) (j : Json) (segs : List Value)
    (hr : NotCustom X r c!"JQ") (hd : Eval.eval X d r env = .ok (.json s)) (hp : Eval.eval X p r env = .ok (.str ('$' :: path)))
    (hs : X.jsonParse s = .ok j) (hfit : ∀ p js, At j p (.arr js) → js.length < 2 ^ 63) :
    (∀ k, At j segs k → X.jsonPath j ('$' :: path) = .ok [k] →
      Eval.eval X (.call c!"JQ" [d, p]) r env = fn X c!"DIG" [.json s, .arr segs]) ∧
    ((∀ k, ¬ At j segs k) → X.jsonPath j ('$' :: path) = .ok [] →
      Eval.eval X (.call c!"JQ" [d, p]) r env = .ok (.arr []) ∧ fn X c!"DIG" [.json s, .arr segs] = .ok .null) := by
  constructor
  · intro k hk hq
    rw [C108_selects X r env d p _ path j [k] _ hr hd hp (.doc hs) hq (readsAll_map X _),
      C43_dig_found X s j k _ segs [] hs hfit hk (reads_toValue X k)]
    rfl
  · intro hk hq
    exact ⟨C108_selects X r env d p _ path j [] _ hr hd hp (.doc hs) hq (readsAll_map X _), (C43_dig_missing X s j .null segs hs hfit hk).2⟩

/-- C108 fails for functions that take an array: when one node is selected they get its value instead of an array of it, and MAP, FILTER and
COUNTIF fail when that is not an array. -/
theorem C108_single_not_array (X : Ext) (r : Option Registry) (env : Env) (d p lam : Expr) (v w : Value) (path : Str) (j k : Json)
    (hr : NotCustom X r c!"JQ") (hm : ∀ n ∈ [c!"MAP", c!"FILTER", c!"COUNTIF"], NotCustom X r n)
    (hd : Eval.eval X d r env = .ok v) (hp : Eval.eval X p r env = .ok (.str ('$' :: path)))
    (hv : JqDoc X v j) (hq : X.jsonPath j ('$' :: path) = .ok [k]) (hk : Reads X k w) (hw : ∀ vs, w ≠ .arr vs) :
    Eval.eval X (.call c!"MAP" [.call c!"JQ" [d, p], lam]) r env = fail "MAP first arg must be array" ∧
    Eval.eval X (.call c!"FILTER" [.call c!"JQ" [d, p], lam]) r env = fail "FILTER first arg must be array" ∧
    Eval.eval X (.call c!"COUNTIF" [.call c!"JQ" [d, p], lam]) r env = fail "COUNTIF first arg must be array" := by
  have h := C108_selects X r env d p v path j [k] [w] hr hd hp hv hq (.cons hk .nil)
  simp only [packed] at h
  have hc : ∀ n f, n ∈ [c!"MAP", c!"FILTER", c!"COUNTIF"] → Eval.higherOrder X n = some f →
      Eval.eval X (.call n [.call c!"JQ" [d, p], lam]) r env = f r env [Eval.argOf X (.call c!"JQ" [d, p]), Eval.argOf X lam] := by
    intro n f hn hf
    have h2 : (match r with | some reg => if reg.has X n then some reg else none | none => none) = none := by
      cases r with
      | none => rfl
      | some reg => simp [hm n hn reg rfl]
    rw [Eval.eval, Eval.argsOf_eq]
    simp only [Eval.call]
    simp only [List.mem_cons, List.not_mem_nil, or_false] at hn
    rw [if_neg (by rcases hn with rfl | rfl | rfl <;> decide), if_neg (by rcases hn with rfl | rfl | rfl <;> decide),
      if_neg (by rcases hn with rfl | rfl | rfl <;> decide)]
    split
    · rename_i h; exact absurd (h2.symm.trans h) (by simp)
    · rw [hf]; rfl
  refine ⟨?_, ?_, ?_⟩
  · rw [hc c!"MAP" Eval.map (by simp) rfl]
    simp only [Eval.map, Eval.argOf_run, h, bind, Except.bind, List.head?, Eval.paramName]
  · rw [hc c!"FILTER" Eval.filter (by simp) rfl]
    simp only [Eval.filter, Eval.argOf_run, h, bind, Except.bind, List.head?, Eval.paramName]
  · rw [hc c!"COUNTIF" Eval.countif (by simp) rfl]
    simp only [Eval.countif, Eval.argOf_run, h, bind, Except.bind]

/-- C108: a path that selects one array and a path that selects its elements (none, two or more) give the same. -/
theorem C108_ambiguous (X : Ext) (r : Option Registry) (env : Env) (d p p' : Expr) (v : Value) (path path' : Str) (j : Json) (js : List Json)
    (hr : NotCustom X r c!"JQ") (hd : Eval.eval X d r env = .ok v) (hp : Eval.eval X p r env = .ok (.str ('$' :: path)))
    (hp' : Eval.eval X p' r env = .ok (.str ('$' :: path'))) (hv : JqDoc X v j) (hq : X.jsonPath j ('$' :: path) = .ok [.arr js])
    (hq' : X.jsonPath j ('$' :: path') = .ok js) (hl : js.length ≠ 1) :
    Eval.eval X (.call c!"JQ" [d, p]) r env = Eval.eval X (.call c!"JQ" [d, p']) r env := by
  rw [C108_selects X r env d p v path j _ _ hr hd hp hv hq (.cons (.arr (readsAll_map X js)) .nil),
    C108_selects X r env d p' v path' j _ _ hr hd hp' hv hq' (readsAll_map X js)]
  match js, hl with
  | [], _ => rfl
  | _ :: _ :: _, _ => rfl

/-- C108 fails in the arguments of methods: there the function is unknown. -/
theorem C108_not_in_methods (X : Ext) (v : Value) :
    evaluateWith X c!"[:d].map(JQ(:x, \"$\"))" (Env.empty.insert c!"d" v) = fail "Unknown function: {}" [c!"JQ"] := by kernel_rfl

/-! ### A path library for which the hypotheses hold -/

/-- The library of `sampleExt`, with a path library that knows three paths of `sampleDoc`. -/
def jqExt : Ext :=
  { sampleExt with
    jsonPath := fun _ p =>
      if p = c!"$.items[1].x" then .ok [.num (.int 7)]
      else if p = c!"$.items" then .ok [.arr [.bool true, .obj [(c!"x", .num (.int 7))]]]
      else if p = c!"$.items[*]" then .ok [.bool true, .obj [(c!"x", .num (.int 7))]]
      else if p = c!"$.none" then .ok []
      else .error c!"bad path" }

/-- A variable `d` with the document. -/
def jqEnv : Env := Env.empty.insert c!"d" (.json c!"A")

example : evaluateWith jqExt c!"=JQ(:d, \"$.items[1].x\")" jqEnv = .ok (.num (F64.ofInt 7)) := by kernel_rfl
example : evaluateWith jqExt c!"=SUM(JQ(:d, \"$.items[1].x\"))" jqEnv = .ok (.num (F64.ofInt 7)) := by kernel_rfl
example : evaluateWith jqExt c!"=JQ(:d, \"$.none\")" jqEnv = .ok (.arr []) := by kernel_rfl
example : evaluateWith jqExt c!"=JQ(:d, \"items\")" jqEnv ≠ .ok .null := by
  rw [show evaluateWith jqExt c!"=JQ(:d, \"items\")" jqEnv = fail "JQ second argument must be a valid JSONPath expression starting with $" from by kernel_rfl]; simp [fail]
example : evaluateWith jqExt c!"=JQ(:d, \"$[\")" jqEnv = fail "JSONPath error: {}" [c!"bad path"] := by kernel_rfl
example : evaluateWith jqExt c!"=JQ(:d, \"$.items\")" jqEnv = evaluateWith jqExt c!"=JQ(:d, \"$.items[*]\")" jqEnv := by kernel_rfl
example : evaluateWith jqExt c!"=MAP(JQ(:d, \"$.items[1].x\"), :x)" jqEnv = fail "MAP first arg must be array" := by kernel_rfl
example : evaluateWith jqExt c!"=MAP(JQ(:d, \"$.items[*]\"), 1)" jqEnv = .ok (.arr [.num (F64.ofNat 1), .num (F64.ofNat 1)]) := by kernel_rfl
example (r : Option Registry) (hr : NotCustom jqExt r c!"JQ") :
    Eval.eval jqExt (.call c!"JQ" [.var c!"d", .strLit c!"$.items[1].x"]) r jqEnv = .ok (.num (F64.ofInt 7)) :=
  C108_selects jqExt r jqEnv _ _ (.json c!"A") c!".items[1].x" sampleDoc [.num (.int 7)] [_] hr (by simp [Eval.eval, jqEnv, Env.insert])
    (by simp [Eval.eval]) (.doc rfl) rfl (.cons (reads_toValue _ _) .nil)
example : JqDoc jqExt (.arr [.num (.fin 3), .str c!"a", .cur (.fin 3), .json c!"A"]) (.arr [.num (.int 3), .str c!"a", .num (.float (.fin 3)), sampleDoc]) :=
  .arr (.cons (.whole (i := 3) rfl rfl (by norm_num) (by norm_num)) (.cons (.str _) (.cons (.amount rfl) (.cons (.doc rfl) .nil))))
example : At sampleDoc ([Step.key c!"items", .at 1, .key c!"x"].map Step.seg) (.num (.int 7)) ∧
    jqExt.jsonPath sampleDoc c!"$.items[1].x" = .ok [.num (.int 7)] := ⟨sample_at, rfl⟩
