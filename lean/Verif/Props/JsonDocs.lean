import Verif.Props.OrderStats
/-! C42 and C43: values to JSON and back, and following a path in a document. -/

open Lib Spec

namespace Spec

mutual
/-- Values built from null, booleans, finite numbers, strings and arrays. -/
inductive Plain : Value → Prop
  | null : Plain .null
  | bool (b : Bool) : Plain (.bool b)
  | num {x : F64} : IsDouble x → x.isFinite = true → Plain (.num x)
  | str (s : Str) : Plain (.str s)
  | arr {vs : List Value} : PlainAll vs → Plain (.arr vs)
/-- Lists of such values. -/
inductive PlainAll : List Value → Prop
  | nil : PlainAll []
  | cons {v : Value} {vs : List Value} : Plain v → PlainAll vs → PlainAll (v :: vs)
end

/-- The JSON library reads back the document it has written. -/
def ReadsBack (X : Ext) (j : Json) : Prop := X.jsonParse (X.jsonPrint j) = .ok j

mutual
/-- `Reads X j v`: `v` is the value that stands for the document `j`. An object is kept as text. -/
inductive Reads (X : Ext) : Json → Value → Prop
  | null : Reads X .null .null
  | bool (b : Bool) : Reads X (.bool b) (.bool b)
  | int (i : ℤ) : Reads X (.num (.int i)) (.num (F64.ofInt i))
  | float (x : F64) : Reads X (.num (.float x)) (.num x)
  | str (s : Str) : Reads X (.str s) (.str s)
  | arr {js : List Json} {vs : List Value} : ReadsAll X js vs → Reads X (.arr js) (.arr vs)
  | obj (ms : List (Str × Json)) : Reads X (.obj ms) (.json (X.jsonPrint (.obj ms)))
/-- Elementwise. -/
inductive ReadsAll (X : Ext) : List Json → List Value → Prop
  | nil : ReadsAll X [] []
  | cons {j : Json} {v : Value} {js : List Json} {vs : List Value} : Reads X j v → ReadsAll X js vs → ReadsAll X (j :: js) (v :: vs)
end

/-- `{a: :v}.a`. -/
def throughObject (X : Ext) (v : Value) : Res Value :=
  evalVars X (.prop (.object [(c!"a", .var c!"v")]) c!"a") (Env.empty.insert c!"v" v)

/-- `DIG(:v.to_json(), [])`. -/
def throughToJson (X : Ext) (v : Value) : Res Value :=
  evalVars X (.call c!"DIG" [.method (.var c!"v") c!"to_json" [] false, .array []]) (Env.empty.insert c!"v" v)

/-- `JQ(:v, "$")`. -/
def throughJq (X : Ext) (v : Value) : Res Value :=
  evalVars X (.call c!"JQ" [.var c!"v", .strLit c!"$"]) (Env.empty.insert c!"v" v)

end Spec

mutual
theorem reads_toValue (X : Ext) : ∀ j : Json, Reads X j (j.toValue X)
  | .null => .null
  | .bool b => .bool b
  | .num (.int i) => by
    have : (Json.num (.int i)).toValue X = .num (F64.ofInt i) := by
      simp only [Json.toValue, Json.asI64, Json.asF64]; split <;> simp_all
    rw [this]; exact .int i
  | .num (.float x) => .float x
  | .str s => .str s
  | .arr js => .arr (readsAll_toValues X js)
  | .obj ms => .obj ms
theorem readsAll_toValues (X : Ext) : ∀ js : List Json, ReadsAll X js (Json.toValues X js)
  | [] => .nil
  | j :: js => .cons (reads_toValue X j) (readsAll_toValues X js)
end

mutual
theorem Spec.Reads.unique {X : Ext} : ∀ {j : Json} {v w : Value}, Reads X j v → Reads X j w → v = w
  | _, _, _, .null, .null => rfl
  | _, _, _, .bool _, .bool _ => rfl
  | _, _, _, .int _, .int _ => rfl
  | _, _, _, .float _, .float _ => rfl
  | _, _, _, .str _, .str _ => rfl
  | _, _, _, .arr h, .arr h' => by rw [Spec.ReadsAll.unique h h']
  | _, _, _, .obj _, .obj _ => rfl
theorem Spec.ReadsAll.unique {X : Ext} : ∀ {js : List Json} {vs ws : List Value}, ReadsAll X js vs → ReadsAll X js ws → vs = ws
  | _, _, _, .nil, .nil => rfl
  | _, _, _, .cons h hs, .cons h' hs' => by rw [Spec.Reads.unique h h', Spec.ReadsAll.unique hs hs']
end

/-! ### C42 -/

mutual
theorem toJson_plain (X : Ext) : ∀ {v : Value}, Plain v → ∃ j, v.toJson X = .ok j ∧ j.toValue X = v
  | _, .null => ⟨_, rfl, rfl⟩
  | _, .bool b => ⟨_, rfl, rfl⟩
  | _, .num (x := x) _ hf => ⟨.num (.float x), by simp [Value.toJson, Json.ofF64, hf], rfl⟩
  | _, .str s => ⟨_, rfl, rfl⟩
  | _, .arr h => by
    obtain ⟨js, h1, h2⟩ := toJsonList_plain X h
    exact ⟨.arr js, by simp [Value.toJson, h1, bind, Except.bind, pure, Except.pure], by simp [Json.toValue, h2]⟩
theorem toJsonList_plain (X : Ext) : ∀ {vs : List Value}, PlainAll vs → ∃ js, Value.toJsonList X vs = .ok js ∧ Json.toValues X js = vs
  | _, .nil => ⟨_, rfl, rfl⟩
  | _, .cons h hs => by
    obtain ⟨j, h1, h2⟩ := toJson_plain X h
    obtain ⟨js, h3, h4⟩ := toJsonList_plain X hs
    exact ⟨j :: js, by simp [Value.toJsonList, h1, h3, bind, Except.bind, pure, Except.pure], by simp [Json.toValues, h2, h4]⟩
end

mutual
theorem toJsonValue_plain (X : Ext) : ∀ {v : Value}, Plain v → ∃ j, Method.toJsonValue X v = .ok j ∧ j.toValue X = v
  | _, .null => ⟨_, rfl, rfl⟩
  | _, .bool b => ⟨_, rfl, rfl⟩
  | _, .num (x := x) _ hf => ⟨.num (.float x), by simp [Method.toJsonValue, Method.jsonNumber, hf], rfl⟩
  | _, .str s => ⟨_, rfl, rfl⟩
  | _, .arr h => by
    obtain ⟨js, h1, h2⟩ := toJsonValues_plain X h
    exact ⟨.arr js, by simp [Method.toJsonValue, h1, bind, Except.bind, pure, Except.pure], by simp [Json.toValue, h2]⟩
theorem toJsonValues_plain (X : Ext) : ∀ {vs : List Value}, PlainAll vs → ∃ js, Method.toJsonValues X vs = .ok js ∧ Json.toValues X js = vs
  | _, .nil => ⟨_, rfl, rfl⟩
  | _, .cons h hs => by
    obtain ⟨j, h1, h2⟩ := toJsonValue_plain X h
    obtain ⟨js, h3, h4⟩ := toJsonValues_plain X hs
    exact ⟨j :: js, by simp [Method.toJsonValues, h1, h3, bind, Except.bind, pure, Except.pure], by simp [Json.toValues, h2, h4]⟩
end

theorem throughObject_eq (X : Ext) (v : Value) : throughObject X v =
    (v.toJson X).bind fun j => (parseJson X (X.jsonPrint (.obj [(c!"a", j)]))).bind fun d =>
      match d.get c!"a" with
      | some p => .ok (p.toValue X)
      | none => fail "Property '{}' not found in JSON object" [c!"a"] := by
  unfold throughObject
  rw [show ∀ e env, evalVars X e env = Eval.eval X e none env from fun _ _ => rfl]
  simp only [Eval.eval, Eval.membersOf, objectMembers, Env.insert, if_true, bind, Except.bind, objInsert]
  cases v.toJson X with
  | error f => rfl
  | ok j => rfl

/-- C42: putting a plain value into an object and reading it out again gives the value, provided the JSON library reads
back the object it wrote. -/
theorem C42_object_round_trip (X : Ext) (v : Value) (hv : Plain v) :
    ∃ j, Reads X j v ∧ (ReadsBack X (.obj [(c!"a", j)]) → throughObject X v = .ok v) := by
  obtain ⟨j, h1, h2⟩ := toJson_plain X hv
  refine ⟨j, h2 ▸ reads_toValue X j, ?_⟩
  intro hb
  unfold ReadsBack at hb
  rw [throughObject_eq, h1]
  simp only [Except.bind, parseJson, hb, Json.get, objGet, if_true, h2]

/-- C42: an object put into an object and read out again is text for the same document. -/
theorem C42_object_document (X : Ext) (s : Str) (ms : List (Str × Json)) (hs : X.jsonParse s = .ok (.obj ms))
    (h1 : ReadsBack X (.obj [(c!"a", .obj ms)])) (h2 : ReadsBack X (.obj ms)) :
    ∃ s', throughObject X (.json s) = .ok (.json s') ∧ X.jsonParse s' = .ok (.obj ms) := by
  unfold ReadsBack at h1 h2
  refine ⟨X.jsonPrint (.obj ms), ?_, h2⟩
  rw [throughObject_eq]
  simp only [Value.toJson, hs, Except.bind, parseJson, h1, Json.get, objGet, if_true, Json.toValue]

/-- C42 fails for the method `to_json` on null, which gives an empty object. -/
theorem C42_null_wrong (X : Ext) : evaluate X c!"NULL.to_json()" = .ok (.json c!"{}") := by kernel_rfl

/-- C42, partial: turning a plain value other than null into JSON text with `to_json` and reading the document gives the
value. Missing: null. -/
theorem C42_to_json_partial (X : Ext) (v : Value) (hv : Plain v) (hn : v ≠ .null) :
    ∃ j, Reads X j v ∧ (ReadsBack X j → throughToJson X v = .ok v) := by
  obtain ⟨j, h1, h2⟩ := toJsonValue_plain X hv
  refine ⟨j, h2 ▸ reads_toValue X j, ?_⟩
  intro hb
  unfold ReadsBack at hb
  have hm : Method.toJson X v = .ok (.json (X.jsonPrint j)) := by
    cases v <;> simp_all [Method.toJson, bind, Except.bind, pure, Except.pure]
    cases hv
  unfold throughToJson
  rw [show ∀ e env, evalVars X e env = Eval.eval X e none env from fun _ _ => rfl]
  rw [call_eq_fn X c!"DIG" none _ _ [.json (X.jsonPrint j), .arr []] (by decide) (by intro reg h; cases h)]
  · rw [fn_eq X _ _ (by decide)]
    rw [show ∀ vs, execFast X c!"DIG" vs = JsonFn.dig X vs from fun _ => rfl]
    simp [JsonFn.dig, argAt, hb, JsonFn.digPath, h2]
  · refine .plain (by simp) ?_ (.plain (by simp) ?_ .nil)
    · simp only [Eval.eval, Legacy.argsOf]
      change Method.toJson X v = _
      exact hm
    · simp only [Eval.eval, Eval.argsOf]; rfl

example : Plain (.arr [.num (.fin 3), .str c!"x", .arr [.null, .bool true]]) :=
  .arr (.cons (.num ⟨by norm_num, 3, 0, by norm_num, by norm_num, by norm_num, by norm_num⟩ rfl)
    (.cons (.str _) (.cons (.arr (.cons .null (.cons (.bool _) .nil))) .nil)))

/-- A double without fractional part is an integer. -/
theorem integer_of_fract {x : F64} (hd : IsDouble x) (hf : x.isFinite = true) (h : F64.feq x.fract (.zero false) = true) : IsInteger x := by
  cases x with
  | nan => simp [F64.isFinite] at hf
  | inf s => simp [F64.isFinite] at hf
  | zero s => exact ⟨0, rfl, by simp [F64.toRat]⟩
  | fin q =>
    refine ⟨F64.truncRat q, rfl, ?_⟩
    simp only [F64.toRat]
    obtain ⟨hq0, m, e, hm, he1, he2, hq⟩ := hd
    set t : ℤ := F64.truncRat q with ht
    by_contra hne
    have hsub : q + -(t : ℚ) ≠ 0 := by intro h0; exact hne (by linarith)
    -- the fractional part is not zero and its rounding is
    have hfr : (F64.fin q).fract = F64.round (q + -(t : ℚ)) := by
      simp only [F64.fract, F64.trunc, F64.ofRounded, F64.sub, ← ht]
      split
      · rename_i h0
        simp only [F64.neg, F64.add, h0, Int.cast_zero, neg_zero, add_zero]
        rw [F64.round_exact ⟨m, e, hm, he1, he2, hq⟩ hq0]
      · rfl
    rw [hfr] at h
    have hr := F64.round_isRounded hsub false
    have hz : ∃ s, F64.round (q + -(t : ℚ)) = .zero s := by
      cases hx : F64.round (q + -(t : ℚ)) with
      | nan => rw [hx] at h; simp [F64.feq] at h
      | inf s => rw [hx] at h; simp [F64.feq] at h
      | zero s => exact ⟨s, rfl⟩
      | fin v =>
        rw [hx] at h hr
        have : v = 0 := by
          change decide (v = 0) = true at h
          exact of_decide_eq_true h
        exact absurd this hr.1
    obtain ⟨s, hz⟩ := hz
    rw [hz] at hr
    have hle := hr.1
    by_cases hepos : 0 ≤ e
    · -- q is an integer
      obtain ⟨k, rfl⟩ := Int.eq_ofNat_of_zero_le hepos
      have : q = ((m * 2 ^ k : ℤ) : ℚ) := by rw [hq]; push_cast; rw [zpow_natCast]
      have ht' : t = m * 2 ^ k := by rw [ht, this, truncRat_int]
      exact hne (by rw [ht']; exact this)
    · obtain ⟨k, hk⟩ : ∃ k : ℕ, e = -(k : ℤ) := ⟨(-e).toNat, by omega⟩
      have hpw : (2 : ℚ) ^ e * 2 ^ k = 1 := by rw [hk, zpow_neg, zpow_natCast]; exact inv_mul_cancel₀ (by positivity)
      have hsm : IsBin64 (2 ^ (-1074 : ℤ)) := ⟨1, -1074, by norm_num, by norm_num, by norm_num, by norm_num⟩
      have hsm' : IsBin64 (-(2 : ℚ) ^ (-1074 : ℤ)) := F64.isBin64_neg hsm
      have heq : q + -(t : ℚ) = ((m - t * 2 ^ k : ℤ) : ℚ) * 2 ^ e := by
        have : (t : ℚ) = t * 2 ^ k * 2 ^ e := by rw [mul_assoc, mul_comm ((2 : ℚ) ^ k), hpw, mul_one]
        rw [hq]; push_cast; linarith
      have hpos : (0 : ℚ) < 2 ^ e := F64.pow2_pos e
      have hbig : (2 : ℚ) ^ (-1074 : ℤ) ≤ |q + -(t : ℚ)| := by
        rw [heq, abs_mul, abs_of_pos hpos]
        have hmne : m - t * 2 ^ k ≠ 0 := by
          intro h0; rw [heq, h0] at hsub; simp at hsub
        have h1 : (1 : ℚ) ≤ |((m - t * 2 ^ k : ℤ) : ℚ)| := by
          have := Int.one_le_abs hmne; exact_mod_cast this
        have h2 : (2 : ℚ) ^ (-1074 : ℤ) ≤ 2 ^ e := zpow_le_zpow_right₀ (by norm_num) he1
        calc (2 : ℚ) ^ (-1074 : ℤ) ≤ 1 * 2 ^ e := by linarith
          _ ≤ _ := mul_le_mul_of_nonneg_right h1 hpos.le
      have hpos' : (0 : ℚ) < 2 ^ (-1074 : ℤ) := F64.pow2_pos _
      rcases abs_cases (q + -(t : ℚ)) with ⟨ha, hs⟩ | ⟨ha, hs⟩
      · have := hle _ hsm
        rw [ha] at this hbig
        rw [abs_of_nonneg (by linarith)] at this
        linarith
      · have := hle _ hsm'
        rw [ha] at this hbig
        rw [abs_of_nonpos (by linarith)] at this
        linarith

theorem fle_toRat {a b : F64} (h : F64.fle a b = true) (fa : a.isFinite = true) (fb : b.isFinite = true) : a.toRat ≤ b.toRat := by
  have := key_le_of h
  rw [key_finite fa, key_finite fb, Prod.Lex.toLex_le_toLex] at this
  simpa using this

theorem ofInt_min : F64.ofInt F64.i64Min = .fin (-2 ^ 63) := by decide +kernel
theorem ofInt_max : F64.ofInt F64.i64Max = .fin (2 ^ 63) := by decide +kernel

mutual
/-- Finite numbers read from a document are equal to the numbers written, up to the sign of zero. -/
theorem jq_plain (X : Ext) : ∀ {v : Value}, Plain v → ∃ j, JsonFn.toJson X v = .ok j ∧ Equal (j.toValue X) v
  | _, .null => ⟨_, rfl, .null⟩
  | _, .bool b => ⟨_, rfl, .bool b⟩
  | _, .num (x := x) hd hf => by
    by_cases hc : (F64.feq x.fract (.zero false) && F64.fge x (F64.ofInt F64.i64Min) && F64.fle x (F64.ofInt F64.i64Max)) = true
    · refine ⟨.num (.int x.toI64), by simp only [JsonFn.toJson]; rw [if_pos hc], ?_⟩
      simp only [Bool.and_eq_true] at hc
      obtain ⟨⟨h1, h2⟩, h3⟩ := hc
      rw [ofInt_max] at h3
      rw [ofInt_min] at h2
      have hi := integer_of_fract hd hf h1
      have lo : -2 ^ 63 ≤ x.toRat := fle_toRat (show F64.fle (.fin (-2 ^ 63)) x = true from h2) rfl hf
      have hi' : x.toRat ≤ 2 ^ 63 := fle_toRat h3 hf rfl
      have hs := integer_stable x hd hi lo hi'
      have hrange := toI64_range x
      have e1 : F64.i64Min = -2 ^ 63 := rfl
      have e2 : F64.i64Max = 2 ^ 63 - 1 := rfl
      simp only [Json.toValue, Json.asI64]
      rw [if_pos (by omega)]
      refine .num ⟨?_, ?_⟩
      · exact F64.round_ne_nan _ _
      · rcases hs.2 with h | ⟨s, t, h, h'⟩
        · exact .inl h.symm
        · exact .inr ⟨t, s, h', h⟩
    · refine ⟨.num (.float x), ?_, .num ⟨?_, .inl rfl⟩⟩
      · simp only [JsonFn.toJson]; rw [if_neg hc, if_pos hf]
      · rintro rfl; simp [F64.isFinite] at hf
  | _, .str s => ⟨_, rfl, .str s⟩
  | _, .arr h => by
    obtain ⟨js, h1, h2⟩ := jqs_plain X h
    exact ⟨.arr js, by simp [JsonFn.toJson, h1, bind, Except.bind, pure, Except.pure], by simp only [Json.toValue]; exact .arr h2⟩
theorem jqs_plain (X : Ext) : ∀ {vs : List Value}, PlainAll vs → ∃ js, JsonFn.toJsons X vs = .ok js ∧ EqualAll (Json.toValues X js) vs
  | _, .nil => ⟨_, rfl, .nil⟩
  | _, .cons h hs => by
    obtain ⟨j, h1, h2⟩ := jq_plain X h
    obtain ⟨js, h3, h4⟩ := jqs_plain X hs
    exact ⟨j :: js, by simp [JsonFn.toJsons, h1, h3, bind, Except.bind, pure, Except.pure], by simp only [Json.toValues]; exact .cons h2 h4⟩
end

/-- C42: selecting the whole of a plain value with `JQ` gives an equal value. -/
theorem C42_jq_round_trip (X : Ext) (v : Value) (hv : Plain v) :
    ∃ j w, Reads X j w ∧ Equal w v ∧ (X.jsonPath j c!"$" = .ok [j] → throughJq X v = .ok w) := by
  obtain ⟨j, h1, h2⟩ := jq_plain X hv
  refine ⟨j, _, reads_toValue X j, h2, ?_⟩
  intro hp
  unfold throughJq
  rw [show ∀ e env, evalVars X e env = Eval.eval X e none env from fun _ _ => rfl]
  simp only [Eval.eval, Eval.argsOf]
  rw [show ∀ args env, Eval.call X c!"JQ" args none env = Eval.jq X none env args from fun _ _ => rfl]
  simp only [Eval.jq, Env.insert, if_true, bind, Except.bind]
  change JsonFn.applyJsonPath X v c!"$" = _
  simp only [JsonFn.applyJsonPath, h1, bind, Except.bind, hp]

/-! ### C43 -/

namespace Spec

/-- `At j path r`: following `path` from `j` leads to `r`. Strings select members of objects, and a number at least `i`
and below `i + 1` selects the element `i` (from zero) of an array. -/
inductive At : Json → List Value → Json → Prop
  | here (j : Json) : At j [] j
  | member {ms : List (Str × Json)} {k : Str} {j r : Json} {path : List Value} :
      ms.lookup k = some j → At j path r → At (.obj ms) (.str k :: path) r
  | element {js : List Json} {n : F64} {i : ℕ} {j r : Json} {path : List Value} :
      n.isFinite = true → (i : ℚ) ≤ n.toRat → n.toRat < i + 1 → js[i]? = some j → At j path r → At (.arr js) (.num n :: path) r

end Spec

theorem objGet_lookup (k : Str) (ms : List (Str × Json)) : objGet k ms = ms.lookup k := by
  induction ms with
  | nil => rfl
  | cons m ms ih =>
    obtain ⟨k', v⟩ := m
    simp only [objGet, List.lookup_cons, ih]
    by_cases h : k = k'
    · simp [h]
    · rw [if_neg h, show (k == k') = false by simpa using h]

/-- The position a number stands for. -/
theorem floor_pos (n : F64) (hd : n.isFinite = true) (i : ℕ) (hi : (i : ℤ) < F64.i64Max) :
    n.floor.toI64 = i ↔ (i : ℚ) ≤ n.toRat ∧ n.toRat < i + 1 := by
  have e1 : F64.i64Min = -2 ^ 63 := rfl
  have e2 : F64.i64Max = 2 ^ 63 - 1 := rfl
  cases n with
  | nan => simp [F64.isFinite] at hd
  | inf s => simp [F64.isFinite] at hd
  | zero s =>
    simp only [F64.floor, F64.toI64, F64.toIntSat, F64.toRat]
    constructor
    · intro h
      have : i = 0 := by omega
      subst this; norm_num
    · rintro ⟨h1, -⟩
      have : (i : ℚ) = 0 := le_antisymm h1 (by positivity)
      have : i = 0 := by exact_mod_cast this
      omega
  | fin q =>
    have key : (⌊q⌋ = (i : ℤ)) ↔ (i : ℚ) ≤ q ∧ q < i + 1 := by
      rw [Int.floor_eq_iff]; push_cast; rfl
    have hfl : q.floor = ⌊q⌋ := rfl
    simp only [F64.floor, F64.toRat, F64.ofRounded, hfl]
    rw [← key]
    split
    · rename_i h0
      simp only [F64.toI64, F64.toIntSat, h0]
    · simp only [F64.toI64, F64.toIntSat, truncRat_int]
      constructor
      · intro h; split_ifs at h <;> omega
      · intro h; rw [h]; split_ifs <;> omega

/-- One step of a path. -/
theorem digStep_at (cur next : Json) (seg : Value) (hfit : ∀ js, cur = .arr js → js.length < 2 ^ 63) :
    JsonFn.digStep cur seg = some next ↔ At cur [seg] next := by
  have e2 : F64.i64Max = 2 ^ 63 - 1 := rfl
  constructor
  · intro h
    unfold JsonFn.digStep at h
    split at h
    · split at h
      · exact .member (by rw [← objGet_lookup]; exact h) (.here _)
      · cases h
    · rename_i n
      split at h
      · rename_i items
        have hl : items.length < 2 ^ 63 := hfit items rfl
        extract_lets idx at h
        split at h
        · rename_i hc
          by_cases hf : n.isFinite = true
          · have hidx : idx = n.floor.toI64 := if_pos hf
            have hpos := (floor_pos n hf idx.toNat (by omega)).1 (by omega)
            exact .element hf hpos.1 hpos.2 h (.here _)
          · have hidx : idx = -1 := if_neg hf
            omega
        · cases h
      · cases h
    · cases h
  · intro h
    cases h with
    | member hk hr => cases hr; simp only [JsonFn.digStep, objGet_lookup, hk]
    | element hf h1 h2 hj hr =>
      rename_i js n i j
      cases hr
      have hl : js.length < 2 ^ 63 := hfit js rfl
      have hi : i < js.length := by
        by_contra hc
        rw [List.getElem?_eq_none (by omega)] at hj; cases hj
      have hidx := (floor_pos n hf i (by omega)).2 ⟨h1, h2⟩
      simp only [JsonFn.digStep, hf, if_true, hidx]
      rw [if_pos ⟨by omega, by simpa using hi⟩]
      simpa using hj

theorem Spec.At.cons {j k r : Json} {seg : Value} {path : List Value} (h1 : At j [seg] k) (h2 : At k path r) : At j (seg :: path) r := by
  cases h1 with
  | member hk hr => cases hr; exact .member hk h2
  | element hf a b hj hr => cases hr; exact .element hf a b hj h2

theorem Spec.At.uncons {j r : Json} {seg : Value} {path : List Value} (h : At j (seg :: path) r) : ∃ k, At j [seg] k ∧ At k path r := by
  cases h with
  | member hk hr => exact ⟨_, .member hk (.here _), hr⟩
  | element hf a b hj hr => exact ⟨_, .element hf a b hj (.here _), hr⟩

theorem digPath_at (path : List Value) (j r : Json) (hfit : ∀ p js, At j p (.arr js) → js.length < 2 ^ 63) :
    JsonFn.digPath j path = some r ↔ At j path r := by
  induction path generalizing j with
  | nil =>
    simp only [JsonFn.digPath, Option.some.injEq]
    constructor
    · rintro rfl; exact .here _
    · intro h; cases h; rfl
  | cons seg path ih =>
    have hs := fun k => digStep_at j k seg (fun js hj => hfit [] js (hj ▸ .here _))
    rw [JsonFn.digPath]
    constructor
    · intro h
      split at h
      · rename_i k hk
        have h1 := (hs k).1 hk
        exact h1.cons ((ih k fun p js hp => hfit (seg :: p) js (h1.cons hp)).1 h)
      · cases h
    · intro h
      obtain ⟨k, h1, h2⟩ := h.uncons
      rw [(hs k).2 h1]
      exact (ih k fun p js hp => hfit (seg :: p) js (h1.cons hp)).2 h2

theorem fn_dig (X : Ext) (vs : List Value) : fn X c!"DIG" vs = JsonFn.dig X vs := by rw [fn_eq X _ _ (by decide)]; rfl

/-- C43: `DIG` returns what the path leads to. -/
theorem C43_dig_found (X : Ext) (s : Str) (j r : Json) (v : Value) (path : List Value) (rest : List Value) (hs : X.jsonParse s = .ok j)
    (hfit : ∀ p js, At j p (.arr js) → js.length < 2 ^ 63) (h : At j path r) (hv : Reads X r v) :
    fn X c!"DIG" (.json s :: .arr path :: rest) = .ok v := by
  rw [fn_dig]
  simp [JsonFn.dig, argAt, hs, (digPath_at path j r hfit).2 h, hv.unique (reads_toValue X r)]

/-- C43: where the path leads nowhere, `DIG` returns the default, or null when none is given. -/
theorem C43_dig_missing (X : Ext) (s : Str) (j : Json) (d : Value) (path : List Value) (hs : X.jsonParse s = .ok j)
    (hfit : ∀ p js, At j p (.arr js) → js.length < 2 ^ 63) (h : ∀ r, ¬ At j path r) :
    fn X c!"DIG" [.json s, .arr path, d] = .ok d ∧ fn X c!"DIG" [.json s, .arr path] = .ok .null := by
  have hn : JsonFn.digPath j path = none := by
    cases hd : JsonFn.digPath j path with
    | none => rfl
    | some r => exact absurd ((digPath_at path j r hfit).1 hd) (h r)
  rw [fn_dig, fn_dig]
  simp [JsonFn.dig, argAt, hs, hn]

/-- C43: the method form gives the same, for every document text, valid or not. -/
theorem C43_dig_method (X : Ext) (s : Str) (path : List Value) (d : Value) :
    meth1 X (.json s) c!"dig" (.arr path) = fn X c!"DIG" [.json s, .arr path] ∧
    meth2 X (.json s) c!"dig" (.arr path) d = fn X c!"DIG" [.json s, .arr path, d] := by
  rw [fn_dig, fn_dig, meth1_eq, meth2_eq]
  constructor
  · rw [show ∀ env args, Method.exec X none env c!"dig" false (.json s) args = Method.dig X env s args from fun _ _ => rfl]
    simp only [Method.dig]
    rw [show ∀ env a, Method.ev env a = a.run none env from fun _ _ => rfl]
    rw [arg_var X none _ c!"a" (.arr path) (by rfl)]
    simp only [bind, Except.bind, pure, Except.pure, parseJson, JsonFn.dig, argAt]
    simp
    cases X.jsonParse s with
    | error e => rfl
    | ok j => simp only; cases JsonFn.digPath j path <;> rfl
  · rw [show ∀ env args, Method.exec X none env c!"dig" false (.json s) args = Method.dig X env s args from fun _ _ => rfl]
    simp only [Method.dig]
    rw [show ∀ env a, Method.ev env a = a.run none env from fun _ _ => rfl]
    rw [show ∀ env a, Method.ev env a = a.run none env from fun _ _ => rfl]
    rw [arg_var X none _ c!"a" (.arr path) (by rfl), arg_var X none _ c!"b" d (by rfl)]
    simp only [bind, Except.bind, pure, Except.pure, parseJson, JsonFn.dig, argAt]
    simp
    cases X.jsonParse s with
    | error e => rfl
    | ok j => simp only; cases JsonFn.digPath j path <;> rfl

namespace Spec

/-- A step of a chain of accesses. -/
inductive Step where
  | key (k : Str)
  | at (i : ℕ)

/-- As an element of a path. -/
def Step.seg : Step → Value
  | .key k => .str k
  | .at i => .num (F64.ofNat i)

/-- As an access: `e.k` or `e[i]`. -/
def Step.access (e : Expr) : Step → Expr
  | .key k => .prop e k
  | .at i => .index e (.number (F64.ofNat i))

end Spec

theorem ofNat_toRat (i : ℕ) (h : i ≤ 2 ^ 53) : (F64.ofNat i).isFinite = true ∧ (F64.ofNat i).toRat = i := by
  unfold F64.ofNat
  rw [F64.ofInt_exact i (by rw [abs_of_nonneg (by omega)]; exact_mod_cast h)]
  unfold F64.ofIntExact
  split
  · rename_i h0
    have : i = 0 := by omega
    subst this; exact ⟨rfl, by simp [F64.toRat]⟩
  · exact ⟨rfl, by simp [F64.toRat]⟩

theorem readsAll_get {X : Ext} {js : List Json} {vs : List Value} (h : ReadsAll X js vs) (i : ℕ) (j : Json) (hj : js[i]? = some j) :
    ∃ v, vs[i]? = some v ∧ Reads X j v := by
  induction js generalizing vs i with
  | nil => simp at hj
  | cons a js ih =>
    cases h with
    | cons h1 h2 =>
      cases i with
      | zero => simp at hj; subst hj; exact ⟨_, rfl, h1⟩
      | succ i => exact ih h2 i (by simpa using hj)

theorem readsAll_length {X : Ext} {js : List Json} {vs : List Value} (h : ReadsAll X js vs) : vs.length = js.length := by
  induction js generalizing vs with
  | nil => cases h; rfl
  | cons a js ih => cases h with | cons h1 h2 => simp [ih h2]

/-- C43: following a path with `DIG` gives the value of the chain of accesses `e.k[i]...`, provided the JSON library reads
back the objects met on the way and the arrays have at most 2^53 elements. -/
theorem C43_dig_chain (X : Ext) (r : Option Registry) (env : Env) (steps : List Step) (e : Expr) (s : Str) (j w : Json) (v : Value)
    (he : Eval.eval X e r env = .ok (.json s)) (hs : X.jsonParse s = .ok j) (hj : ∃ ms, j = .obj ms)
    (hfit : ∀ p js, At j p (.arr js) → js.length ≤ 2 ^ 53)
    (hback : ∀ p ms, At j p (.obj ms) → ReadsBack X (.obj ms))
    (h : At j (steps.map Step.seg) w) (hv : Reads X w v) (hne : steps ≠ []) :
    Eval.eval X (steps.foldl Step.access e) r env = .ok v ∧ fn X c!"DIG" [.json s, .arr (steps.map Step.seg)] = .ok v := by
  have hfit' : ∀ p js, At j p (.arr js) → js.length < 2 ^ 63 := fun p js hp => lt_of_le_of_lt (hfit p js hp) (by norm_num)
  refine ⟨?_, C43_dig_found X s j w v _ [] hs hfit' h hv⟩
  -- the value of an expression that stands for a document
  have key : ∀ (steps : List Step) (e : Expr) (j : Json) (u : Value), (Eval.eval X e r env = .ok u) →
      (Reads X j u ∨ ∃ s, u = .json s ∧ X.jsonParse s = .ok j ∧ ∃ ms, j = .obj ms) →
      (∀ p js, At j p (.arr js) → js.length ≤ 2 ^ 53) → (∀ p ms, At j p (.obj ms) → ReadsBack X (.obj ms)) →
      At j (steps.map Step.seg) w → (steps = [] → u = v) → Eval.eval X (steps.foldl Step.access e) r env = .ok v := by
    intro steps
    induction steps with
    | nil => intro e j u h1 _ _ _ _ h2; rw [← h2 rfl]; exact h1
    | cons st steps ih =>
      intro e j u h1 h2 hf hb hat _
      obtain ⟨k, ha, hb'⟩ := Spec.At.uncons hat
      have hval : Eval.eval X (Step.access e st) r env = .ok (k.toValue X) := by
        cases st with
        | key name =>
          cases ha with
          | member hk hr =>
            cases hr
            rename_i ms
            have hu : ∃ s, u = .json s ∧ X.jsonParse s = .ok (.obj ms) := by
              rcases h2 with h2 | ⟨s, rfl, h2, -⟩
              · cases h2; exact ⟨_, rfl, hb [] ms (.here _)⟩
              · exact ⟨s, rfl, h2⟩
            obtain ⟨s, rfl, hp⟩ := hu
            simp only [Step.access, Eval.eval, h1, bind, Except.bind, Ops.property, parseJson, hp, Json.get, objGet_lookup, hk]
        | «at» i =>
          cases ha with
          | element hfin lo hi hj hr =>
            cases hr
            rename_i js i'
            have hu : ∃ vs, u = .arr vs ∧ ReadsAll X js vs := by
              rcases h2 with h2 | ⟨s, rfl, h2, ms, h3⟩
              · cases h2 with | arr h => exact ⟨_, rfl, h⟩
              · cases h3
            obtain ⟨vs, rfl, hvs⟩ := hu
            have hlen := hf [] js (.here _)
            have hi' : i' < js.length := by
              by_contra hc
              rw [List.getElem?_eq_none (by omega)] at hj; cases hj
            have hii : i = i' := by
              by_cases h53 : i ≤ 2 ^ 53
              · obtain ⟨-, ht⟩ := ofNat_toRat i h53
                rw [ht] at lo hi
                have h1 : i' ≤ i := by exact_mod_cast lo
                have h2 : i < i' + 1 := by exact_mod_cast hi
                omega
              · have b53 : IsBin64 (2 ^ 53) := ⟨1, 53, by norm_num, by norm_num, by norm_num, by norm_num⟩
                have hge : (2 : ℚ) ^ 53 ≤ ((i : ℤ) : ℚ) := by exact_mod_cast (not_le.1 h53).le
                have hk := F64.le_key_round b53 hge false
                have hkf := key_finite hfin
                change toLex ((0 : ℤ), (2 : ℚ) ^ 53) ≤ F64.key (F64.ofNat i) at hk
                rw [hkf, Prod.Lex.toLex_le_toLex] at hk
                have hk' : (2 : ℚ) ^ 53 ≤ (F64.ofNat i).toRat := by simpa using hk
                have : (2 : ℚ) ^ 53 < (i' : ℚ) + 1 := lt_of_le_of_lt hk' hi
                have : 2 ^ 53 < i' + 1 := by exact_mod_cast this
                omega
            subst hii
            obtain ⟨x, hx, hr⟩ := readsAll_get hvs i k hj
            have hxk : x = k.toValue X := hr.unique (reads_toValue X k)
            subst hxk
            have hto : (F64.ofNat i).toI64 = i := by
              unfold F64.ofNat
              rw [F64.ofInt_exact i (by rw [abs_of_nonneg (by omega)]; exact_mod_cast (by omega : i ≤ 2 ^ 53))]
              unfold F64.ofIntExact
              have e1 : F64.i64Min = -2 ^ 63 := rfl
              have e2 : F64.i64Max = 2 ^ 63 - 1 := rfl
              split
              · rename_i h0; simp only [F64.toI64, F64.toIntSat]; omega
              · simp only [F64.toI64, F64.toIntSat, truncRat_int]; split_ifs <;> omega
            simp only [Step.access, Eval.eval, h1, bind, Except.bind, Legacy.index, Value.asNumber, hto, indexArray, clampIndex,
              readsAll_length hvs]
            rw [if_pos (by omega)]
            simp [hi', hx]
      refine ih (Step.access e st) k (k.toValue X) hval (.inl (reads_toValue X k)) (fun p js hp => hf (_ :: p) js (ha.cons hp))
        (fun p ms hp => hb (_ :: p) ms (ha.cons hp)) hb' ?_
      rintro rfl
      cases hb'
      exact (reads_toValue X _).unique hv
  exact key steps e j (.json s) he (.inr ⟨s, rfl, hs, hj⟩) hfit hback h (fun h => absurd h hne)

/-! ### A JSON library for which the hypotheses hold -/

/-- A document. -/
def sampleDoc : Json := .obj [(c!"items", .arr [.bool true, .obj [(c!"x", .num (.int 7))]])]

/-- External functions whose JSON library knows two documents. -/
def sampleExt : Ext where
  fmt := fun _ => []
  fmtFix := fun _ _ => []
  dbgNum := fun _ => []
  plainUni := fun _ => false
  powf := fun a _ => a
  pow10 := fun _ => .fin 1
  powi := fun a _ => a
  sqrt := id
  sin := id
  cos := id
  tan := id
  upperUni := id
  lowerUni := id
  isAlnumUni := fun _ => false
  isAlphaUni := fun _ => false
  jsonParse := fun s => if s = c!"A" then .ok sampleDoc else if s = c!"B" then .ok (.obj [(c!"x", .num (.int 7))]) else .error c!"?"
  jsonPrint := fun j => match j with
    | .obj [(['x'], _)] => c!"B"
    | _ => c!"A"
  jsonPath := fun j _ => .ok [j]
  sortUnspecified := fun xs => .ok xs
  now := 0
  today := 0
  secsOfDay := 0

/-- The path `["items", 1, "x"]` leads to 7. -/
theorem sample_at : At sampleDoc ([Step.key c!"items", .at 1, .key c!"x"].map Step.seg) (.num (.int 7)) := by
  refine .member rfl (.element (i := 1) ?_ ?_ ?_ rfl (.member rfl (.here _)))
  · exact (ofNat_toRat 1 (by norm_num)).1
  · rw [(ofNat_toRat 1 (by norm_num)).2]
  · rw [(ofNat_toRat 1 (by norm_num)).2]; norm_num

example : ReadsBack sampleExt sampleDoc ∧ ReadsBack sampleExt (.obj [(c!"x", .num (.int 7))]) := ⟨rfl, rfl⟩
example : evalVars sampleExt (.index (.prop (.var c!"v") c!"items") (.number (F64.ofNat 0))) (Env.empty.insert c!"v" (.json c!"A")) = .ok (.bool true) := by kernel_rfl
example : evalVars sampleExt (.prop (.index (.prop (.var c!"v") c!"items") (.number (F64.ofNat 1))) c!"x") (Env.empty.insert c!"v" (.json c!"A")) =
    fn sampleExt c!"DIG" [.json c!"A", .arr [.str c!"items", .num (F64.ofNat 1), .str c!"x"]] := by kernel_rfl
