import Verif.Spec.Types
import Verif.Props.Strings
import Verif.Props.Panics
import Verif.Props.Calendar
/-! Functions and methods on values of the right types (C111). -/

namespace Types

/-- An outcome: a result that fulfils `P`, or, when operations that may fail are used, a failure that types cannot exclude. -/
def Fine {α : Type} (total : Bool) (P : α → Prop) (r : Res α) : Prop := (∃ a, r = .ok a ∧ P a) ∨ (total = false ∧ ∃ f, r = .error f ∧ DataFailure f)

theorem Fine.ok {α : Type} {t : Bool} {P : α → Prop} {a : α} (h : P a) : Fine t P (.ok a) := .inl ⟨a, rfl, h⟩

theorem Fine.bind {α β : Type} {t : Bool} {P : α → Prop} {Q : β → Prop} {r : Res α} {k : α → Res β} (h : Fine t P r) (hk : ∀ a, P a → Fine t Q (k a)) : Fine t Q (r >>= k) := by
  rcases h with ⟨a, rfl, ha⟩ | ⟨ht, f, rfl, hf⟩
  · exact hk a ha
  · exact .inr ⟨ht, f, rfl, hf⟩

theorem Fine.mono {α : Type} {t : Bool} {P Q : α → Prop} {r : Res α} (h : Fine t P r) (hpq : ∀ a, P a → Q a) : Fine t Q r := by
  rcases h with ⟨a, rfl, ha⟩ | h
  · exact .inl ⟨a, rfl, hpq a ha⟩
  · exact .inr h

/-! ### Values of a type -/

theorem isOf_num {v : Value} (h : IsOf .num v) : ∃ n, v = .num n := by cases v <;> first | exact ⟨_, rfl⟩ | exact h.elim
theorem isOf_bool {v : Value} (h : IsOf .bool v) : ∃ b, v = .bool b := by cases v <;> first | exact ⟨_, rfl⟩ | exact h.elim
theorem isOf_text {v : Value} (h : IsOf .text v) : ∃ s, v = .str s := by cases v <;> first | exact ⟨_, rfl⟩ | exact h.elim
theorem isOf_money {v : Value} (h : IsOf .money v) : ∃ n, v = .cur n := by cases v <;> first | exact ⟨_, rfl⟩ | exact h.elim
theorem isOf_date {v : Value} (h : IsOf .date v) : ∃ t, v = .dt t ∧ firstSecond ≤ t ∧ t ≤ lastSecond := by cases v <;> first | exact ⟨_, rfl, h⟩ | exact h.elim
theorem isOf_arr {v : Value} {τ : Ty} (h : IsOf (.arr τ) v) : ∃ vs, v = .arr vs ∧ ∀ w ∈ vs, IsOf τ w := by cases v <;> first | exact ⟨_, rfl, h⟩ | exact h.elim

/-- Values of these types. -/
def AreOf : List Ty → List Value → Prop
  | [], [] => True
  | τ :: ts, v :: vs => IsOf τ v ∧ AreOf ts vs
  | _, _ => False

theorem areOf_nil {vs : List Value} (h : AreOf [] vs) : vs = [] := by cases vs with | nil => rfl | cons _ _ => exact h.elim
theorem areOf_cons {τ : Ty} {ts : List Ty} {vs : List Value} (h : AreOf (τ :: ts) vs) : ∃ v ws, vs = v :: ws ∧ IsOf τ v ∧ AreOf ts ws := by
  cases vs with
  | nil => exact h.elim
  | cons v ws => exact ⟨v, ws, rfl, h.1, h.2⟩
theorem areOf_1 {a : Ty} {vs : List Value} (h : AreOf [a] vs) : ∃ x, vs = [x] ∧ IsOf a x := by
  obtain ⟨x, ws, rfl, hx, h⟩ := areOf_cons h
  rw [areOf_nil h]; exact ⟨x, rfl, hx⟩
theorem areOf_2 {a b : Ty} {vs : List Value} (h : AreOf [a, b] vs) : ∃ x y, vs = [x, y] ∧ IsOf a x ∧ IsOf b y := by
  obtain ⟨x, ws, rfl, hx, h⟩ := areOf_cons h
  obtain ⟨y, rfl, hy⟩ := areOf_1 h
  exact ⟨x, y, rfl, hx, hy⟩
theorem areOf_3 {a b c : Ty} {vs : List Value} (h : AreOf [a, b, c] vs) : ∃ x y z, vs = [x, y, z] ∧ IsOf a x ∧ IsOf b y ∧ IsOf c z := by
  obtain ⟨x, ws, rfl, hx, h⟩ := areOf_cons h
  obtain ⟨y, z, rfl, hy, hz⟩ := areOf_2 h
  exact ⟨x, y, z, rfl, hx, hy, hz⟩

theorem areOf_all {ts : List Ty} {vs : List Value} {τ : Ty} (h : AreOf ts vs) (ht : ∀ t ∈ ts, t = τ) : ∀ v ∈ vs, IsOf τ v := by
  induction ts generalizing vs with
  | nil => rw [areOf_nil h]; simp
  | cons t ts ih =>
    obtain ⟨v, ws, rfl, hv, h⟩ := areOf_cons h
    rw [List.forall_mem_cons] at ht ⊢
    exact ⟨ht.1 ▸ hv, ih h ht.2⟩

theorem flatten_leaf : ∀ (τ : Ty) (v : Value), IsOf τ v → ∀ w ∈ Arr.flatten v, IsOf τ.leaf w
  | .num, v, h => by obtain ⟨n, rfl⟩ := isOf_num h; simp [Arr.flatten, Ty.leaf, IsOf]
  | .bool, v, h => by obtain ⟨n, rfl⟩ := isOf_bool h; simp [Arr.flatten, Ty.leaf, IsOf]
  | .text, v, h => by obtain ⟨n, rfl⟩ := isOf_text h; simp [Arr.flatten, Ty.leaf, IsOf]
  | .money, v, h => by obtain ⟨n, rfl⟩ := isOf_money h; simp [Arr.flatten, Ty.leaf, IsOf]
  | .date, v, h => by obtain ⟨t, rfl, h⟩ := isOf_date h; simpa [Arr.flatten, Ty.leaf, IsOf] using h
  | .arr τ, v, h => by
    obtain ⟨vs, rfl, hv⟩ := isOf_arr h
    have ih := flatten_leaf τ
    simp only [Arr.flatten, Ty.leaf]
    clear h
    induction vs with
    | nil => simp [Arr.flattens]
    | cons x xs ihx =>
      rw [List.forall_mem_cons] at hv
      simp only [Arr.flattens, List.mem_append]
      rintro w (hw | hw)
      · exact ih x hv.1 w hw
      · exact ihx hv.2 w hw

theorem flattens_leaf {ts : List Ty} {vs : List Value} {τ : Ty} (h : AreOf ts vs) (ht : ∀ t ∈ ts, t.leaf = τ) : ∀ w ∈ Arr.flattens vs, IsOf τ w := by
  induction ts generalizing vs with
  | nil => rw [areOf_nil h]; simp [Arr.flattens]
  | cons t ts ih =>
    obtain ⟨v, ws, rfl, hv, h⟩ := areOf_cons h
    rw [List.forall_mem_cons] at ht
    simp only [Arr.flattens, List.mem_append]
    rintro w (hw | hw)
    · exact ht.1 ▸ flatten_leaf t v hv w hw
    · exact ih h ht.2 w hw

/-! ### Functions -/

/-- Both dispatchers compute this value. -/
def Runs (X : Ext) (n : Str) (vs : List Value) (w : Value) : Prop := execFast X n vs = .ok w ∧ execBuiltin X n vs = .ok w

theorem orElse_ok {r n : Res Value} {w : Value} (h : r = .ok w) : orElse r n = .ok w := by rw [h]; rfl
theorem orElse_err {r n : Res Value} {m : String} {l : List Str} {p : Option Int} {w : Value} (h : r = .error (.err m l p)) (hn : n = .ok w) : orElse r n = .ok w := by
  rw [h]; exact hn

theorem runs_arith (X : Ext) (n : Str) (f : Builtin) {vs : List Value} {w : Value} (h : lookupFn n (Arith.table X) = some f) (h1 : n ∉ Dispatch.arrayNames) (h2 : n ∈ Dispatch.arithmeticNames)
    (hf : f vs = .ok w) : Runs X n vs w := by
  have he : execArithmetic X n vs = .ok w := by unfold execArithmetic; rw [h]; exact hf
  refine ⟨?_, orElse_ok he⟩
  unfold execFast
  rw [if_neg h1, if_pos h2, he]

theorem runs_logic (X : Ext) (n : Str) (f : Builtin) {vs : List Value} {w : Value} (h0 : lookupFn n (Arith.table X) = none) (h : lookupFn n Logic.table = some f)
    (h1 : n ∉ Dispatch.arrayNames) (h2 : n ∉ Dispatch.arithmeticNames) (h3 : n ∈ Dispatch.logicalNames) (hf : f vs = .ok w) : Runs X n vs w := by
  have he : execLogical n vs = .ok w := by unfold execLogical; rw [h]; exact hf
  refine ⟨?_, orElse_err (by unfold execArithmetic; rw [h0]; rfl) (orElse_ok he)⟩
  unfold execFast
  rw [if_neg h1, if_neg h2, if_pos h3, he]

theorem runs_string (X : Ext) (n : Str) (f : Builtin) {vs : List Value} {w : Value} (h0 : lookupFn n (Arith.table X) = none) (h0' : lookupFn n Logic.table = none)
    (h : lookupFn n (StrFn.table X) = some f) (h1 : n ∉ Dispatch.arrayNames) (h2 : n ∉ Dispatch.arithmeticNames) (h3 : n ∉ Dispatch.logicalNames) (h4 : n ∈ Dispatch.stringNames)
    (hf : f vs = .ok w) : Runs X n vs w := by
  have he : execString X n vs = .ok w := by unfold execString; rw [h]; exact hf
  refine ⟨?_, orElse_err (by unfold execArithmetic; rw [h0]; rfl) (orElse_err (by unfold execLogical; rw [h0']; rfl) (orElse_ok he))⟩
  unfold execFast
  rw [if_neg h1, if_neg h2, if_neg h3, if_pos h4, he]

theorem runs_array (X : Ext) (n : Str) (f : Builtin) {vs : List Value} {w : Value} (h0 : lookupFn n (Arith.table X) = none) (h0' : lookupFn n Logic.table = none)
    (h0s : ∃ m l p, execString X n vs = .error (.err m l p)) (h : lookupFn n (Arr.table X) = some f) (h1 : n ∈ Dispatch.arrayNames) (hf : f vs = .ok w) : Runs X n vs w := by
  have he : execArray X n vs = .ok w := by unfold execArray; rw [h]; exact hf
  obtain ⟨m, l, p, hs⟩ := h0s
  refine ⟨?_, orElse_err (by unfold execArithmetic; rw [h0]; rfl) (orElse_err (by unfold execLogical; rw [h0']; rfl) (orElse_err hs (orElse_ok he)))⟩
  unfold execFast
  rw [if_pos h1, he]

theorem runs_statistical (X : Ext) (n : Str) (f : Builtin) {vs : List Value} {w : Value} (ha : lookupFn n (Arith.table X) = none) (hl : lookupFn n Logic.table = none)
    (hs : lookupFn n (StrFn.table X) = none) (hr : lookupFn n (Arr.table X) = none) (hd : isDatetimeFunction n = false) (hi : lookupFn n (Fin'.table X) = none)
    (h : lookupFn n (Stat.table X) = some f) (h1 : n ∉ Dispatch.arrayNames) (h2 : n ∉ Dispatch.arithmeticNames) (h3 : n ∉ Dispatch.logicalNames) (h4 : n ∉ Dispatch.stringNames)
    (h5 : n ∉ Dispatch.datetimeNames) (h6 : n ∉ Dispatch.financialNames) (h7 : n ∈ Dispatch.statisticalNames) (hf : f vs = .ok w) : Runs X n vs w := by
  have he : execStatistical X n vs = .ok w := by unfold execStatistical; rw [h]; exact hf
  constructor
  · unfold execFast
    rw [if_neg h1, if_neg h2, if_neg h3, if_neg h4, if_neg h5, if_neg h6, if_pos h7, he]
  · refine orElse_err (by unfold execArithmetic; rw [ha]; rfl) (orElse_err (by unfold execLogical; rw [hl]; rfl) (orElse_err (by unfold execString; rw [hs]; rfl)
      (orElse_err (by unfold execArray; rw [hr]; rfl) ?_)))
    rw [hd]
    exact orElse_err (by unfold execFinancial; rw [hi]; rfl) (orElse_ok he)

theorem runs_datetime (X : Ext) (n : Str) (f : Builtin) {vs : List Value} {w : Value} (ha : lookupFn n (Arith.table X) = none) (hl : lookupFn n Logic.table = none)
    (hs : lookupFn n (StrFn.table X) = none) (hr : lookupFn n (Arr.table X) = none) (hd : isDatetimeFunction n = true)
    (h : lookupFn n (DT.table X) = some f) (h1 : n ∉ Dispatch.arrayNames) (h2 : n ∉ Dispatch.arithmeticNames) (h3 : n ∉ Dispatch.logicalNames) (h4 : n ∉ Dispatch.stringNames)
    (h5 : n ∈ Dispatch.datetimeNames) (hf : f vs = .ok w) : Runs X n vs w := by
  have he : execDatetime X n vs = .ok w := by unfold execDatetime; rw [h]; exact hf
  constructor
  · unfold execFast
    rw [if_neg h1, if_neg h2, if_neg h3, if_neg h4, if_pos h5, he]
  · refine orElse_err (by unfold execArithmetic; rw [ha]; rfl) (orElse_err (by unfold execLogical; rw [hl]; rfl) (orElse_err (by unfold execString; rw [hs]; rfl)
      (orElse_err (by unfold execArray; rw [hr]; rfl) ?_)))
    rw [hd]
    exact he

theorem varP_ok (vs : List Value) : ∃ x, Stat.varP vs = .ok (.num x) := by
  unfold Stat.varP
  simp only
  split <;> exact ⟨_, rfl⟩

theorem stdevP_ok (X : Ext) (vs : List Value) : ∃ x, Stat.stdevP X vs = .ok (.num x) := by
  unfold Stat.stdevP
  simp only
  split <;> exact ⟨_, rfl⟩

theorem mode_ok (vs : List Value) : ∃ x, Stat.mode vs = .ok (.num x) := by
  have h := Quiet.mode (P := fun _ => False) vs
  revert h
  unfold Stat.mode
  simp only
  split
  · exact fun _ => ⟨_, rfl⟩
  · split
    · exact fun _ => ⟨_, rfl⟩
    · exact fun h => (h _ rfl).elim

/-- The datetimes of the calendar. -/
theorem inRange_iff (t : ℤ) : Spec.InRange t ↔ firstSecond ≤ t ∧ t ≤ lastSecond := by
  have h1 : Cal.minDay = -96465292 := by decide +kernel
  have h2 : Cal.maxDay = 95026236 := by decide +kernel
  unfold Spec.InRange firstSecond lastSecond
  rw [h1, h2]
  omega

theorem field_ok (err : String) (f : ℤ × ℕ × ℕ → ℤ) {t : ℤ} (h : firstSecond ≤ t ∧ t ≤ lastSecond) : ∃ x, DT.field err f [.dt t] = .ok (.num x) := by
  rw [← inRange_iff, fromTimestamp_iff] at h
  simp only [DT.field, argAt, List.getElem?_cons_zero, h]
  exact ⟨_, rfl⟩

/-- Close a lookup in a table of functions. -/
macro "look" : tactic => `(tactic| first | rfl | decide)

theorem slice_ok (s : Str) (i j : Nat) (h : i ≤ j) : StrFn.slice s (StrFn.charByteOffset s i) (StrFn.charByteOffset s j) = .ok (.str ((s.take j).drop i)) := by
  unfold StrFn.slice StrFn.charByteOffset
  rw [slice_chars s i j h]

theorem left_ok (s : Str) (k : Nat) : StrFn.slice s 0 (StrFn.charByteOffset s k) = .ok (.str (s.take k)) := by
  unfold StrFn.slice StrFn.charByteOffset
  rw [slice_from_start]

theorem right_ok (s : Str) (k : Nat) (h : k ≤ s.length) : StrFn.slice s (StrFn.charByteOffset s k) (Str.byteLen s) = .ok (.str (s.drop k)) := by
  unfold StrFn.slice StrFn.charByteOffset
  rw [slice_to_end s k h]

theorem mid_ok (s : Str) (n : F64) (m : Option F64) : ∃ t, StrFn.midCore s n m = .ok (.str t) := by
  unfold StrFn.midCore
  simp only
  generalize (if n.isFinite = true then _ else 0 : Nat) = i
  split_ifs with h
  · exact ⟨_, rfl⟩
  · exact ⟨_, slice_ok s i _ (by omega)⟩

theorem substring_ok (s : Str) (k : Nat) (v : Option Value) : ∃ t, StrFn.substringCore s k v = .ok (.str t) := by
  unfold StrFn.substringCore
  simp only
  split_ifs with h
  · exact ⟨_, rfl⟩
  · exact ⟨_, slice_ok s _ _ (by omega)⟩

theorem replace_ok (s : Str) (n m : F64) (t : Str) : ∃ u, StrFn.replaceCore s n m t = .ok (.str u) := by
  unfold StrFn.replaceCore
  simp only [StrFn.charByteOffset, slice_from_start]
  rw [slice_to_end s _ (by simp [StrFn.charCount])]
  exact ⟨_, rfl⟩

theorem joinParts_ok (X : Ext) {τ : Ty} (hτ : τ ∈ [Ty.num, .bool, .text]) : ∀ {vs : List Value}, (∀ v ∈ vs, IsOf τ v) → ∃ ps, Arr.joinParts X vs = .ok ps := by
  intro vs
  induction vs with
  | nil => intro _; exact ⟨_, rfl⟩
  | cons v vs ih =>
    intro h
    rw [List.forall_mem_cons] at h
    obtain ⟨ps, hp⟩ := ih h.2
    have : ∃ p, Arr.joinPart X v = .ok p := by
      simp only [List.mem_cons, List.not_mem_nil, or_false] at hτ
      rcases hτ with rfl | rfl | rfl
      · obtain ⟨n, rfl⟩ := isOf_num h.1; exact ⟨_, rfl⟩
      · obtain ⟨n, rfl⟩ := isOf_bool h.1; exact ⟨_, rfl⟩
      · obtain ⟨n, rfl⟩ := isOf_text h.1; exact ⟨_, rfl⟩
    obtain ⟨p, hv⟩ := this
    exact ⟨p :: ps, by rw [Arr.joinParts, hv, hp]; rfl⟩

theorem uniqueLoop_num (seen : List F64) (vs : List Value) : ∀ v ∈ Arr.uniqueLoop seen vs, IsOf .num v := by
  induction vs generalizing seen with
  | nil => simp [Arr.uniqueLoop]
  | cons v vs ih =>
    cases v <;> simp only [Arr.uniqueLoop] <;> try exact ih _
    split
    · exact ih _
    · rw [List.forall_mem_cons]; exact ⟨trivial, ih _⟩

theorem sig_runs (X : Ext) {n : Str} {ts : List Ty} {τ : Ty} {vs : List Value} (h : Sig n ts τ) (hv : AreOf ts vs) : ∃ w, IsOf τ w ∧ Runs X n vs w := by
  cases h with
  | number1 hn =>
    obtain ⟨x, rfl, hx⟩ := areOf_1 hv
    obtain ⟨x, rfl⟩ := isOf_num hx
    simp only [List.mem_cons, List.not_mem_nil, or_false] at hn
    rcases hn with rfl | rfl | rfl | rfl | rfl | rfl | rfl <;>
      (refine ⟨_, ?_, runs_arith X _ _ (by look) (by decide) (by decide) (by rfl)⟩; exact trivial)
  | number2 hn =>
    obtain ⟨x, y, rfl, hx, hy⟩ := areOf_2 hv
    obtain ⟨x, rfl⟩ := isOf_num hx
    obtain ⟨y, rfl⟩ := isOf_num hy
    simp only [List.mem_cons, List.not_mem_nil, or_false] at hn
    rcases hn with rfl | rfl | rfl | rfl | rfl <;>
      (refine ⟨_, ?_, runs_arith X _ _ (by look) (by decide) (by decide) (by rfl)⟩; exact trivial)
  | not =>
    obtain ⟨x, rfl, hx⟩ := areOf_1 hv
    (refine ⟨_, ?_, runs_logic X _ _ (by look) (by look) (by decide) (by decide) (by decide) (by rfl)⟩; exact trivial)
  | xor =>
    obtain ⟨x, y, rfl, hx, hy⟩ := areOf_2 hv
    (refine ⟨_, ?_, runs_logic X _ _ (by look) (by look) (by decide) (by decide) (by decide) (by rfl)⟩; exact trivial)
  | cond =>
    obtain ⟨x, y, z, rfl, hx, hy, hz⟩ := areOf_3 hv
    refine ⟨if Logic.truthy x then y else z, ?_, runs_logic X _ Logic.ifFn (by look) (by look) (by decide) (by decide) (by decide) rfl⟩
    split
    · exact hy
    · exact hz
  | text1 hn =>
    obtain ⟨x, rfl, hx⟩ := areOf_1 hv
    obtain ⟨s, rfl⟩ := isOf_text hx
    simp only [List.mem_cons, List.not_mem_nil, or_false] at hn
    rcases hn with rfl | rfl | rfl | rfl | rfl
    · (refine ⟨_, ?_, runs_string X _ _ (by look) (by look) (by look) (by decide) (by decide) (by decide) (by decide) (by rfl)⟩; exact trivial)
    · (refine ⟨_, ?_, runs_string X _ _ (by look) (by look) (by look) (by decide) (by decide) (by decide) (by decide) (by rfl)⟩; exact trivial)
    · (refine ⟨_, ?_, runs_string X _ _ (by look) (by look) (by look) (by decide) (by decide) (by decide) (by decide) (by rfl)⟩; exact trivial)
    · exact ⟨.str _, trivial, runs_string X _ StrFn.left (by look) (by look) (by look) (by decide) (by decide) (by decide) (by decide) (left_ok s _)⟩
    · exact ⟨.str _, trivial, runs_string X _ StrFn.right (by look) (by look) (by look) (by decide) (by decide) (by decide) (by decide) (right_ok s _ (Nat.sub_le _ _))⟩
  | textNum hn =>
    obtain ⟨x, y, rfl, hx, hy⟩ := areOf_2 hv
    obtain ⟨s, rfl⟩ := isOf_text hx
    obtain ⟨k, rfl⟩ := isOf_num hy
    simp only [List.mem_cons, List.not_mem_nil, or_false] at hn
    rcases hn with rfl | rfl | rfl | rfl
    · exact ⟨.str _, trivial, runs_string X _ StrFn.left (by look) (by look) (by look) (by decide) (by decide) (by decide) (by decide) (left_ok s _)⟩
    · exact ⟨.str _, trivial, runs_string X _ StrFn.right (by look) (by look) (by look) (by decide) (by decide) (by decide) (by decide) (right_ok s _ (Nat.sub_le _ _))⟩
    · obtain ⟨t, ht⟩ := mid_ok s k none
      exact ⟨.str t, trivial, runs_string X _ StrFn.mid (by look) (by look) (by look) (by decide) (by decide) (by decide) (by decide) ht⟩
    · obtain ⟨t, ht⟩ := substring_ok s k.toUsize none
      exact ⟨.str t, trivial, runs_string X _ StrFn.substring (by look) (by look) (by look) (by decide) (by decide) (by decide) (by decide) ht⟩
  | textNum2 hn =>
    obtain ⟨x, y, z, rfl, hx, hy, hz⟩ := areOf_3 hv
    obtain ⟨s, rfl⟩ := isOf_text hx
    obtain ⟨k, rfl⟩ := isOf_num hy
    obtain ⟨l, rfl⟩ := isOf_num hz
    simp only [List.mem_cons, List.not_mem_nil, or_false] at hn
    rcases hn with rfl | rfl
    · obtain ⟨t, ht⟩ := mid_ok s k (some l)
      exact ⟨.str t, trivial, runs_string X _ StrFn.mid (by look) (by look) (by look) (by decide) (by decide) (by decide) (by decide) ht⟩
    · obtain ⟨t, ht⟩ := substring_ok s k.toUsize (some (.num l))
      exact ⟨.str t, trivial, runs_string X _ StrFn.substring (by look) (by look) (by look) (by decide) (by decide) (by decide) (by decide) ht⟩
  | replace =>
    obtain ⟨x, ws, rfl, hx, hv⟩ := areOf_cons hv
    obtain ⟨y, z, u, rfl, hy, hz, hu⟩ := areOf_3 hv
    obtain ⟨s, rfl⟩ := isOf_text hx
    obtain ⟨k, rfl⟩ := isOf_num hy
    obtain ⟨l, rfl⟩ := isOf_num hz
    obtain ⟨t, rfl⟩ := isOf_text hu
    obtain ⟨r, hr⟩ := replace_ok s k l t
    exact ⟨.str r, trivial, runs_string X _ StrFn.replace (by look) (by look) (by look) (by decide) (by decide) (by decide) (by decide) hr⟩
  | substitute hn =>
    obtain ⟨x, y, z, rfl, hx, hy, hz⟩ := areOf_3 hv
    obtain ⟨x, rfl⟩ := isOf_text hx
    obtain ⟨y, rfl⟩ := isOf_text hy
    obtain ⟨z, rfl⟩ := isOf_text hz
    simp only [List.mem_cons, List.not_mem_nil, or_false] at hn
    rcases hn with rfl | rfl <;>
      (refine ⟨_, ?_, runs_string X _ _ (by look) (by look) (by look) (by decide) (by decide) (by decide) (by decide) (by rfl)⟩; exact trivial)
  | includes =>
    obtain ⟨x, y, rfl, hx, hy⟩ := areOf_2 hv
    obtain ⟨x, rfl⟩ := isOf_text hx
    obtain ⟨y, rfl⟩ := isOf_text hy
    (refine ⟨_, ?_, runs_string X _ _ (by look) (by look) (by look) (by decide) (by decide) (by decide) (by decide) (by rfl)⟩; exact trivial)
  | split1 =>
    obtain ⟨x, rfl, hx⟩ := areOf_1 hv
    obtain ⟨s, rfl⟩ := isOf_text hx
    refine ⟨.arr ((Str.split s c!",").map fun p => .str (Str.trim Str.isWs p)), ?_,
      runs_string X _ StrFn.split (by look) (by look) (by look) (by decide) (by decide) (by decide) (by decide) rfl⟩
    intro v hv
    obtain ⟨p, _, rfl⟩ := List.mem_map.1 hv
    trivial
  | split2 =>
    obtain ⟨x, y, rfl, hx, hy⟩ := areOf_2 hv
    obtain ⟨s, rfl⟩ := isOf_text hx
    obtain ⟨p, rfl⟩ := isOf_text hy
    refine ⟨.arr ((Str.split s p).map .str), ?_, runs_string X _ StrFn.split (by look) (by look) (by look) (by decide) (by decide) (by decide) (by decide) rfl⟩
    intro v hv
    obtain ⟨p, _, rfl⟩ := List.mem_map.1 hv
    trivial
  | lengthText =>
    obtain ⟨x, rfl, hx⟩ := areOf_1 hv
    obtain ⟨s, rfl⟩ := isOf_text hx
    (refine ⟨_, ?_, runs_string X _ _ (by look) (by look) (by look) (by decide) (by decide) (by decide) (by decide) (by rfl)⟩; exact trivial)
  | lengthArr hn =>
    obtain ⟨x, rfl, hx⟩ := areOf_1 hv
    obtain ⟨vs, rfl, _⟩ := isOf_arr hx
    simp only [List.mem_cons, List.not_mem_nil, or_false] at hn
    rcases hn with rfl | rfl
    · (refine ⟨_, ?_, runs_string X _ _ (by look) (by look) (by look) (by decide) (by decide) (by decide) (by decide) (by rfl)⟩; exact trivial)
    · (refine ⟨_, ?_, runs_array X _ _ (by look) (by look) ⟨_, _, _, rfl⟩ (by look) (by decide) (by rfl)⟩; exact trivial)
  | test hn =>
    obtain ⟨x, rfl, hx⟩ := areOf_1 hv
    simp only [List.mem_cons, List.not_mem_nil, or_false] at hn
    rcases hn with rfl | rfl | rfl
    · (refine ⟨_, ?_, runs_string X _ _ (by look) (by look) (by look) (by decide) (by decide) (by decide) (by decide) (by rfl)⟩; exact trivial)
    · cases x <;> (refine ⟨_, ?_, runs_string X _ _ (by look) (by look) (by look) (by decide) (by decide) (by decide) (by decide) (by rfl)⟩; exact trivial)
    · cases x <;> (refine ⟨_, ?_, runs_string X _ _ (by look) (by look) (by look) (by decide) (by decide) (by decide) (by decide) (by rfl)⟩; exact trivial)
  | array ht =>
    exact ⟨.arr vs, areOf_all hv ht, runs_array X _ _ (by look) (by look) ⟨_, _, _, rfl⟩ (by look) (by decide) rfl⟩
  | flatten ht =>
    exact ⟨.arr (Arr.flattens vs), flattens_leaf hv ht, runs_array X _ _ (by look) (by look) ⟨_, _, _, rfl⟩ (by look) (by decide) rfl⟩
  | contains hn =>
    obtain ⟨x, y, rfl, hx, hy⟩ := areOf_2 hv
    obtain ⟨vs, rfl, _⟩ := isOf_arr hx
    simp only [List.mem_cons, List.not_mem_nil, or_false] at hn
    rcases hn with rfl | rfl <;>
      (refine ⟨_, ?_, runs_array X _ _ (by look) (by look) ⟨_, _, _, rfl⟩ (by look) (by decide) (by rfl)⟩; exact trivial)
  | unique =>
    obtain ⟨x, rfl, hx⟩ := areOf_1 hv
    obtain ⟨vs, rfl, _⟩ := isOf_arr hx
    exact ⟨.arr (Arr.uniqueLoop [] vs), uniqueLoop_num [] vs, runs_array X _ _ (by look) (by look) ⟨_, _, _, rfl⟩ (by look) (by decide) rfl⟩
  | reverse =>
    obtain ⟨x, rfl, hx⟩ := areOf_1 hv
    obtain ⟨vs, rfl, h⟩ := isOf_arr hx
    exact ⟨.arr vs.reverse, fun v hv => h v (by simpa using hv), runs_array X _ _ (by look) (by look) ⟨_, _, _, rfl⟩ (by look) (by decide) rfl⟩
  | dateField hn =>
    obtain ⟨x, rfl, hx⟩ := areOf_1 hv
    obtain ⟨t, rfl, ht⟩ := isOf_date hx
    simp only [List.mem_cons, List.not_mem_nil, or_false] at hn
    have run : ∀ (n : Str) (err : String) (f : ℤ × ℕ × ℕ → ℤ), lookupFn n (DT.table X) = some (DT.field err f) → n ∈ [c!"YEAR", c!"MONTH", c!"DAY"] →
        ∃ w, IsOf .num w ∧ Runs X n [.dt t] w := by
      intro n err f hl hn
      obtain ⟨y, hy⟩ := field_ok err f ht
      simp only [List.mem_cons, List.not_mem_nil, or_false] at hn
      rcases hn with rfl | rfl | rfl <;>
        exact ⟨.num y, trivial, runs_datetime X _ _ (by look) (by look) (by look) (by look) (by look) hl (by decide) (by decide) (by decide) (by decide) (by decide) hy⟩
    rcases hn with rfl | rfl | rfl
    · exact run _ _ _ (by rfl) (by decide)
    · exact run _ _ _ (by rfl) (by decide)
    · exact run _ _ _ (by rfl) (by decide)
  | join1 ht =>
    obtain ⟨x, rfl, hx⟩ := areOf_1 hv
    obtain ⟨vs, rfl, h⟩ := isOf_arr hx
    obtain ⟨ps, hp⟩ := joinParts_ok X ht h
    refine ⟨.str (Str.join c!"," ps), trivial, runs_array X _ (Arr.join X) (by look) (by look) ⟨_, _, _, rfl⟩ (by look) (by decide) ?_⟩
    simp only [Arr.join, argAt, List.getElem?_cons_zero, hp]
    rfl
  | join2 ht =>
    obtain ⟨x, y, rfl, hx, hy⟩ := areOf_2 hv
    obtain ⟨vs, rfl, h⟩ := isOf_arr hx
    obtain ⟨s, rfl⟩ := isOf_text hy
    obtain ⟨ps, hp⟩ := joinParts_ok X ht h
    refine ⟨.str (Str.join s ps), trivial, runs_array X _ (Arr.join X) (by look) (by look) ⟨_, _, _, rfl⟩ (by look) (by decide) ?_⟩
    simp only [Arr.join, argAt, List.getElem?_cons_zero, hp]
    rfl

theorem many_runs (X : Ext) {n : Str} {τ : Ty} (h : (n, τ) ∈ many) (vs : List Value) : ∃ w, IsOf τ w ∧ Runs X n vs w := by
  simp only [many, List.mem_cons, List.not_mem_nil, or_false, Prod.mk.injEq] at h
  rcases h with h | h | h | h | h | h | h | h | h | h | h | h | h | h | h | h <;> obtain ⟨rfl, rfl⟩ := h
  · (refine ⟨_, ?_, runs_arith X _ _ (by look) (by decide) (by decide) (by rfl)⟩; exact trivial)
  · exact ⟨.num _, trivial, runs_arith X _ Arith.avg (by look) (by decide) (by decide) rfl⟩
  · exact ⟨.num _, trivial, runs_arith X _ Arith.avg (by look) (by decide) (by decide) rfl⟩
  · (refine ⟨_, ?_, runs_arith X _ _ (by look) (by decide) (by decide) (by rfl)⟩; exact trivial)
  · (refine ⟨_, ?_, runs_arith X _ _ (by look) (by decide) (by decide) (by rfl)⟩; exact trivial)
  · (refine ⟨_, ?_, runs_arith X _ _ (by look) (by decide) (by decide) (by rfl)⟩; exact trivial)
  · (refine ⟨_, ?_, runs_arith X _ _ (by look) (by decide) (by decide) (by rfl)⟩; exact trivial)
  · (refine ⟨_, ?_, runs_logic X _ _ (by look) (by look) (by decide) (by decide) (by decide) (by rfl)⟩; exact trivial)
  · (refine ⟨_, ?_, runs_logic X _ _ (by look) (by look) (by decide) (by decide) (by decide) (by rfl)⟩; exact trivial)
  · (refine ⟨_, ?_, runs_string X _ _ (by look) (by look) (by look) (by decide) (by decide) (by decide) (by decide) (by rfl)⟩; exact trivial)
  · obtain ⟨x, hx⟩ := varP_ok vs
    exact ⟨.num x, trivial, runs_statistical X _ Stat.varP (by look) (by look) (by look) (by look) (by look) (by look) (by look) (by decide) (by decide) (by decide) (by decide) (by decide) (by decide) (by decide) hx⟩
  · obtain ⟨x, hx⟩ := varP_ok vs
    exact ⟨.num x, trivial, runs_statistical X _ Stat.varP (by look) (by look) (by look) (by look) (by look) (by look) (by look) (by decide) (by decide) (by decide) (by decide) (by decide) (by decide) (by decide) hx⟩
  · obtain ⟨x, hx⟩ := stdevP_ok X vs
    exact ⟨.num x, trivial, runs_statistical X _ (Stat.stdevP X) (by look) (by look) (by look) (by look) (by look) (by look) (by look) (by decide) (by decide) (by decide) (by decide) (by decide) (by decide) (by decide) hx⟩
  · obtain ⟨x, hx⟩ := stdevP_ok X vs
    exact ⟨.num x, trivial, runs_statistical X _ (Stat.stdevP X) (by look) (by look) (by look) (by look) (by look) (by look) (by look) (by decide) (by decide) (by decide) (by decide) (by decide) (by decide) (by decide) hx⟩
  · obtain ⟨x, hx⟩ := mode_ok vs
    exact ⟨.num x, trivial, runs_statistical X _ Stat.mode (by look) (by look) (by look) (by look) (by look) (by look) (by look) (by decide) (by decide) (by decide) (by decide) (by decide) (by decide) (by decide) hx⟩
  · obtain ⟨x, hx⟩ := mode_ok vs
    exact ⟨.num x, trivial, runs_statistical X _ Stat.mode (by look) (by look) (by look) (by look) (by look) (by look) (by look) (by decide) (by decide) (by decide) (by decide) (by decide) (by decide) (by decide) hx⟩

end Types
