import Verif.Lemmas.TypesRanged
import Verif.Lemmas.EvalBasic
/-! Operators, casts, methods and loops on values of the right types (C111). -/

namespace Types

/-! ### Operators and casts -/

theorem arith_fine (X : Ext) (t : Bool) {op : BinaryOp} (ho : op ∈ [BinaryOp.add, .sub, .mul, .div, .mod, .pow]) {x y : Value} (hx : IsOf .num x) (hy : IsOf .num y) :
    Fine t (IsOf .num) (Ops.binary X op x y) := by
  obtain ⟨x, rfl⟩ := isOf_num hx
  obtain ⟨y, rfl⟩ := isOf_num hy
  simp only [List.mem_cons, List.not_mem_nil, or_false] at ho
  rcases ho with rfl | rfl | rfl | rfl | rfl | rfl <;> exact .inl ⟨_, rfl, trivial⟩

theorem order_fine (X : Ext) (t : Bool) {op : BinaryOp} {τ : Ty} (ho : op ∈ [BinaryOp.lt, .le, .gt, .ge]) (hτ : τ ∈ [Ty.num, .bool, .text]) {x y : Value} (hx : IsOf τ x) (hy : IsOf τ y) :
    Fine t (IsOf .bool) (Ops.binary X op x y) := by
  simp only [List.mem_cons, List.not_mem_nil, or_false] at ho hτ
  rcases hτ with rfl | rfl | rfl
  · obtain ⟨x, rfl⟩ := isOf_num hx
    obtain ⟨y, rfl⟩ := isOf_num hy
    rcases ho with rfl | rfl | rfl | rfl <;> exact .inl ⟨_, rfl, trivial⟩
  · obtain ⟨x, rfl⟩ := isOf_bool hx
    obtain ⟨y, rfl⟩ := isOf_bool hy
    rcases ho with rfl | rfl | rfl | rfl <;> exact .inl ⟨_, rfl, trivial⟩
  · obtain ⟨x, rfl⟩ := isOf_text hx
    obtain ⟨y, rfl⟩ := isOf_text hy
    rcases ho with rfl | rfl | rfl | rfl <;> exact .inl ⟨_, rfl, trivial⟩

theorem equal_fine (X : Ext) (t : Bool) {op : BinaryOp} (ho : op ∈ [BinaryOp.eq, .ne]) (x y : Value) : Fine t (IsOf .bool) (Ops.binary X op x y) := by
  simp only [List.mem_cons, List.not_mem_nil, or_false] at ho
  rcases ho with rfl | rfl <;> cases x <;> cases y <;> exact .inl ⟨_, rfl, trivial⟩

theorem logic_fine (X : Ext) (t : Bool) {op : BinaryOp} (ho : op ∈ [BinaryOp.and, .or]) {x y : Value} (hx : IsOf .bool x) (hy : IsOf .bool y) : Fine t (IsOf .bool) (Ops.binary X op x y) := by
  obtain ⟨x, rfl⟩ := isOf_bool hx
  obtain ⟨y, rfl⟩ := isOf_bool hy
  simp only [List.mem_cons, List.not_mem_nil, or_false] at ho
  rcases ho with rfl | rfl <;> exact .inl ⟨_, rfl, trivial⟩

theorem sign_fine (t : Bool) {op : UnaryOp} (ho : op ∈ [UnaryOp.plus, .minus]) {x : Value} (hx : IsOf .num x) : Fine t (IsOf .num) (Ops.unary op x) := by
  obtain ⟨x, rfl⟩ := isOf_num hx
  simp only [List.mem_cons, List.not_mem_nil, or_false] at ho
  rcases ho with rfl | rfl <;> exact .inl ⟨_, rfl, trivial⟩

theorem not_fine (t : Bool) {x : Value} (hx : IsOf .bool x) : Fine t (IsOf .bool) (Ops.unary .not x) := by
  obtain ⟨x, rfl⟩ := isOf_bool hx
  exact .inl ⟨_, rfl, trivial⟩

theorem cast_fine (X : Ext) (t : Bool) {σ τ : Ty} {ty : CastTy} (h : CastSig σ ty τ) {x : Value} (hx : IsOf σ x) : Fine t (IsOf τ) (castValue X x ty) := by
  cases h with
  | string => exact .inl ⟨_, rfl, trivial⟩
  | boolean => exact .inl ⟨_, rfl, trivial⟩
  | integer hσ =>
    simp only [List.mem_cons, List.not_mem_nil, or_false] at hσ
    rcases hσ with rfl | rfl | rfl | rfl
    · obtain ⟨x, rfl⟩ := isOf_num hx; exact .inl ⟨_, rfl, trivial⟩
    · obtain ⟨x, rfl⟩ := isOf_bool hx; exact .inl ⟨_, rfl, trivial⟩
    · obtain ⟨x, rfl⟩ := isOf_text hx; exact .inl ⟨_, rfl, trivial⟩
    · obtain ⟨x, rfl⟩ := isOf_money hx; exact .inl ⟨_, rfl, trivial⟩
  | float hσ =>
    simp only [List.mem_cons, List.not_mem_nil, or_false] at hσ
    rcases hσ with rfl | rfl | rfl
    · obtain ⟨x, rfl⟩ := isOf_num hx; exact .inl ⟨_, rfl, trivial⟩
    · obtain ⟨x, rfl⟩ := isOf_bool hx; exact .inl ⟨_, rfl, trivial⟩
    · obtain ⟨x, rfl⟩ := isOf_money hx; exact .inl ⟨_, rfl, trivial⟩
  | currency hσ =>
    simp only [List.mem_cons, List.not_mem_nil, or_false] at hσ
    rcases hσ with rfl | rfl | rfl
    · obtain ⟨x, rfl⟩ := isOf_num hx; exact .inl ⟨_, rfl, trivial⟩
    · obtain ⟨x, rfl⟩ := isOf_bool hx; exact .inl ⟨_, rfl, trivial⟩
    · obtain ⟨x, rfl⟩ := isOf_money hx; exact .inl ⟨_, rfl, trivial⟩
  | dateTime => obtain ⟨t, rfl, h⟩ := isOf_date hx; exact .inl ⟨_, rfl, h⟩
  | array =>
    obtain ⟨vs, rfl, h⟩ := isOf_arr hx
    exact .inl ⟨_, rfl, h⟩
  | wrap hσ =>
    simp only [List.mem_cons, List.not_mem_nil, or_false] at hσ
    have hw : ∀ w ∈ [x], IsOf σ w := by simpa using hx
    rcases hσ with rfl | rfl | rfl | rfl | rfl
    · obtain ⟨x, rfl⟩ := isOf_num hx; exact .inl ⟨_, rfl, hw⟩
    · obtain ⟨x, rfl⟩ := isOf_bool hx; exact .inl ⟨_, rfl, hw⟩
    · obtain ⟨x, rfl⟩ := isOf_text hx; exact .inl ⟨_, rfl, hw⟩
    · obtain ⟨x, rfl⟩ := isOf_money hx; exact .inl ⟨_, rfl, hw⟩
    · obtain ⟨x, rfl, _⟩ := isOf_date hx; exact .inl ⟨_, rfl, hw⟩

theorem read_fine (X : Ext) {x : Value} (hx : IsOf .text x) : Fine false (IsOf .num) (castValue X x .float) := by
  obtain ⟨s, rfl⟩ := isOf_text hx
  simp only [castValue]
  split
  · exact .inl ⟨_, rfl, trivial⟩
  · exact .inr ⟨rfl, _, rfl, .noNumber⟩

theorem readMoney_fine (X : Ext) {x : Value} (hx : IsOf .text x) : Fine false (IsOf .money) (castValue X x .currency) := by
  obtain ⟨s, rfl⟩ := isOf_text hx
  simp only [castValue]
  split
  · exact .inl ⟨_, rfl, trivial⟩
  · exact .inr ⟨rfl, _, rfl, .noMoney⟩

theorem index_fine {τ : Ty} {x i : Value} (hx : IsOf (.arr τ) x) (hi : IsOf .num i) : Fine false (IsOf τ) (Legacy.index x i) := by
  obtain ⟨vs, rfl, h⟩ := isOf_arr hx
  obtain ⟨n, rfl⟩ := isOf_num hi
  simp only [Legacy.index, Value.asNumber, indexArray, clampIndex]
  have found : ∀ k, k < vs.length → Fine false (IsOf τ) (match vs[k]? with | some v => .ok v | none => panics "index out of bounds") := by
    intro k hk
    rw [List.getElem?_eq_getElem hk]
    exact .inl ⟨_, rfl, h _ (List.getElem_mem hk)⟩
  have none_ : Fine false (IsOf τ) (fail "Index out of bounds") := .inr ⟨rfl, _, rfl, .outOfRange⟩
  split_ifs with h1 h2 h3 h4
  · exact found _ h2
  · exact none_
  · exact .inr ⟨rfl, _, rfl, .extremeIndex⟩
  · exact found _ (by omega)
  · exact none_

theorem slice_fine (t : Bool) {τ : Ty} {vs : List Value} (h : ∀ v ∈ vs, IsOf τ v) {a b : Option Value} (ha : ∀ x ∈ a, IsOf .num x) (hb : ∀ x ∈ b, IsOf .num x) :
    Fine t (IsOf (.arr τ)) (sliceArray vs a b) := by
  have bound : ∀ (d : Int) (o : Option Value), (∀ x ∈ o, IsOf .num x) → ∃ k, sliceBound d o = .ok k := by
    intro d o ho
    cases o with
    | none => exact ⟨_, rfl⟩
    | some v => obtain ⟨n, rfl⟩ := isOf_num (ho v rfl); exact ⟨_, rfl⟩
  obtain ⟨k, hk⟩ := bound 0 a ha
  obtain ⟨l, hl⟩ := bound vs.length b hb
  simp only [sliceArray, hk, hl]
  refine Fine.ok (P := fun _ => True) (a := k) trivial |>.bind fun k _ => Fine.ok (P := fun _ => True) (a := l) trivial |>.bind fun l _ => ?_
  generalize (min (max (if k < 0 then (vs.length : Int) + k else k) 0) (vs.length : Int)).toNat = i
  generalize (min (max (if l < 0 then (vs.length : Int) + l else l) 0) (vs.length : Int)).toNat = j
  split_ifs
  · exact Fine.ok (by simp [IsOf])
  · exact Fine.ok fun v hv => h v (List.mem_of_mem_take (List.mem_of_mem_drop hv))

/-! ### Loops -/

variable {t : Bool} {σ τ : Ty}

theorem filterLoop_fine {lam : Env → Res Value} {p : Str} : ∀ {env : Env} {vs : List Value}, (∀ v, IsOf τ v → Fine t (IsOf .bool) (lam (env.insert p v))) → (∀ v ∈ vs, IsOf τ v) →
    Fine t (fun ws => ∀ w ∈ ws, IsOf τ w) (Loop.filter lam p env vs) := by
  intro env vs hl hv
  induction vs generalizing env with
  | nil => exact Fine.ok (by simp)
  | cons v vs ih =>
    rw [List.forall_mem_cons] at hv
    refine (hl v hv.1).bind fun b _ => (ih (env := env.insert p v) ?_ hv.2).bind fun ws hw => Fine.ok ?_
    · intro w hw; rw [Env.insert_same]; exact hl w hw
    · split
      · rw [List.forall_mem_cons]; exact ⟨hv.1, hw⟩
      · exact hw

theorem mapLoop_fine {lam : Env → Res Value} {p : Str} : ∀ {env : Env} {vs : List Value}, (∀ v, IsOf σ v → Fine t (IsOf τ) (lam (env.insert p v))) → (∀ v ∈ vs, IsOf σ v) →
    Fine t (fun ws => ∀ w ∈ ws, IsOf τ w) (Loop.map lam p env vs) := by
  intro env vs hl hv
  induction vs generalizing env with
  | nil => exact Fine.ok (by simp)
  | cons v vs ih =>
    rw [List.forall_mem_cons] at hv
    refine (hl v hv.1).bind fun b hb => (ih (env := env.insert p v) ?_ hv.2).bind fun ws hw => Fine.ok ?_
    · intro w hw; rw [Env.insert_same]; exact hl w hw
    · rw [List.forall_mem_cons]; exact ⟨hb, hw⟩

theorem reduceLoop_fine {lam : Env → Res Value} {p q : Str} : ∀ {env : Env} {acc : Value} {vs : List Value},
    (∀ v a, IsOf σ v → IsOf τ a → Fine t (IsOf τ) (lam ((env.insert p v).insert q a))) → IsOf τ acc → (∀ v ∈ vs, IsOf σ v) → Fine t (IsOf τ) (Loop.reduce lam p q env acc vs) := by
  intro env acc vs hl ha hv
  induction vs generalizing env acc with
  | nil => exact Fine.ok ha
  | cons v vs ih =>
    rw [List.forall_mem_cons] at hv
    refine (hl v acc hv.1 ha).bind fun b hb => ih ?_ hb hv.2
    intro w a hw ha'
    have he : (((env.insert p v).insert q acc).insert p w).insert q a = (env.insert p w).insert q a := by
      funext n
      simp only [Env.insert]
      split_ifs <;> rfl
    rw [he]
    exact hl w a hw ha'

theorem countifLoop_fine {lam : Env → Res Value} : ∀ {env : Env} {n : Nat} {vs : List Value}, (∀ v, IsOf τ v → Fine t (IsOf .bool) (lam (env.insert c!"x" v))) → (∀ v ∈ vs, IsOf τ v) →
    Fine t (fun _ => True) (Loop.countif lam env n vs) := by
  intro env n vs hl hv
  induction vs generalizing env n with
  | nil => exact Fine.ok trivial
  | cons v vs ih =>
    rw [List.forall_mem_cons] at hv
    refine (hl v hv.1).bind fun b hb => ih (env := env.insert c!"x" v) ?_ hv.2
    intro w hw; rw [Env.insert_same]; exact hl w hw

theorem avgifLoop_fine {lam : Env → Res Value} : ∀ {env : Env} {acc : F64} {n : Nat} {vs : List Value}, (∀ v, IsOf τ v → Fine t (IsOf .bool) (lam (env.insert c!"x" v))) →
    (∀ v ∈ vs, IsOf τ v) → Fine t (fun _ => True) (Loop.avgif lam env acc n vs) := by
  intro env acc n vs hl hv
  induction vs generalizing env acc n with
  | nil => exact Fine.ok trivial
  | cons v vs ih =>
    rw [List.forall_mem_cons] at hv
    have hl' : ∀ w, IsOf τ w → Fine t (IsOf .bool) (lam ((env.insert c!"x" v).insert c!"x" w)) := by
      intro w hw; rw [Env.insert_same]; exact hl w hw
    refine (hl v hv.1).bind fun b hb => ?_
    split
    · exact ih (env := env.insert c!"x" v) hl' hv.2
    · exact ih (env := env.insert c!"x" v) hl' hv.2

/-! ### Methods -/

theorem predicate_fine (X : Ext) (t : Bool) {n : Str} (h : n ∈ predicates) (env : Env) (v : Value) (args : List Arg) : Fine t (IsOf .bool) (Method.exec X none env n true v args) := by
  simp only [predicates, List.mem_cons, List.not_mem_nil, or_false] at h
  rcases h with rfl | rfl | rfl | rfl | rfl | rfl | rfl | rfl | rfl | rfl <;> exact .inl ⟨_, rfl, trivial⟩

theorem total_ok (err : String) : ∀ {vs : List Value} (acc : F64), (∀ v ∈ vs, IsOf .num v) → ∃ x, Method.total err acc vs = .ok x := by
  intro vs
  induction vs with
  | nil => intro acc _; exact ⟨_, rfl⟩
  | cons v vs ih =>
    intro acc h
    rw [List.forall_mem_cons] at h
    obtain ⟨n, rfl⟩ := isOf_num h.1
    exact ih _ h.2

theorem methodJoin_ok (X : Ext) (hτ : τ ∈ [Ty.num, .bool, .text]) : ∀ {vs : List Value}, (∀ v ∈ vs, IsOf τ v) → ∃ ps, Method.joinParts X vs = .ok ps := by
  intro vs
  induction vs with
  | nil => intro _; exact ⟨_, rfl⟩
  | cons v vs ih =>
    intro h
    rw [List.forall_mem_cons] at h
    obtain ⟨ps, hp⟩ := ih h.2
    simp only [List.mem_cons, List.not_mem_nil, or_false] at hτ
    rcases hτ with rfl | rfl | rfl
    · obtain ⟨n, rfl⟩ := isOf_num h.1; exact ⟨_, by simp only [Method.joinParts, hp]; rfl⟩
    · obtain ⟨n, rfl⟩ := isOf_bool h.1; exact ⟨_, by simp only [Method.joinParts, hp]; rfl⟩
    · obtain ⟨n, rfl⟩ := isOf_text h.1; exact ⟨_, by simp only [Method.joinParts, hp]; rfl⟩

theorem methodUnique_mem (X : Ext) : ∀ (seen : List Str) (vs : List Value), ∀ v ∈ Method.uniqueLoop X seen vs, v ∈ vs := by
  intro seen vs
  induction vs generalizing seen with
  | nil => simp [Method.uniqueLoop]
  | cons w vs ih =>
    intro v hv
    simp only [Method.uniqueLoop] at hv
    split at hv
    · exact List.mem_cons_of_mem _ (ih _ v hv)
    · rcases List.mem_cons.1 hv with rfl | hv
      · exact List.mem_cons_self
      · exact List.mem_cons_of_mem _ (ih _ v hv)

/-- Arguments that will have these types. -/
abbrev Args (t : Bool) (env : Env) (as : List Arg) (ts : List Ty) : Prop := List.Forall₂ (fun a τ => Fine t (IsOf τ) (Arg.run a none env)) as ts

theorem textArg_fine {env : Env} {a : Arg} (m n : String) (as : List Arg) (h : Fine t (IsOf .text) (a.run none env)) : Fine t (fun _ => True) (Method.textArg env m n (a :: as)) := by
  refine h.bind fun v hv => ?_
  obtain ⟨s, rfl⟩ := isOf_text hv
  exact Fine.ok trivial

theorem method_fine (X : Ext) {n : Str} {ts : List Ty} {env : Env} {v : Value} {as : List Arg} (h : MethodSig σ n ts τ) (hv : IsOf σ v) (ha : Args t env as ts) :
    Fine t (IsOf τ) (Method.exec X none env n false v as) := by
  cases h with
  | toText hn =>
    simp only [List.mem_cons, List.not_mem_nil, or_false] at hn
    rcases hn with rfl | rfl <;> exact .inl ⟨_, rfl, trivial⟩
  | toNum hn =>
    simp only [List.mem_cons, List.not_mem_nil, or_false] at hn
    rcases hn with rfl | rfl | rfl | rfl <;> exact .inl ⟨_, rfl, trivial⟩
  | toBool hn =>
    simp only [List.mem_cons, List.not_mem_nil, or_false] at hn
    rcases hn with rfl | rfl <;> exact .inl ⟨_, rfl, trivial⟩
  | number hn =>
    cases ha
    obtain ⟨x, rfl⟩ := isOf_num hv
    simp only [List.mem_cons, List.not_mem_nil, or_false] at hn
    rcases hn with rfl | rfl | rfl | rfl | rfl | rfl | rfl | rfl | rfl <;> exact .inl ⟨_, rfl, trivial⟩
  | round =>
    cases ha with | cons h1 ha =>
    cases ha
    obtain ⟨x, rfl⟩ := isOf_num hv
    have : Fine t (IsOf .num) (Method.round X env x [_]) := h1.bind fun p hp => by
      obtain ⟨p, rfl⟩ := isOf_num hp
      simp only
      split <;> exact Fine.ok trivial
    exact this
  | between =>
    cases ha with | cons h1 ha =>
    cases ha with | cons h2 ha =>
    cases ha
    obtain ⟨x, rfl⟩ := isOf_num hv
    refine h1.bind fun p hp => h2.bind fun q hq => ?_
    obtain ⟨p, rfl⟩ := isOf_num hp
    obtain ⟨q, rfl⟩ := isOf_num hq
    exact Fine.ok trivial
  | textLength hn =>
    obtain ⟨x, rfl⟩ := isOf_text hv
    simp only [List.mem_cons, List.not_mem_nil, or_false] at hn
    rcases hn with rfl | rfl <;> exact .inl ⟨_, rfl, trivial⟩
  | text hn =>
    obtain ⟨x, rfl⟩ := isOf_text hv
    simp only [List.mem_cons, List.not_mem_nil, or_false] at hn
    rcases hn with rfl | rfl | rfl | rfl | rfl | rfl <;> exact .inl ⟨_, rfl, trivial⟩
  | search hn =>
    cases ha with | cons h1 ha =>
    obtain ⟨x, rfl⟩ := isOf_text hv
    simp only [List.mem_cons, List.not_mem_nil, or_false] at hn
    rcases hn with rfl | rfl | rfl | rfl | rfl | rfl <;>
      exact (textArg_fine _ _ _ h1).bind (Q := IsOf .bool) fun s _ => Fine.ok (a := Value.bool _) trivial
  | split =>
    cases ha with | cons h1 ha =>
    obtain ⟨x, rfl⟩ := isOf_text hv
    refine (textArg_fine "split method expects 1 argument" "split method expects string argument" _ h1).bind (Q := IsOf (.arr .text)) fun s _ => Fine.ok (a := Value.arr _) ?_
    intro w hw
    obtain ⟨p, _, rfl⟩ := List.mem_map.1 hw
    trivial
  | replace =>
    cases ha with | cons h1 ha =>
    cases ha with | cons h2 ha =>
    obtain ⟨x, rfl⟩ := isOf_text hv
    refine h1.bind fun p hp => h2.bind fun q hq => ?_
    obtain ⟨p, rfl⟩ := isOf_text hp
    obtain ⟨q, rfl⟩ := isOf_text hq
    exact Fine.ok trivial
  | substring1 hn =>
    cases ha with | cons h1 ha =>
    cases ha
    obtain ⟨x, rfl⟩ := isOf_text hv
    simp only [List.mem_cons, List.not_mem_nil, or_false] at hn
    have : Fine t (IsOf .text) (Method.substring env x [_]) := h1.bind fun p hp => by
      obtain ⟨p, rfl⟩ := isOf_num hp
      exact Fine.ok trivial
    rcases hn with rfl | rfl <;> exact this
  | substring2 hn =>
    cases ha with | cons h1 ha =>
    cases ha with | cons h2 ha =>
    cases ha
    obtain ⟨x, rfl⟩ := isOf_text hv
    simp only [List.mem_cons, List.not_mem_nil, or_false] at hn
    have : Fine t (IsOf .text) (Method.substring env x [_, _]) := h1.bind fun p hp => by
      obtain ⟨p, rfl⟩ := isOf_num hp
      exact h2.bind fun q hq => by
        obtain ⟨q, rfl⟩ := isOf_num hq
        exact Fine.ok trivial
    rcases hn with rfl | rfl <;> exact this
  | arrLength hn =>
    obtain ⟨x, rfl, _⟩ := isOf_arr hv
    simp only [List.mem_cons, List.not_mem_nil, or_false] at hn
    rcases hn with rfl | rfl | rfl <;> exact .inl ⟨_, rfl, trivial⟩
  | arrSame hn =>
    obtain ⟨x, rfl, hx⟩ := isOf_arr hv
    simp only [List.mem_cons, List.not_mem_nil, or_false] at hn
    rcases hn with rfl | rfl | rfl
    · exact Fine.ok (a := Value.arr x.reverse) fun w hw => hx w (by simpa using hw)
    · exact Fine.ok (a := Value.arr (Method.uniqueLoop X [] x)) fun w hw => hx w (methodUnique_mem X [] x w hw)
    · exact Fine.ok (a := Value.arr (Method.compact x)) fun w hw => hx w (List.mem_of_mem_filter hw)
  | arrTotal hn =>
    obtain ⟨x, rfl, hx⟩ := isOf_arr hv
    obtain ⟨y, hy⟩ := total_ok "avg method expects numeric array" (.zero false) hx
    obtain ⟨z, hz⟩ := total_ok "sum method expects numeric array" (.zero false) hx
    have hs : Fine t (IsOf .num) (do return .num (← Method.total "sum method expects numeric array" (.zero false) x)) := by rw [hz]; exact Fine.ok trivial
    have ht : Fine t (IsOf .num) (if x.isEmpty then .ok (.num (.zero false)) else do
        let t ← Method.total "avg method expects numeric array" (.zero false) x
        return .num (F64.div t (F64.ofNat x.length))) := by
      rw [hy]; split <;> exact Fine.ok trivial
    simp only [List.mem_cons, List.not_mem_nil, or_false] at hn
    rcases hn with rfl | rfl | rfl
    · exact hs
    · exact ht
    · exact ht
  | arrFlatten =>
    obtain ⟨x, rfl, hx⟩ := isOf_arr hv
    refine Fine.ok (a := Value.arr (Arr.flattens x)) fun w hw => ?_
    exact flatten_leaf (.arr _) (.arr x) hx w (by simpa [Arr.flatten] using hw)
  | arrContains hn =>
    cases ha with | cons h1 ha =>
    obtain ⟨x, rfl, hx⟩ := isOf_arr hv
    simp only [List.mem_cons, List.not_mem_nil, or_false] at hn
    rcases hn with rfl | rfl <;> exact h1.bind fun s _ => Fine.ok trivial
  | arrJoin1 ht =>
    cases ha
    obtain ⟨x, rfl, hx⟩ := isOf_arr hv
    obtain ⟨ps, hp⟩ := methodJoin_ok X ht hx
    have : Method.join X env x [] = .ok (.str (Str.join c!"," ps)) := by simp only [Method.join, hp]; rfl
    exact .inl ⟨_, this, trivial⟩
  | arrJoin2 ht =>
    cases ha with | cons h1 ha =>
    cases ha
    obtain ⟨x, rfl, hx⟩ := isOf_arr hv
    obtain ⟨ps, hp⟩ := methodJoin_ok X ht hx
    rename_i a
    have : Fine t (IsOf .text) (Method.join X env x [a]) := by
      simp only [Method.join, Method.ev, hp]
      exact h1.bind fun s hs => by
        obtain ⟨s, rfl⟩ := isOf_text hs
        exact Fine.ok (a := Value.str _) trivial
    exact this

theorem sqrt_fine (X : Ext) (env : Env) {v : Value} (hv : IsOf .num v) : Fine false (IsOf .num) (Method.exec X none env c!"sqrt" false v []) := by
  obtain ⟨x, rfl⟩ := isOf_num hv
  have : Fine false (IsOf .num) (if F64.flt x (.zero false) then fail "Cannot take square root of negative number" else .ok (.num (X.sqrt x))) := by
    split
    · exact .inr ⟨rfl, _, rfl, .negativeRoot⟩
    · exact Fine.ok trivial
  exact this

end Types
