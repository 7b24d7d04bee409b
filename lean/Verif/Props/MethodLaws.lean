import Verif.Props.Laws
/-! C123 for chains of methods: `a.filter(p).map(f)` and the like obey the same laws as the functions. -/

open Lib

namespace Laws

namespace Spec

/-- `a.name()`. -/
def dot (a : Expr) (name : Str) : Expr := .method a name [] false

/-- `a.name(lam)`. -/
def dotEach (a : Expr) (name : Str) (lam : Expr) : Expr := .method a name [lam] false

/-- What the lambda of a method gives with an element under the name `x`; custom functions are in reach. -/
def atElement (X : Ext) (lam : Expr) (r : Option Registry) (env : Env) (v : Value) : Res Value :=
  Legacy.eval X lam r (env.insert x v)

/-- The lambda of a method is a test on these elements. -/
def IsTestAt (X : Ext) (lam : Expr) (r : Option Registry) (env : Env) (items : List Value) : Prop :=
  ∀ v ∈ items, ∃ b, atElement X lam r env v = .ok (.bool b)

end Spec

open _root_.Laws.Spec _root_.Spec

theorem dot_filter {X : Ext} {a lam : Expr} {r : Option Registry} {env : Env} {items : List Value} (ha : Eval.eval X a r env = .ok (.arr items)) :
    Eval.eval X (dotEach a c!"filter" lam) r env = (sel (atElement X lam r env) items).map .arr := by
  unfold dotEach
  simp only [Eval.eval, ha, bind, Except.bind, Legacy.argsOf_eq, List.map_cons, List.map_nil]
  change Method.filter r env items [Legacy.argOf X lam] = _
  simp only [Method.filter, Legacy.argOf_run, Loop.filter_eq]
  unfold sel
  change _ = Except.map Value.arr (Except.map (select items) (items.mapM fun v => Legacy.eval X lam r (env.insert c!"x" v)))
  simp only [List.head?_nil, Method.paramName]
  cases items.mapM fun v => Legacy.eval X lam r (env.insert c!"x" v) <;> rfl

theorem dot_map {X : Ext} {a lam : Expr} {r : Option Registry} {env : Env} {items : List Value} (ha : Eval.eval X a r env = .ok (.arr items)) :
    Eval.eval X (dotEach a c!"map" lam) r env = (items.mapM (atElement X lam r env)).map .arr := by
  unfold dotEach
  simp only [Eval.eval, ha, bind, Except.bind, Legacy.argsOf_eq, List.map_cons, List.map_nil]
  change Method.map r env items [Legacy.argOf X lam] = _
  simp only [Method.map, Legacy.argOf_run, Loop.map_eq]
  change _ = Except.map Value.arr (items.mapM fun v => Legacy.eval X lam r (env.insert c!"x" v))
  simp only [List.head?_nil, Method.paramName]
  cases items.mapM fun v => Legacy.eval X lam r (env.insert c!"x" v) <;> rfl

theorem dot_find {X : Ext} {a lam : Expr} {r : Option Registry} {env : Env} {items : List Value} (ha : Eval.eval X a r env = .ok (.arr items)) :
    Eval.eval X (dotEach a c!"find" lam) r env = Loop.find (Legacy.eval X lam r) x env items := by
  unfold dotEach
  simp only [Eval.eval, ha, bind, Except.bind, Legacy.argsOf_eq, List.map_cons, List.map_nil]
  rfl

theorem dot_error {X : Ext} {a : Expr} {name : Str} {args : List Expr} {r : Option Registry} {env : Env} {f : Fail} (ha : Eval.eval X a r env = .error f) :
    Eval.eval X (.method a name args false) r env = .error f := by
  simp only [Eval.eval, ha, bind, Except.bind]

theorem dot_reverse {X : Ext} {a : Expr} {r : Option Registry} {env : Env} {items : List Value} (ha : Eval.eval X a r env = .ok (.arr items)) :
    Eval.eval X (dot a c!"reverse") r env = .ok (.arr items.reverse) := by
  unfold dot
  simp only [Eval.eval, ha, bind, Except.bind, Legacy.argsOf_eq, List.map_nil]
  rfl

theorem dot_length {X : Ext} {a : Expr} {r : Option Registry} {env : Env} {items : List Value} (ha : Eval.eval X a r env = .ok (.arr items)) :
    Eval.eval X (dot a c!"length") r env = .ok (.num (F64.ofNat items.length)) := by
  unfold dot
  simp only [Eval.eval, ha, bind, Except.bind, Legacy.argsOf_eq, List.map_nil]
  rfl

theorem dot_first {X : Ext} {a : Expr} {r : Option Registry} {env : Env} {items : List Value} (ha : Eval.eval X a r env = .ok (.arr items)) :
    Eval.eval X (dot a c!"first") r env = .ok (items.head?.getD .null) := by
  unfold dot
  simp only [Eval.eval, ha, bind, Except.bind, Legacy.argsOf_eq, List.map_nil]
  rfl

/-- **C123.** Filtering by a method twice by the same test is filtering once. -/
theorem C123_dot_filter_twice (X : Ext) (a p : Expr) (r : Option Registry) (env : Env) (items : List Value)
    (ha : Eval.eval X a r env = .ok (.arr items)) :
    Eval.eval X (dotEach (dotEach a c!"filter" p) c!"filter" p) r env = Eval.eval X (dotEach a c!"filter" p) r env := by
  have hf := dot_filter (lam := p) ha
  cases hs : sel (atElement X p r env) items with
  | error f =>
    rw [hs] at hf
    rw [hf]
    exact dot_error hf
  | ok l =>
    rw [hs] at hf
    rw [hf, dot_filter hf, sel_twice _ _ _ hs]

/-- **C123.** Filtering by one test and then by another is filtering by `p ? q : p`; the second is asked only where the first holds. -/
theorem C123_dot_filter_filter (X : Ext) (a p q : Expr) (r : Option Registry) (env : Env) (items : List Value)
    (ha : Eval.eval X a r env = .ok (.arr items)) (hp : IsTestAt X p r env items) :
    Eval.eval X (dotEach (dotEach a c!"filter" p) c!"filter" q) r env = Eval.eval X (dotEach a c!"filter" (choose p q p)) r env := by
  choose! ans hans using hp
  have hf := dot_filter (lam := p) ha
  rw [sel_bool ans _ items hans] at hf
  rw [dot_filter hf, dot_filter ha]
  congr 1
  refine (sel_sel ans _ _ items ?_).symm
  intro v hv
  have := hans v hv
  unfold atElement at this ⊢
  unfold Spec.choose
  simp only [Legacy.eval, Legacy.call, Legacy.argsOf_eq, List.map_cons, List.map_nil, Legacy.ternary, Legacy.argOf_run, this, bind, Except.bind,
    Value.asBool, if_true]
  cases ans v <;> rfl

/-- **C123.** Where `filter` answers, `find` gives its first element, null if there is none: `a.find(p)` is `a.filter(p).first()`. -/
theorem C123_dot_find (X : Ext) (a p : Expr) (r : Option Registry) (env : Env) (items found : List Value)
    (ha : Eval.eval X a r env = .ok (.arr items)) (hf : Eval.eval X (dotEach a c!"filter" p) r env = .ok (.arr found)) :
    Eval.eval X (dotEach a c!"find" p) r env = .ok (found.headD .null) ∧
    Eval.eval X (dot (dotEach a c!"filter" p) c!"first") r env = Eval.eval X (dotEach a c!"find" p) r env := by
  have hfirst := dot_first hf
  rw [dot_filter ha] at hf
  have hs : sel (atElement X p r env) items = .ok found := by
    cases h : sel (atElement X p r env) items with
    | error f => rw [h] at hf; exact nomatch hf
    | ok l => rw [h] at hf; cases hf; rfl
  suffices h : Eval.eval X (dotEach a c!"find" p) r env = .ok (found.headD .null) by
    refine ⟨h, ?_⟩
    rw [h, hfirst]
    cases found <;> rfl
  rw [dot_find ha]
  clear hf ha hfirst
  induction items generalizing found with
  | nil => rw [sel_nil] at hs; cases hs; rfl
  | cons v vs ih =>
    rw [sel_cons] at hs
    rw [Loop.find]
    unfold atElement at hs
    cases hv : Legacy.eval X p r (env.insert x v) with
    | error f => rw [hv] at hs; exact nomatch hs
    | ok b =>
      cases hl : sel (atElement X p r env) vs with
      | error f => unfold atElement at hl; rw [hv, hl] at hs; exact nomatch hs
      | ok l =>
        have hl' := hl
        unfold atElement at hl'
        rw [hv, hl'] at hs
        simp only [bind, Except.bind, pure, Except.pure] at hs ⊢
        cases hs
        cases hb : isTrue b with
        | true => rfl
        | false =>
          simp only [Bool.false_eq_true, if_false]
          rw [← ih l hl]
          have same : ∀ (us : List Value) (w : Value),
              Loop.find (Legacy.eval X p r) x (env.insert x w) us = Loop.find (Legacy.eval X p r) x env us := by
            intro us w
            cases us with
            | nil => rfl
            | cons u us => simp only [Loop.find, Env.insert_same]
          exact same vs v

/-- **C123.** Mapping keeps the length: `a.map(f).length()` is `a.length()` where `map` answers. -/
theorem C123_dot_map_length (X : Ext) (a f : Expr) (r : Option Registry) (env : Env) (items mapped : List Value)
    (ha : Eval.eval X a r env = .ok (.arr items)) (hm : Eval.eval X (dotEach a c!"map" f) r env = .ok (.arr mapped)) :
    Eval.eval X (dot (dotEach a c!"map" f) c!"length") r env = Eval.eval X (dot a c!"length") r env := by
  rw [dot_length hm, dot_length ha]
  rw [dot_map ha] at hm
  cases h : items.mapM (atElement X f r env) with
  | error e => rw [h] at hm; exact nomatch hm
  | ok bs => rw [h] at hm; cases hm; rw [((mapM_ok_iff _ _ _).1 h).length_eq]

/-- **C123.** Reversing before or after filtering, or before or after mapping, gives the same. -/
theorem C123_dot_reverse (X : Ext) (a p : Expr) (r : Option Registry) (env : Env) (items : List Value)
    (ha : Eval.eval X a r env = .ok (.arr items)) (v : Value) :
    ∀ name ∈ [c!"filter", c!"map"],
      (Eval.eval X (dotEach (dot a c!"reverse") name p) r env = .ok v ↔ Eval.eval X (dot (dotEach a name p) c!"reverse") r env = .ok v) := by
  have hrev := dot_reverse ha
  have key : ∀ bs, items.mapM (atElement X p r env) = .ok bs ↔ items.reverse.mapM (atElement X p r env) = .ok bs.reverse := by
    intro bs
    rw [mapM_ok_iff, mapM_ok_iff, List.forall₂_reverse_iff]
  intro name hn
  simp only [List.mem_cons, List.not_mem_nil, or_false] at hn
  rcases hn with rfl | rfl
  · have hf := dot_filter (lam := p) ha
    rw [dot_filter hrev]
    unfold sel at hf ⊢
    cases h : items.mapM (atElement X p r env) with
    | ok bs =>
      rw [h] at hf
      rw [dot_reverse hf, (key bs).1 h]
      have hl := ((mapM_ok_iff _ _ _).1 h).length_eq
      simp only [Except.map, select_reverse items bs hl]
    | error f =>
      rw [h] at hf
      have h1 : Eval.eval X (dot (dotEach a c!"filter" p) c!"reverse") r env = .error f := dot_error hf
      rw [h1]
      cases h2 : items.reverse.mapM (atElement X p r env) with
      | error f' => simp [Except.map]
      | ok bs => have := (key bs.reverse).2 (by rw [List.reverse_reverse]; exact h2); rw [h] at this; exact nomatch this
  · have hf := dot_map (lam := p) ha
    rw [dot_map hrev]
    cases h : items.mapM (atElement X p r env) with
    | ok bs =>
      rw [h] at hf
      rw [dot_reverse hf, (key bs).1 h]
      rfl
    | error f =>
      rw [h] at hf
      have h1 : Eval.eval X (dot (dotEach a c!"map" p) c!"reverse") r env = .error f := dot_error hf
      rw [h1]
      cases h2 : items.reverse.mapM (atElement X p r env) with
      | error f' => simp [Except.map]
      | ok bs => have := (key bs.reverse).2 (by rw [List.reverse_reverse]; exact h2); rw [h] at this; exact nomatch this

/-- **C123.** Those that meet a test and those that do not are all: the two filtered arrays together hold the elements of the array. -/
theorem C123_dot_partition (X : Ext) (a p : Expr) (r : Option Registry) (env : Env) (items : List Value)
    (ha : Eval.eval X a r env = .ok (.arr items)) (hp : IsTestAt X p r env items) :
    ∃ met unmet, Eval.eval X (dotEach a c!"filter" p) r env = .ok (.arr met) ∧
      Eval.eval X (dotEach a c!"filter" (.unary .not p)) r env = .ok (.arr unmet) ∧ (met ++ unmet).Perm items := by
  choose! ans hans using hp
  refine ⟨items.filter ans, items.filter fun v => !ans v, ?_, ?_, ?_⟩
  · rw [dot_filter ha, sel_bool ans _ items hans]; rfl
  · rw [dot_filter ha, sel_bool (fun v => !ans v) _ items]
    · rfl
    · intro v hv
      have := hans v hv
      unfold atElement at this ⊢
      simp only [Legacy.eval, this, bind, Except.bind]
      cases ans v <;> rfl
  · exact List.filter_append_perm ans items

/-- **C123.** Testing after mapping is testing what mapping gives: `a.map(f).filter(q)` is `a.filter(w).map(f)` for every test `w` that answers
on each element what `q` answers on what `f` makes of it. -/
theorem C123_dot_map_filter (X : Ext) (a f q w : Expr) (r : Option Registry) (env : Env) (items mapped : List Value)
    (ha : Eval.eval X a r env = .ok (.arr items)) (hm : Eval.eval X (dotEach a c!"map" f) r env = .ok (.arr mapped))
    (hw : IsTestAt X w r env items)
    (hq : ∀ u ∈ items, ∀ v, atElement X f r env u = .ok v → atElement X q r env v = atElement X w r env u) :
    Eval.eval X (dotEach (dotEach a c!"map" f) c!"filter" q) r env = Eval.eval X (dotEach (dotEach a c!"filter" w) c!"map" f) r env := by
  choose! ans hans using hw
  have hf := dot_filter (lam := w) ha
  rw [sel_bool ans _ items hans] at hf
  rw [dot_filter hm, dot_map hf]
  congr 1
  rw [dot_map ha] at hm
  have hm' : items.mapM (atElement X f r env) = .ok mapped := by
    cases h : items.mapM (atElement X f r env) with
    | error e => rw [h] at hm; exact nomatch hm
    | ok bs => rw [h] at hm; cases hm; rfl
  rw [mapM_ok_iff] at hm'
  clear ha hm hf
  induction hm' with
  | nil => rfl
  | @cons u v us vs huv h ih =>
    have hv : atElement X q r env v = .ok (.bool (ans u)) := by rw [hq u (by simp) v huv, hans u (by simp)]
    rw [sel_cons, hv, ih (fun z hz => hq z (by simp [hz])) (fun z hz => hans z (by simp [hz])), List.filter_cons]
    cases hb : ans u with
    | true =>
      simp only [if_true, List.mapM_cons, huv]
      cases (us.filter ans).mapM (atElement X f r env) <;> rfl
    | false =>
      simp only [Bool.false_eq_true, if_false]
      cases (us.filter ans).mapM (atElement X f r env) <;> rfl

theorem dot_reduce {X : Ext} {a lam init : Expr} {r : Option Registry} {env : Env} {items : List Value} {acc : Value}
    (ha : Eval.eval X a r env = .ok (.arr items)) (hi : Legacy.eval X init r env = .ok acc) :
    Eval.eval X (.method a c!"reduce" [lam, init] false) r env =
      items.foldlM (fun acc v => Legacy.eval X lam r ((env.insert x v).insert c!"acc" acc)) acc := by
  simp only [Eval.eval, ha, bind, Except.bind, Legacy.argsOf_eq, List.map_cons, List.map_nil]
  change Method.reduce r env items [Legacy.argOf X lam, Legacy.argOf X init] = _
  simp only [Method.reduce, Legacy.argOf_run, hi, bind, Except.bind]
  exact Loop.reduce_eq _ _ _ _ _ _

/-- **C123.** On numbers, adding up with `reduce` is `sum()`. -/
theorem C123_dot_reduce (X : Ext) (a : Expr) (r : Option Registry) (env : Env) (xs : List F64) (ha : Eval.eval X a r env = .ok (.arr (xs.map .num))) :
    Eval.eval X (.method a c!"reduce" [.binary (.var c!"acc") .add (.var c!"x"), .number (.zero false)] false) r env = Eval.eval X (dot a c!"sum") r env := by
  have hs : Eval.eval X (dot a c!"sum") r env = (Method.total "sum method expects numeric array" (.zero false) (xs.map .num)).map .num := by
    unfold dot
    simp only [Eval.eval, ha, bind, Except.bind, Legacy.argsOf_eq, List.map_nil]
    change (do return Value.num (← Method.total "sum method expects numeric array" (.zero false) (xs.map .num))) = _
    cases Method.total "sum method expects numeric array" (.zero false) (xs.map .num) <;> rfl
  rw [hs, dot_reduce (acc := .num (.zero false)) ha (by rw [Legacy.eval])]
  clear ha hs
  have hx : ∀ v w : Value, ((env.insert x v).insert c!"acc" w) c!"x" = some v := by intro v w; simp [Env.insert, x]
  have hacc : ∀ v w : Value, ((env.insert x v).insert c!"acc" w) c!"acc" = some w := by intro v w; simp [Env.insert]
  have step : ∀ s y : F64, Legacy.eval X (.binary (.var c!"acc") .add (.var c!"x")) r ((env.insert x (.num y)).insert c!"acc" (.num s)) = .ok (.num (F64.add s y)) := by
    intro s y
    cases r <;> simp [Legacy.eval, hx, hacc, bind, Except.bind, Ops.binary, Ops.arith, Value.asNumber]
  generalize F64.zero false = s
  induction xs generalizing s with
  | nil => rfl
  | cons y ys ih =>
    rw [List.map_cons, List.foldlM_cons, step]
    exact ih _

/-- **C123.** Mapping and then reducing is reducing with the mapped element: where `h` is to each element what `g` is to what `f` makes of it. -/
theorem C123_dot_map_reduce (X : Ext) (a f g h init : Expr) (r : Option Registry) (env : Env) (items mapped : List Value) (acc : Value)
    (ha : Eval.eval X a r env = .ok (.arr items)) (hm : Eval.eval X (dotEach a c!"map" f) r env = .ok (.arr mapped))
    (hi : Legacy.eval X init r env = .ok acc)
    (hh : ∀ u ∈ items, ∀ v, atElement X f r env u = .ok v → ∀ w,
      Legacy.eval X h r ((env.insert x u).insert c!"acc" w) = Legacy.eval X g r ((env.insert x v).insert c!"acc" w)) :
    Eval.eval X (.method (dotEach a c!"map" f) c!"reduce" [g, init] false) r env = Eval.eval X (.method a c!"reduce" [h, init] false) r env := by
  rw [dot_reduce hm hi, dot_reduce ha hi]
  rw [dot_map ha] at hm
  have hm' : items.mapM (atElement X f r env) = .ok mapped := by
    cases h : items.mapM (atElement X f r env) with
    | error e => rw [h] at hm; exact nomatch hm
    | ok bs => rw [h] at hm; cases hm; rfl
  rw [mapM_ok_iff] at hm'
  clear ha hm hi
  induction hm' generalizing acc with
  | nil => rfl
  | @cons u v us vs huv _ ih =>
    rw [List.foldlM_cons, List.foldlM_cons, hh u (by simp) v huv]
    cases Legacy.eval X g r ((env.insert x v).insert c!"acc" acc) with
    | error e => rfl
    | ok b => exact ih b fun z hz => hh z (by simp [hz])

/-- A chain that meets the hypotheses: the lambda `!x` is a test on `[true, false]`, in the environment that calls the array `a`. -/
example (X : Ext) (r : Option Registry) :
    let env : Env := fun n => if n = c!"a" then some (.arr [.bool true, .bool false]) else none
    Eval.eval X (.var c!"a") r env = .ok (.arr [.bool true, .bool false]) ∧
      IsTestAt X (.unary .not (.var c!"x")) r env [.bool true, .bool false] ∧
      Eval.eval X (dotEach (.var c!"a") c!"filter" (.unary .not (.var c!"x"))) r env = .ok (.arr [.bool false]) := by
  refine ⟨rfl, ?_, ?_⟩
  · intro v hv
    simp only [List.mem_cons, List.not_mem_nil, or_false] at hv
    rcases hv with rfl | rfl
    · exact ⟨false, rfl⟩
    · exact ⟨true, rfl⟩
  · rw [dot_filter (items := [.bool true, .bool false]) rfl]; rfl

/-- Cases of `C123_dot_map_filter` and `C123_dot_map_reduce`: with `!x` for `f`, `x` does to what `f` makes of an element what `!x` does to the element. -/
example (X : Ext) (r : Option Registry) (env : Env) :
    (∀ u ∈ [Value.bool true, .bool false], ∀ v, atElement X (.unary .not (.var c!"x")) r env u = .ok v →
      atElement X (.var c!"x") r env v = atElement X (.unary .not (.var c!"x")) r env u) ∧
    ∀ u ∈ [Value.bool true, .bool false], ∀ v, atElement X (.unary .not (.var c!"x")) r env u = .ok v → ∀ w,
      Legacy.eval X (.unary .not (.var c!"x")) r ((env.insert x u).insert c!"acc" w) = Legacy.eval X (.var c!"x") r ((env.insert x v).insert c!"acc" w) := by
  constructor
  · intro u hu v hv
    simp only [List.mem_cons, List.not_mem_nil, or_false] at hu
    rcases hu with rfl | rfl <;> cases hv <;> rfl
  · intro u hu v hv w
    simp only [List.mem_cons, List.not_mem_nil, or_false] at hu
    rcases hu with rfl | rfl <;> cases hv <;> rfl

end Laws
