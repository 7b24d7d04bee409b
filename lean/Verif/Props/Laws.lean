import Verif.Props.Aliases
import Verif.Props.Aggregates
import Verif.Props.ClientBench
import Mathlib.Data.List.Forall2
/-! C123: the laws by which calls of the functions on arrays can be rewritten. -/

open Lib

namespace Laws

namespace Spec

/-- None of the names is that of a custom function in reach. -/
def NoneOf (X : Ext) (r : Option Registry) (names : List Str) : Prop := ∀ n ∈ names, _root_.Spec.NotCustom X r n

/-- `NAME(a)`. -/
def on (name : Str) (a : Expr) : Expr := .call name [a]

/-- `NAME(a, lam)`. -/
def each (name : Str) (a lam : Expr) : Expr := .call name [a, lam]

/-- `c ? a : b`. -/
def choose (c a b : Expr) : Expr := .call c!"__TERNARY__" [c, a, b]

/-- `FALSE`. -/
def no : Expr := .call c!"__CONST_FALSE__" []

/-- `TRUE`. -/
def yes : Expr := .call c!"__CONST_TRUE__" []

/-- The parameter of a lambda that names none. -/
def x : Str := c!"x"

/-- The lambda is a test on these elements: it answers true or false. -/
def IsTest (X : Ext) (lam : Expr) (env : Env) (items : List Value) : Prop :=
  ∀ v ∈ items, ∃ b, _root_.Spec.onElement X lam env x v = .ok (.bool b)

/-- No element is an array. -/
def Flat (items : List Value) : Prop := ∀ v ∈ items, ∀ inner, v ≠ .arr inner

end Spec

open _root_.Laws.Spec _root_.Spec

/-! ### Lists -/

/-- The elements a lambda selects. -/
def sel (g : Value → Res Value) (items : List Value) : Res (List Value) := (items.mapM g).map (select items)

theorem sel_nil (g : Value → Res Value) : sel g [] = .ok [] := rfl

theorem sel_cons (g : Value → Res Value) (v : Value) (vs : List Value) :
    sel g (v :: vs) = (do let b ← g v; let l ← sel g vs; return if isTrue b then v :: l else l) := by
  unfold sel
  rw [List.mapM_cons]
  cases g v with
  | error f => rfl
  | ok b =>
    cases vs.mapM g with
    | error f => rfl
    | ok bs =>
      simp only [bind, Except.bind, pure, Except.pure, Except.map, select, List.zip_cons_cons, List.filter_cons]
      cases isTrue b <;> rfl

theorem mapM_ok_iff (g : Value → Res Value) : ∀ (vs bs : List Value), vs.mapM g = .ok bs ↔ List.Forall₂ (fun v b => g v = .ok b) vs bs
  | [], bs => by
    rw [List.mapM_nil]
    constructor
    · intro h; cases h; exact .nil
    · intro h; cases h; rfl
  | v :: vs, bs => by
    rw [List.mapM_cons]
    constructor
    · intro h
      cases hv : g v with
      | error f => rw [hv] at h; exact nomatch h
      | ok b =>
        cases hvs : vs.mapM g with
        | error f => rw [hv, hvs] at h; exact nomatch h
        | ok l => rw [hv, hvs] at h; cases h; exact .cons hv ((mapM_ok_iff g vs l).1 hvs)
    · intro h
      cases h with
      | cons h1 h2 => rw [h1, (mapM_ok_iff g vs _).2 h2]; rfl

theorem mapM_ok_of {g : Value → Res Value} {k : Value → Value} : ∀ {vs : List Value}, (∀ v ∈ vs, g v = .ok (k v)) → vs.mapM g = .ok (vs.map k)
  | [], _ => rfl
  | v :: vs, h => by
    rw [List.mapM_cons, h v (by simp), mapM_ok_of fun u hu => h u (by simp [hu])]; rfl

theorem mapM_eq_of {g h : Value → Res Value} : ∀ {vs : List Value}, (∀ v ∈ vs, g v = h v) → vs.mapM g = vs.mapM h
  | [], _ => rfl
  | v :: vs, e => by
    rw [List.mapM_cons, List.mapM_cons, e v (by simp), mapM_eq_of fun u hu => e u (by simp [hu])]

/-- Mapping twice. -/
theorem mapM_mapM {g h k : Value → Res Value} {items mapped : List Value} (hm : items.mapM g = .ok mapped)
    (hk : ∀ v w, v ∈ items → g v = .ok w → k v = h w) : mapped.mapM h = items.mapM k := by
  rw [mapM_ok_iff] at hm
  induction hm with
  | nil => rfl
  | @cons v w vs ws h1 _ ih =>
    rw [List.mapM_cons, List.mapM_cons, hk v w (by simp) h1, ih fun u z hu => hk u z (by simp [hu])]

theorem select_reverse (items answers : List Value) (h : items.length = answers.length) :
    select items.reverse answers.reverse = (select items answers).reverse := by
  have : items.reverse.zip answers.reverse = (items.zip answers).reverse := by
    induction items generalizing answers with
    | nil => cases answers with
      | nil => rfl
      | cons b bs => simp at h
    | cons v vs ih => cases answers with
      | nil => simp at h
      | cons b bs =>
        simp only [List.length_cons, Nat.add_right_cancel_iff] at h
        rw [List.reverse_cons, List.reverse_cons, List.zip_append (by simp [h]), ih bs h]
        simp
  simp only [select, this, List.filter_reverse, List.map_reverse]

/-- The selected ones, selected again. -/
theorem sel_twice (g : Value → Res Value) : ∀ (items l : List Value), sel g items = .ok l → sel g l = .ok l
  | [], l, h => by rw [sel_nil] at h; cases h; rfl
  | v :: vs, l, h => by
    rw [sel_cons] at h
    cases hv : g v with
    | error f => rw [hv] at h; exact nomatch h
    | ok b =>
      cases hs : sel g vs with
      | error f => rw [hv, hs] at h; exact nomatch h
      | ok m =>
        rw [hv, hs] at h
        have ih := sel_twice g vs m hs
        cases hb : isTrue b with
        | false => simp [bind, Except.bind, pure, Except.pure, hb] at h; subst h; exact ih
        | true =>
          simp [bind, Except.bind, pure, Except.pure, hb] at h
          subst h
          rw [sel_cons, hv, ih]
          simp [bind, Except.bind, pure, Except.pure, hb]

/-- First one test, then another. -/
theorem sel_sel (ans : Value → Bool) (q h : Value → Res Value) : ∀ (items : List Value),
    (∀ v ∈ items, h v = if ans v then q v else .ok (.bool false)) → sel h items = sel q (items.filter ans)
  | [], _ => rfl
  | v :: vs, hh => by
    rw [sel_cons, hh v (by simp), sel_sel ans q h vs fun u hu => hh u (by simp [hu]), List.filter_cons]
    cases ans v with
    | false =>
      simp only [Bool.false_eq_true, if_false]
      cases sel q (vs.filter ans) <;> rfl
    | true => simp only [if_true]; rw [sel_cons]

theorem sel_bool (ans : Value → Bool) (g : Value → Res Value) : ∀ (items : List Value), (∀ v ∈ items, g v = .ok (.bool (ans v))) → sel g items = .ok (items.filter ans)
  | [], _ => rfl
  | v :: vs, h => by
    rw [sel_cons, h v (by simp), sel_bool ans g vs fun u hu => h u (by simp [hu]), List.filter_cons]
    cases ans v <;> rfl

theorem sel_mem (g : Value → Res Value) (items l : List Value) (h : sel g items = .ok l) : ∀ v ∈ l, v ∈ items := by
  unfold sel at h
  cases hm : items.mapM g with
  | error f => rw [hm] at h; exact nomatch h
  | ok bs =>
    rw [hm] at h; cases h
    intro v hv
    simp only [select, List.mem_map, List.mem_filter] at hv
    obtain ⟨⟨a, b⟩, ⟨h1, _⟩, rfl⟩ := hv
    exact (List.of_mem_zip h1).1

/-! ### Calls -/

theorem notSpread_of_ok {X : Ext} {a : Expr} {r : Option Registry} {env : Env} {v : Value} (h : Eval.eval X a r env = .ok v) : ∀ e', a ≠ .spread e' := by
  rintro e' rfl
  rw [Eval.eval] at h
  exact nomatch h

theorem on_ok {X : Ext} {n : Str} {a : Expr} {r : Option Registry} {env : Env} {v : Value} (hn : n ∉ ownNames) (hr : NotCustom X r n)
    (h : Eval.eval X a r env = .ok v) : Eval.eval X (on n a) r env = execFast X n [v] :=
  call_exec X n r env [a] [v] hn hr (.plain (notSpread_of_ok h) h .nil)

theorem on_error {X : Ext} {n m : Str} {es : List Expr} {r : Option Registry} {env : Env} {f : Fail} (hn : n ∉ ownNames) (hr : NotCustom X r n)
    (h : Eval.eval X (.call m es) r env = .error f) : Eval.eval X (on n (.call m es)) r env = .error f := by
  unfold on
  rw [Eval.eval]
  change Eval.call X n _ r env = _
  rw [call_plain X hn hr]
  simp only [Eval.argsOf, evalArgs, h, bind, Except.bind]

theorem filter_sel {X : Ext} {a lam : Expr} {r : Option Registry} {env : Env} {items : List Value} (hr : NotCustom X r c!"FILTER")
    (ha : Eval.eval X a r env = .ok (.arr items)) :
    Eval.eval X (each c!"FILTER" a lam) r env = (sel (onElement X lam env x) items).map .arr := by
  unfold each
  rw [C17_filter X a lam [] c!"x" r env items hr ha rfl]
  unfold sel
  change _ = ((items.mapM (onElement X lam env c!"x")).map (select items)).map Value.arr
  cases items.mapM (onElement X lam env c!"x") <;> rfl

theorem map_each {X : Ext} {a lam : Expr} {r : Option Registry} {env : Env} {items : List Value} (hr : NotCustom X r c!"MAP")
    (ha : Eval.eval X a r env = .ok (.arr items)) :
    Eval.eval X (each c!"MAP" a lam) r env = (items.mapM (onElement X lam env x)).map .arr :=
  C17_map X a lam [] c!"x" r env items hr ha rfl

theorem length_of (X : Ext) (l : List Value) : execFast X c!"LENGTH" [.arr l] = .ok (.num (F64.ofNat l.length)) := rfl

theorem reverse_of (X : Ext) (l : List Value) : execFast X c!"REVERSE" [.arr l] = .ok (.arr l.reverse) := rfl

/-- **C123.** Counting the elements that meet a test is taking the length of the filtered array. -/
theorem C123_countif (X : Ext) (a p : Expr) (r : Option Registry) (env : Env) (items : List Value)
    (hr : NoneOf X r [c!"COUNTIF", c!"FILTER", c!"LENGTH"]) (ha : Eval.eval X a r env = .ok (.arr items)) :
    Eval.eval X (each c!"COUNTIF" a p) r env = Eval.eval X (on c!"LENGTH" (each c!"FILTER" a p)) r env := by
  have hf := filter_sel (lam := p) (hr c!"FILTER" (by simp)) ha
  have h1 : Eval.eval X (each c!"COUNTIF" a p) r env = (sel (onElement X p env x) items).map fun l => .num (F64.ofNat l.length) := by
    unfold each sel
    rw [C17_countif X a p r env items (hr _ (by simp)) ha]
    change _ = ((items.mapM (onElement X p env c!"x")).map (select items)).map _
    cases items.mapM (onElement X p env c!"x") <;> rfl
  rw [h1]
  cases hs : sel (onElement X p env x) items with
  | error f => rw [hs] at hf; exact (on_error (by decide) (hr _ (by simp)) hf).symm
  | ok l => rw [hs] at hf; rw [on_ok (by decide) (hr _ (by simp)) hf, length_of]; rfl

/-- **C123.** When filtering succeeds, `FIND` is the first of the filtered elements, and null when there is none. -/
theorem C123_find (X : Ext) (a p : Expr) (r : Option Registry) (env : Env) (items found : List Value)
    (hr : NoneOf X r [c!"FIND", c!"FILTER"]) (ha : Eval.eval X a r env = .ok (.arr items))
    (hf : Eval.eval X (each c!"FILTER" a p) r env = .ok (.arr found)) :
    Eval.eval X (each c!"FIND" a p) r env = .ok (found.headD .null) := by
  rw [filter_sel (hr c!"FILTER" (by simp)) ha] at hf
  have hs : sel (onElement X p env x) items = .ok found := by
    cases h : sel (onElement X p env x) items with
    | error f => rw [h] at hf; exact nomatch hf
    | ok l => rw [h] at hf; cases hf; rfl
  unfold each
  rw [C17_find X a p [] c!"x" r env items (hr _ (by simp)) ha rfl]
  clear hf ha
  change (∃ pre post, items = pre ++ found.headD .null :: post ∧ (∀ u ∈ pre, ∃ b, onElement X p env x u = .ok b ∧ b ≠ .bool true) ∧
    onElement X p env x (found.headD .null) = .ok (.bool true)) ∨ _
  change _ ∨ (_ ∧ ∀ u ∈ items, ∃ b, onElement X p env x u = .ok b ∧ b ≠ .bool true)
  generalize onElement X p env x = g at hs
  induction items generalizing found with
  | nil => rw [sel_nil] at hs; cases hs; exact .inr ⟨rfl, by simp⟩
  | cons v vs ih =>
    rw [sel_cons] at hs
    cases hv : g v with
    | error f => rw [hv] at hs; exact nomatch hs
    | ok b =>
      cases hl : sel g vs with
      | error f => rw [hv, hl] at hs; exact nomatch hs
      | ok l =>
        rw [hv, hl] at hs
        cases hb : isTrue b with
        | true =>
          simp [bind, Except.bind, pure, Except.pure, hb] at hs
          subst hs
          have : b = .bool true := by cases b <;> simp_all [_root_.isTrue]
          exact .inl ⟨[], vs, rfl, by simp, this ▸ hv⟩
        | false =>
          simp [bind, Except.bind, pure, Except.pure, hb] at hs
          subst hs
          have hb' : b ≠ .bool true := by rintro rfl; simp [_root_.isTrue] at hb
          rcases ih l hl with ⟨pre, post, h1, h2, h3⟩ | ⟨h1, h2⟩
          · refine .inl ⟨v :: pre, post, by rw [List.cons_append, ← h1], ?_, h3⟩
            intro u hu
            rcases List.mem_cons.1 hu with rfl | hu
            · exact ⟨b, hv, hb'⟩
            · exact h2 u hu
          · refine .inr ⟨h1, ?_⟩
            intro u hu
            rcases List.mem_cons.1 hu with rfl | hu
            · exact ⟨b, hv, hb'⟩
            · exact h2 u hu

/-- **C123.** Filtering a filtered array by the same test changes nothing. -/
theorem C123_filter_twice (X : Ext) (a p : Expr) (r : Option Registry) (env : Env) (items : List Value)
    (hr : NoneOf X r [c!"FILTER"]) (ha : Eval.eval X a r env = .ok (.arr items)) :
    Eval.eval X (each c!"FILTER" (each c!"FILTER" a p) p) r env = Eval.eval X (each c!"FILTER" a p) r env := by
  have hr := hr c!"FILTER" (by simp)
  have hf := filter_sel (lam := p) hr ha
  cases hs : sel (onElement X p env x) items with
  | error f =>
    rw [hs] at hf
    rw [hf]
    unfold each at hf ⊢
    rw [call_higherOrder X _ _ r env Eval.filter (by decide) (by rfl) hr]
    simp only [List.map_cons, List.map_nil, Eval.filter, Eval.argOf_run, hf, bind, Except.bind, Except.map]
  | ok l =>
    rw [hs] at hf
    rw [hf, filter_sel hr hf, sel_twice _ _ _ hs]

/-- **C123.** Filtering by one test and then by another is filtering by both; the second is asked only where the first holds. -/
theorem C123_filter_filter (X : Ext) (a p q : Expr) (r : Option Registry) (env : Env) (items : List Value)
    (hr : NoneOf X r [c!"FILTER"]) (ha : Eval.eval X a r env = .ok (.arr items)) (hp : IsTest X p env items) :
    Eval.eval X (each c!"FILTER" (each c!"FILTER" a p) q) r env = Eval.eval X (each c!"FILTER" a (choose p q no)) r env := by
  have hr := hr c!"FILTER" (by simp)
  choose! ans hans using hp
  have hf := filter_sel (lam := p) hr ha
  rw [sel_bool ans _ items hans] at hf
  rw [filter_sel hr hf, filter_sel hr ha]
  congr 1
  refine (sel_sel ans _ _ items ?_).symm
  intro v hv
  have := hans v hv
  unfold onElement evalVars at this ⊢
  unfold Spec.choose no
  simp only [Eval.eval, Eval.call, Eval.argsOf_eq, List.map_cons, List.map_nil, Legacy.ternary, Eval.argOf_run, this, bind, Except.bind,
    Value.asBool, if_true]
  cases ans v <;> rfl

/-- **C123.** Reversing before or after filtering, or before or after mapping, gives the same. -/
theorem C123_reverse (X : Ext) (a p : Expr) (r : Option Registry) (env : Env) (items : List Value)
    (hr : NoneOf X r [c!"FILTER", c!"MAP", c!"REVERSE"]) (ha : Eval.eval X a r env = .ok (.arr items)) (v : Value) :
    ∀ name ∈ [c!"FILTER", c!"MAP"],
      (Eval.eval X (each name (on c!"REVERSE" a) p) r env = .ok v ↔ Eval.eval X (on c!"REVERSE" (each name a p)) r env = .ok v) := by
  have hrev : Eval.eval X (on c!"REVERSE" a) r env = .ok (.arr items.reverse) := by
    rw [on_ok (by decide) (hr _ (by simp)) ha, reverse_of]
  have key : ∀ bs, items.mapM (onElement X p env x) = .ok bs ↔ items.reverse.mapM (onElement X p env x) = .ok bs.reverse := by
    intro bs
    rw [mapM_ok_iff, mapM_ok_iff, List.forall₂_reverse_iff]
  intro name hn
  simp only [List.mem_cons, List.not_mem_nil, or_false] at hn
  rcases hn with rfl | rfl
  · have hf := filter_sel (lam := p) (hr c!"FILTER" (by simp)) ha
    rw [filter_sel (hr c!"FILTER" (by simp)) hrev]
    unfold sel at hf ⊢
    cases h : items.mapM (onElement X p env x) with
    | ok bs =>
      rw [h] at hf
      rw [on_ok (by decide) (hr _ (by simp)) hf, reverse_of, (key bs).1 h]
      have hl := ((mapM_ok_iff _ _ _).1 h).length_eq
      simp only [Except.map, select_reverse items bs hl]
    | error f =>
      rw [h] at hf
      have h1 : Eval.eval X (on c!"REVERSE" (each c!"FILTER" a p)) r env = .error f := on_error (by decide) (hr _ (by simp)) hf
      rw [h1]
      cases h2 : items.reverse.mapM (onElement X p env x) with
      | error f' => simp [Except.map]
      | ok bs => have := (key bs.reverse).2 (by rw [List.reverse_reverse]; exact h2); rw [h] at this; exact nomatch this
  · have hf := map_each (lam := p) (hr c!"MAP" (by simp)) ha
    rw [map_each (hr c!"MAP" (by simp)) hrev]
    cases h : items.mapM (onElement X p env x) with
    | ok bs =>
      rw [h] at hf
      rw [on_ok (by decide) (hr _ (by simp)) hf, reverse_of, (key bs).1 h]
      rfl
    | error f =>
      rw [h] at hf
      have h1 : Eval.eval X (on c!"REVERSE" (each c!"MAP" a p)) r env = .error f := on_error (by decide) (hr _ (by simp)) hf
      rw [h1]
      cases h2 : items.reverse.mapM (onElement X p env x) with
      | error f' => simp [Except.map]
      | ok bs => have := (key bs.reverse).2 (by rw [List.reverse_reverse]; exact h2); rw [h] at this; exact nomatch this

/-- **C123.** On arrays without inner arrays, `SUMIF` and `AVGIF` with a lambda are the sum and the average of the filtered array. -/
theorem C123_sumif (X : Ext) (a p : Expr) (r : Option Registry) (env : Env) (items : List Value)
    (hr : NoneOf X r [c!"SUMIF", c!"AVGIF", c!"FILTER", c!"SUM", c!"AVG"]) (ha : Eval.eval X a r env = .ok (.arr items)) (hflat : Flat items)
    (hp : (∃ b, Eval.eval X p r env = .ok (.bool b)) ∨ ∃ m as at_, Eval.eval X p r env = .error (.err m as at_)) :
    Eval.eval X (each c!"SUMIF" a p) r env = Eval.eval X (on c!"SUM" (each c!"FILTER" a p)) r env ∧
    Eval.eval X (each c!"AVGIF" a p) r env = Eval.eval X (on c!"AVG" (each c!"FILTER" a p)) r env := by
  have hf := filter_sel (lam := p) (hr c!"FILTER" (by simp)) ha
  have h1 := C22_sumif_lambda X a p r env items (hr _ (by simp)) ha hp
  have h2 := C22_avgif X a p r env items (hr _ (by simp)) ha
  have hsub := sel_mem (onElement X p env x) items
  unfold sel at hf hsub
  change Eval.eval X (.call c!"SUMIF" [a, p]) r env = _ ∧ Eval.eval X (.call c!"AVGIF" [a, p]) r env = _
  rw [h1, h2]
  change Except.map _ (items.mapM (onElement X p env x)) = _ ∧ Except.map _ (items.mapM (onElement X p env x)) = _
  cases h : items.mapM (onElement X p env x) with
  | error f =>
    rw [h] at hf
    have e1 := on_error (n := c!"SUM") (by decide) (hr _ (by simp)) hf
    have e2 := on_error (n := c!"AVG") (by decide) (hr _ (by simp)) hf
    exact ⟨e1.symm, e2.symm⟩
  | ok bs =>
    rw [h] at hf hsub
    have hl : ∀ v ∈ select items bs, ∀ inner, v ≠ .arr inner := fun v hv => hflat v (hsub _ rfl v hv)
    obtain ⟨c1, c2, -⟩ := C38_aggregates X [.arr (select items bs)] (select items bs) (.single hl)
    rw [fn_eq X _ _ (by decide)] at c1 c2
    rw [on_ok (by decide) (hr _ (by simp)) hf, on_ok (by decide) (hr _ (by simp)) hf, c1, c2]
    exact ⟨rfl, rfl⟩

/-- **C123.** Those that meet a test and those that do not are all: the two counts add up to the length. -/
theorem C123_partition (X : Ext) (a p : Expr) (r : Option Registry) (env : Env) (items : List Value)
    (hr : NoneOf X r [c!"COUNTIF", c!"LENGTH"]) (ha : Eval.eval X a r env = .ok (.arr items)) (hp : IsTest X p env items)
    (hlen : items.length ≤ 2 ^ 53) :
    Eval.eval X (.binary (each c!"COUNTIF" a p) .add (each c!"COUNTIF" a (.unary .not p))) r env = Eval.eval X (on c!"LENGTH" a) r env := by
  choose! ans hans using hp
  have count : ∀ lam (k : Value → Bool), (∀ v ∈ items, onElement X lam env x v = .ok (.bool (k v))) →
      Eval.eval X (each c!"COUNTIF" a lam) r env = .ok (.num (F64.ofNat (items.filter k).length)) := by
    intro lam k hk
    have := sel_bool k _ items hk
    unfold sel at this
    unfold each
    rw [C17_countif X a lam r env items (hr _ (by simp)) ha]
    change Except.map _ (items.mapM (onElement X lam env x)) = _
    cases h : items.mapM (onElement X lam env x) with
    | error f => rw [h] at this; exact nomatch this
    | ok bs =>
      rw [h] at this
      have e : select items bs = items.filter k := Except.ok.inj this
      simp only [Except.map, e]
  have h1 := count p ans hans
  have h2 := count (.unary .not p) (fun v => !ans v) (by
    intro v hv
    have := hans v hv
    unfold onElement evalVars at this ⊢
    simp only [Eval.eval, this, bind, Except.bind, Ops.unary, Value.asBool])
  rw [on_ok (by decide) (hr _ (by simp)) ha, length_of]
  have hsum : (items.filter ans).length + (items.filter fun v => !ans v).length = items.length := by
    clear * -
    induction items with
    | nil => rfl
    | cons v vs ih => simp only [List.filter_cons]; cases ans v <;> simp <;> omega
  simp only [Eval.eval, h1, h2, bind, Except.bind, Ops.binary, Ops.arith, Value.asNumber]
  rw [Client.add_ofNat (by omega), hsum]

/-- **C123.** Mapping keeps the length. -/
theorem C123_map_length (X : Ext) (a f : Expr) (r : Option Registry) (env : Env) (items mapped : List Value)
    (hr : NoneOf X r [c!"MAP"]) (ha : Eval.eval X a r env = .ok (.arr items)) (hm : Eval.eval X (each c!"MAP" a f) r env = .ok (.arr mapped)) :
    mapped.length = items.length := by
  rw [map_each (hr _ (by simp)) ha] at hm
  cases h : items.mapM (onElement X f env x) with
  | error e => rw [h] at hm; exact nomatch hm
  | ok bs => rw [h] at hm; cases hm; exact ((mapM_ok_iff _ _ _).1 h).length_eq.symm

/-- **C123.** An element of the mapped array is the lambda on the element at the same place, whether counted from the front or from the back. -/
theorem C123_map_index (X : Ext) (a f i : Expr) (r : Option Registry) (env : Env) (items mapped : List Value) (v : Value)
    (hr : NoneOf X r [c!"MAP"]) (ha : Eval.eval X a r env = .ok (.arr items)) (hm : Eval.eval X (each c!"MAP" a f) r env = .ok (.arr mapped))
    (hv : Eval.eval X (.index a i) r env = .ok v) :
    Eval.eval X (.index (each c!"MAP" a f) i) r env = onElement X f env x v := by
  have hlen := C123_map_length X a f r env items mapped hr ha hm
  have hmap : List.Forall₂ (fun v b => onElement X f env x v = .ok b) items mapped := by
    have hm' := hm
    rw [map_each (hr _ (by simp)) ha] at hm'
    cases h : items.mapM (onElement X f env x) with
    | error e => rw [h] at hm'; exact nomatch hm'
    | ok bs => rw [h] at hm'; cases hm'; exact (mapM_ok_iff _ _ _).1 h
  simp only [Eval.eval, ha, hm, bind, Except.bind] at hv ⊢
  cases hi : Eval.eval X i r env with
  | error e => rw [hi] at hv; exact nomatch hv
  | ok iv =>
    rw [hi] at hv
    simp only [Legacy.index] at hv ⊢
    cases hn : iv.asNumber with
    | none => rw [hn] at hv; exact nomatch hv
    | some n =>
      rw [hn] at hv
      simp only [indexArray, hlen, bind, Except.bind] at hv ⊢
      cases hc : clampIndex items.length n.toI64 with
      | error e => rw [hc] at hv; exact nomatch hv
      | ok o =>
        rw [hc] at hv
        cases o with
        | none => exact nomatch hv
        | some j =>
          dsimp only at hv ⊢
          cases hj : items[j]? with
          | none => rw [hj] at hv; exact nomatch hv
          | some u =>
            rw [hj] at hv; cases hv
            obtain ⟨hlt, hu⟩ := List.getElem?_eq_some_iff.1 hj
            have hlt' : j < mapped.length := hlen ▸ hlt
            have := hmap.get hlt hlt'
            rw [List.getElem?_eq_getElem hlt']
            simp only [List.get_eq_getElem, hu] at this
            exact this.symm

/-- **C123.** Mapping every element to itself and filtering by TRUE give the array back. -/
theorem C123_identity (X : Ext) (a : Expr) (r : Option Registry) (env : Env) (items : List Value)
    (hr : NoneOf X r [c!"MAP", c!"FILTER"]) (ha : Eval.eval X a r env = .ok (.arr items)) :
    Eval.eval X (each c!"MAP" a (.var x)) r env = Eval.eval X a r env ∧ Eval.eval X (each c!"FILTER" a yes) r env = Eval.eval X a r env := by
  rw [map_each (hr _ (by simp)) ha, filter_sel (hr _ (by simp)) ha, ha]
  constructor
  · rw [mapM_ok_of (k := id) fun v _ => by simp [onElement, evalVars, Eval.eval, Env.insert]]
    simp [Except.map]
  · rw [sel_bool (fun _ => true) _ items fun v _ => by simp [onElement, evalVars, Eval.eval, yes, Eval.call]]
    simp [Except.map]

/-- **C123.** Mapping by one lambda and then by another is mapping once by both. -/
theorem C123_map_map (X : Ext) (a f g : Expr) (r : Option Registry) (env : Env) (items : List Value)
    (hr : NoneOf X r [c!"MAP"]) (ha : Eval.eval X a r env = .ok (.arr items)) (v : Value) :
    Eval.eval X (each c!"MAP" (each c!"MAP" a f) g) r env = .ok v ↔
      Eval.eval X (each c!"MAP" a (on c!"FIRST" (each c!"MAP" (.array [f]) g))) r env = .ok v := by
  have none' : ∀ n, NotCustom X none n := fun n reg h => nomatch h
  have hr := hr c!"MAP" (by simp)
  have both : ∀ u, onElement X (on c!"FIRST" (each c!"MAP" (.array [f]) g)) env x u = (do onElement X g env x (← onElement X f env x u)) := by
    intro u
    unfold onElement evalVars
    cases hf : Eval.eval X f none (env.insert x u) with
    | error e =>
      have h1 : Eval.eval X (.array [f]) none (env.insert x u) = .error e := by
        simp only [Eval.eval, Eval.argsOf_eq, List.map_cons, List.map_nil, elements, Eval.argOf_run, hf, bind, Except.bind]
      have h2 : Eval.eval X (each c!"MAP" (.array [f]) g) none (env.insert x u) = .error e := by
        unfold each
        rw [call_higherOrder X _ _ none _ Eval.map (by decide) (by rfl) (none' _)]
        simp only [List.map_cons, List.map_nil, Eval.map, Eval.argOf_run, h1, bind, Except.bind]
      have h3 : Eval.eval X (on c!"FIRST" (each c!"MAP" (.array [f]) g)) none (env.insert x u) = .error e := on_error (by decide) (none' _) h2
      rw [h3]
      rfl
    | ok w =>
      have h1 : Eval.eval X (.array [f]) none (env.insert x u) = .ok (.arr [w]) := by
        simp only [Eval.eval, Eval.argsOf_eq, List.map_cons, List.map_nil, elements, Eval.argOf_run, hf, bind, Except.bind, pure, Except.pure]
      have h2 := map_each (lam := g) (none' _) h1
      simp only [List.mapM_cons, List.mapM_nil, onElement, evalVars, Env.insert_same] at h2
      cases hg : Eval.eval X g none (env.insert x w) with
      | error e =>
        rw [hg] at h2
        have h3 : Eval.eval X (on c!"FIRST" (each c!"MAP" (.array [f]) g)) none (env.insert x u) = .error e := on_error (by decide) (none' _) h2
        rw [h3]
        simp only [bind, Except.bind, hg]
      | ok z =>
        rw [hg] at h2
        rw [on_ok (by decide) (none' _) h2]
        simp only [bind, Except.bind, hg]
        rfl
  have hm := map_each (lam := f) hr ha
  rw [map_each hr ha]
  cases h : items.mapM (onElement X f env x) with
  | ok mapped =>
    rw [h] at hm
    rw [map_each hr hm, mapM_mapM (k := onElement X (on c!"FIRST" (each c!"MAP" (.array [f]) g)) env x) h fun u w _ hu => by rw [both, hu]; rfl]
  | error e =>
    rw [h] at hm
    have h1 : Eval.eval X (each c!"MAP" (each c!"MAP" a f) g) r env = .error e := by
      unfold each at hm ⊢
      rw [call_higherOrder X _ _ r env Eval.map (by decide) (by rfl) hr]
      simp only [List.map_cons, List.map_nil, Eval.map, Eval.argOf_run, hm, bind, Except.bind, Except.map]
    rw [h1]
    constructor
    · intro h2; exact nomatch h2
    · intro h2
      exfalso
      cases h3 : items.mapM (onElement X (on c!"FIRST" (each c!"MAP" (.array [f]) g)) env x) with
      | error e' => rw [h3] at h2; exact nomatch h2
      | ok zs =>
        have h4 := (mapM_ok_iff _ _ _).1 h3
        have : ∃ ws, List.Forall₂ (fun u w => onElement X f env x u = .ok w) items ws := by
          clear * - h4 both
          induction h4 with
          | nil => exact ⟨[], .nil⟩
          | @cons u z us zs h1 _ ih =>
            obtain ⟨ws, hw⟩ := ih
            rw [both] at h1
            cases hu : onElement X f env x u with
            | error e => rw [hu] at h1; exact nomatch h1
            | ok w => exact ⟨w :: ws, .cons hu hw⟩
        obtain ⟨ws, hw⟩ := this
        rw [(mapM_ok_iff _ _ _).2 hw] at h
        exact nomatch h

/-- **C123.** On numbers, adding up and multiplying with `REDUCE` is `SUM` and `PRODUCT`. -/
theorem C123_reduce (X : Ext) (a : Expr) (r : Option Registry) (env : Env) (xs : List F64)
    (hr : NoneOf X r [c!"REDUCE", c!"SUM", c!"PRODUCT"]) (ha : Eval.eval X a r env = .ok (.arr (xs.map .num))) :
    Eval.eval X (.call c!"REDUCE" [a, .binary (.var c!"acc") .add (.var c!"x"), .number (.zero false)]) r env = Eval.eval X (on c!"SUM" a) r env ∧
    Eval.eval X (.call c!"REDUCE" [a, .binary (.var c!"acc") .mul (.var c!"x"), .number (.fin 1)]) r env = Eval.eval X (on c!"PRODUCT" a) r env := by
  rw [on_ok (by decide) (hr _ (by simp)) ha, on_ok (by decide) (hr _ (by simp)) ha,
    C17_reduce X a _ _ [] c!"x" c!"acc" r env _ (.num (.zero false)) (hr _ (by simp)) ha (by rw [Eval.eval]) rfl rfl,
    C17_reduce X a _ _ [] c!"x" c!"acc" r env _ (.num (.fin 1)) (hr _ (by simp)) ha (by rw [Eval.eval]) rfl rfl]
  have hx : ∀ v w : Value, ((env.insert c!"x" v).insert c!"acc" w) c!"x" = some v := by intro v w; simp [Env.insert]
  have hacc : ∀ v w : Value, ((env.insert c!"x" v).insert c!"acc" w) c!"acc" = some w := by intro v w; simp [Env.insert]
  clear ha
  constructor
  · have step : ∀ s y : F64, evalVars X (.binary (.var c!"acc") .add (.var c!"x")) ((env.insert c!"x" (.num y)).insert c!"acc" (.num s)) = .ok (.num (F64.add s y)) := by
      intro s y
      simp only [evalVars, Eval.eval, hx, hacc, bind, Except.bind, Ops.binary, Ops.arith, Value.asNumber]
    change _ = Except.ok (Value.num (Arith.sumValues (.zero false) [.arr (xs.map .num)]))
    simp only [Arith.sumValues, Arith.sumValue]
    generalize F64.zero false = s
    induction xs generalizing s with
    | nil => rfl
    | cons y ys ih =>
      rw [List.map_cons, List.foldlM_cons, step]
      simp only [bind, Except.bind, Arith.sumValues, Arith.sumValue]
      exact ih _
  · have step : ∀ s y : F64, evalVars X (.binary (.var c!"acc") .mul (.var c!"x")) ((env.insert c!"x" (.num y)).insert c!"acc" (.num s)) = .ok (.num (F64.mul s y)) := by
      intro s y
      simp only [evalVars, Eval.eval, hx, hacc, bind, Except.bind, Ops.binary, Ops.arith, Value.asNumber]
    change _ = Except.ok (Value.num (Arith.mulValues (.fin 1) [.arr (xs.map .num)]))
    simp only [Arith.mulValues, Arith.mulValue]
    generalize F64.fin 1 = s
    induction xs generalizing s with
    | nil => rfl
    | cons y ys ih =>
      rw [List.map_cons, List.foldlM_cons, step]
      simp only [bind, Except.bind, Arith.mulValues, Arith.mulValue]
      exact ih _

/-! ### Cases -/

/-- The numbers as an array. -/
def numbers (ns : List Nat) : Expr := .array (ns.map fun n => .number (F64.ofNat n))

/-- `:x > n`. -/
def above (n : Nat) : Expr := .binary (.var x) .gt (.number (F64.ofNat n))

/-- Cases of the conditions: an array, a test, and a criterion without a value outside. -/
example (X : Ext) (env : Env) (r : Option Registry) : Eval.eval X (numbers [5, 1, 7]) r env = .ok (.arr ([5, 1, 7].map fun n => .num (F64.ofNat n))) := by
  simp only [numbers, List.map_cons, List.map_nil, Eval.eval, Eval.argsOf, elements, bind, Except.bind, pure, Except.pure]

example (X : Ext) (env : Env) : IsTest X (above 3) env ([5, 1, 7].map fun n => .num (F64.ofNat n)) := by
  intro v hv
  simp only [List.map_cons, List.map_nil, List.mem_cons, List.not_mem_nil, or_false] at hv
  rcases hv with rfl | rfl | rfl <;>
    simp [onElement, evalVars, Eval.eval, above, x, Env.insert, bind, Except.bind, Ops.binary, Ops.compare]

example (X : Ext) : evalVars X (above 3) Env.empty = fail "Missing variable: :{}" [c!"x"] := by kernel_rfl

example (X : Ext) (reg : Registry) (h : ∀ n ∈ [c!"COUNTIF", c!"FILTER", c!"LENGTH"], reg.has X n = false) :
    NoneOf X (some reg) [c!"COUNTIF", c!"FILTER", c!"LENGTH"] := by
  intro n hn reg' h'; cases h'; exact h n hn

/-- Both sides of the laws on a case. -/
example (X : Ext) :
    evalVars X (each c!"COUNTIF" (numbers [5, 1, 7]) (above 3)) Env.empty = .ok (.num (F64.ofNat 2)) ∧
    evalVars X (each c!"FIND" (numbers [1, 5, 7]) (above 3)) Env.empty = .ok (.num (F64.ofNat 5)) ∧
    evalVars X (each c!"FILTER" (numbers [5, 1, 7]) (choose (above 3) (above 5) no)) Env.empty = .ok (.arr [.num (F64.ofNat 7)]) ∧
    evalVars X (on c!"SUM" (each c!"FILTER" (numbers [5, 1, 7]) (above 3))) Env.empty = .ok (.num (F64.ofNat 12)) ∧
    evalVars X (each c!"MAP" (numbers [5, 1]) (on c!"FIRST" (each c!"MAP" (.array [.binary (.var x) .add (.number (.fin 1))]) (.binary (.var x) .mul (.var x))))) Env.empty
      = .ok (.arr [.num (F64.ofNat 36), .num (F64.ofNat 4)]) := by
  refine ⟨?_, ?_, ?_, ?_, ?_⟩ <;> kernel_rfl

/-- **C123: what the conditions are for.** `SUMIF` leaves out inner arrays, which `SUM` enters; `FIND` stops before an element on which the test fails, `FILTER`
does not; and when two lambdas fail on different elements, mapping twice and mapping once report different failures. -/
theorem C123_conditions (X : Ext) :
    (evalVars X (each c!"SUMIF" (.array [.array [.number (.fin 1)]]) yes) Env.empty = .ok (.num (.zero false)) ∧
      evalVars X (on c!"SUM" (each c!"FILTER" (.array [.array [.number (.fin 1)]]) yes)) Env.empty = .ok (.num (.fin 1))) ∧
    (evalVars X (each c!"FIND" (.array [.number (.fin 5), .null]) (above 3)) Env.empty = .ok (.num (.fin 5)) ∧
      evalVars X (each c!"FILTER" (.array [.number (.fin 5), .null]) (above 3)) Env.empty = fail "Comparison of incompatible types") ∧
    (evalVars X (each c!"MAP" (each c!"MAP" (.array [.number (.fin 1), .null]) (choose (.binary (.var x) .eq (.number (.fin 1))) (.strLit c!"a") (.unary .minus (.var x))))
        (.unary .not (.var x))) Env.empty = fail "Unary '-' on non-number" ∧
      evalVars X (each c!"MAP" (.array [.number (.fin 1), .null]) (on c!"FIRST" (each c!"MAP" (.array [choose (.binary (.var x) .eq (.number (.fin 1))) (.strLit c!"a") (.unary .minus (.var x))])
        (.unary .not (.var x))))) Env.empty = fail "Unary '!' on non-boolean") := by
  refine ⟨⟨?_, ?_⟩, ⟨?_, ?_⟩, ?_, ?_⟩ <;> kernel_rfl

end Laws
