import Verif.Props.Logic
import Verif.Props.Identities
/-! C153: calls of the logical functions can be rewritten by the laws of logic. -/

namespace LogicLaws

open _root_.Spec

namespace Spec

/-- `F(a, b, ...)` where the arguments are given by what they are worth. -/
def app (X : Ext) (f : Str) (as : List (Res Value)) : Res Value := do
  let vs ← as.mapM id
  fn X f vs

/-- `AND(a, b, ...)`. -/
abbrev and (X : Ext) (as : List (Res Value)) : Res Value := app X c!"AND" as
/-- `OR(a, b, ...)`. -/
abbrev or (X : Ext) (as : List (Res Value)) : Res Value := app X c!"OR" as
/-- `XOR(a, b)`. -/
abbrev xor (X : Ext) (a b : Res Value) : Res Value := app X c!"XOR" [a, b]
/-- `NOT(a)`. -/
abbrev not (X : Ext) (a : Res Value) : Res Value := app X c!"NOT" [a]
/-- `IF(c, a, b)`. -/
abbrev ite (X : Ext) (c a b : Res Value) : Res Value := app X c!"IF" [c, a, b]
/-- `IFS(c, a, d, b, ...)`. -/
abbrev ifs (X : Ext) (ps : List (Res Value × Res Value)) : Res Value := app X c!"IFS" (ps.flatMap fun p => [p.1, p.2])
/-- `TRUE`. -/
abbrev yes : Res Value := .ok (.bool true)
/-- `FALSE`. -/
abbrev no : Res Value := .ok (.bool false)
/-- Values as arguments. -/
abbrev vals (vs : List Value) : List (Res Value) := vs.map .ok

end Spec

open Spec

theorem mapM_ok {α : Type} (g : α → Value) (l : List α) : (l.map fun x => (.ok (g x) : Res Value)).mapM id = .ok (l.map g) := by
  induction l with
  | nil => rfl
  | cons x l ih => rw [List.map_cons, List.mapM_cons, ih]; rfl

theorem app_map {α : Type} (X : Ext) (f : Str) (g : α → Value) (l : List α) : app X f (l.map fun x => .ok (g x)) = fn X f (l.map g) := by
  rw [app, mapM_ok]; rfl

theorem app_vals (X : Ext) (f : Str) (vs : List Value) : app X f (vals vs) = fn X f vs := by
  have := app_map X f id vs
  simpa using this

theorem app1 (X : Ext) (f : Str) (a : Value) : app X f [.ok a] = fn X f [a] := rfl
theorem app2 (X : Ext) (f : Str) (a b : Value) : app X f [.ok a, .ok b] = fn X f [a, b] := rfl
theorem app3 (X : Ext) (f : Str) (a b c : Value) : app X f [.ok a, .ok b, .ok c] = fn X f [a, b, c] := rfl

theorem app_cons (X : Ext) (f : Str) (v : Value) (vs : List Value) : app X f (.ok v :: vals vs) = fn X f (v :: vs) := app_vals X f (v :: vs)

theorem and_eq (X : Ext) (vs : List Value) : fn X c!"AND" vs = .ok (.bool (vs.all Logic.truthy)) := by
  refine answers_eq (C36_and X vs) ⟨_, rfl, ?_⟩
  simp [truthy_iff]

theorem or_eq (X : Ext) (vs : List Value) : fn X c!"OR" vs = .ok (.bool (vs.any Logic.truthy)) := by
  refine answers_eq (C36_or X vs) ⟨_, rfl, ?_⟩
  simp [truthy_iff]

theorem not_eq (X : Ext) (v : Value) : fn X c!"NOT" [v] = .ok (.bool (!Logic.truthy v)) := by
  refine answers_eq (C36_not X v) ⟨_, rfl, ?_⟩
  rw [← truthy_iff]; simp

theorem xor_eq (X : Ext) (v w : Value) : fn X c!"XOR" [v, w] = .ok (.bool (Logic.truthy v != Logic.truthy w)) := by
  refine answers_eq (C36_xor_partial X v w) ⟨_, rfl, ?_⟩
  rw [← truthy_iff, ← truthy_iff]; cases Logic.truthy v <;> cases Logic.truthy w <;> simp

theorem if_eq (X : Ext) (c a b : Value) : fn X c!"IF" [c, a, b] = .ok (if Logic.truthy c then a else b) := by
  obtain ⟨h1, h2⟩ := C36_if X c a b
  by_cases h : Holds c
  · rw [(h1 h).1, (truthy_iff c).2 h]; rfl
  · have : Logic.truthy c = false := by rw [← truthy_iff] at h; simpa using h
    rw [(h2 h).1, this]; rfl

theorem truthy_bool (b : Bool) : Logic.truthy (.bool b) = b := rfl

/-- **C153.** For `AND` and `OR` it does not matter how often an argument is given, in which order, and how the arguments are grouped. -/
theorem C153_groups (X : Ext) (vs ws : List Value) (gs : List (List Value)) :
    ((∀ v, v ∈ vs ↔ v ∈ ws) → and X (vals vs) = and X (vals ws) ∧ or X (vals vs) = or X (vals ws)) ∧
    and X (gs.map fun g => and X (vals g)) = and X (vals gs.flatten) ∧
    or X (gs.map fun g => or X (vals g)) = or X (vals gs.flatten) := by
  refine ⟨fun h => ?_, ?_, ?_⟩
  · simp only [app_vals, and_eq, or_eq]
    refine ⟨congrArg _ (congrArg _ ?_), congrArg _ (congrArg _ ?_)⟩ <;> rw [Bool.eq_iff_iff] <;> simp [h]
  · simp only [app_vals, and_eq, app_map, List.all_map, List.all_flatten]; rfl
  · simp only [app_vals, or_eq, app_map, List.any_map, List.any_flatten]; rfl

/-- **C153.** `AND` distributes over `OR` and the other way round, each absorbs the other, and the negation of one is the other of the negations. -/
theorem C153_lattice (X : Ext) (a : Value) (vs : List Value) :
    and X [.ok a, or X (vals vs)] = or X (vs.map fun v => and X [.ok a, .ok v]) ∧
    or X [.ok a, and X (vals vs)] = and X (vs.map fun v => or X [.ok a, .ok v]) ∧
    (a ∈ vs → and X [.ok a, or X (vals vs)] = and X [.ok a] ∧ or X [.ok a, and X (vals vs)] = or X [.ok a]) ∧
    not X (and X (vals vs)) = or X (vs.map fun v => not X (.ok v)) ∧
    not X (or X (vals vs)) = and X (vs.map fun v => not X (.ok v)) := by
  have d1 : ∀ (p : Bool) (l : List Value), (p && l.any Logic.truthy) = l.any fun v => p && Logic.truthy v := by
    intro p l; cases p <;> simp
  have d2 : ∀ (p : Bool) (l : List Value), (p || l.all Logic.truthy) = l.all fun v => p || Logic.truthy v := by
    intro p l; cases p <;> simp
  refine ⟨?_, ?_, fun h => ⟨?_, ?_⟩, ?_, ?_⟩
  · simp only [app_vals, app2, or_eq, and_eq, app_map, List.any_map, List.all_cons, List.all_nil, Bool.and_true, truthy_bool, d1]; rfl
  · simp only [app_vals, app2, or_eq, and_eq, app_map, List.all_map, List.any_cons, List.any_nil, Bool.or_false, truthy_bool, d2]; rfl
  · simp only [app_vals, app1, app2, or_eq, and_eq, List.all_cons, List.all_nil, Bool.and_true, truthy_bool]
    refine congrArg _ (congrArg _ ?_)
    cases ha : Logic.truthy a with
    | false => rfl
    | true => simpa using ⟨a, h, ha⟩
  · simp only [app_vals, app1, app2, or_eq, and_eq, List.any_cons, List.any_nil, Bool.or_false, truthy_bool]
    refine congrArg _ (congrArg _ ?_)
    cases ha : Logic.truthy a with
    | true => rfl
    | false => simpa using ⟨a, h, ha⟩
  · simp only [app_vals, app1, or_eq, and_eq, not_eq, app_map, List.any_map, truthy_bool, List.not_all_eq_any_not]; rfl
  · simp only [app_vals, app1, or_eq, and_eq, not_eq, app_map, List.all_map, truthy_bool, List.not_any_eq_all_not]; rfl

/-- **C153.** One argument, no argument, a value and its negation. -/
theorem C153_units (X : Ext) (a : Value) (vs : List Value) :
    and X [] = yes ∧ or X [] = no ∧ and X [.ok a] = or X [.ok a] ∧ not X (not X (.ok a)) = and X [.ok a] ∧ not X (and X [.ok a]) = not X (.ok a) ∧
    and X [.ok a, not X (.ok a)] = no ∧ or X [.ok a, not X (.ok a)] = yes ∧ and X (yes :: vals vs) = and X (vals vs) ∧ or X (no :: vals vs) = or X (vals vs) ∧
    and X (no :: vals vs) = no ∧ or X (yes :: vals vs) = yes ∧ (∀ b : Bool, and X [.ok (.bool b)] = .ok (.bool b)) := by
  simp only [app_vals, app_cons, app1, not_eq, app2, truthy_bool, and_eq, or_eq, List.all_cons, List.all_nil, List.any_cons, List.any_nil, Bool.and_true, Bool.or_false, Bool.not_not,
    Bool.and_not_self, Bool.or_not_self, Bool.true_and, Bool.false_or, Bool.false_and, Bool.true_or, implies_true, and_true]
  have e1 := app_vals X c!"AND" []
  have e2 := app_vals X c!"OR" []
  rw [and_eq] at e1
  rw [or_eq] at e2
  exact ⟨e1, e2⟩

/-- **C153.** `XOR`: order and grouping do not matter, one negation outside is one inside, `AND` distributes over it, and it can be written with `AND`, `OR` and `NOT`. -/
theorem C153_xor (X : Ext) (a b c : Value) :
    xor X (.ok a) (.ok b) = xor X (.ok b) (.ok a) ∧
    xor X (xor X (.ok a) (.ok b)) (.ok c) = xor X (.ok a) (xor X (.ok b) (.ok c)) ∧
    xor X (not X (.ok a)) (.ok b) = not X (xor X (.ok a) (.ok b)) ∧
    xor X (.ok a) (.ok a) = no ∧ xor X (.ok a) yes = not X (.ok a) ∧ xor X (.ok a) no = and X [.ok a] ∧
    and X [.ok a, xor X (.ok b) (.ok c)] = xor X (and X [.ok a, .ok b]) (and X [.ok a, .ok c]) ∧
    xor X (.ok a) (.ok b) = or X [and X [.ok a, not X (.ok b)], and X [not X (.ok a), .ok b]] ∧
    xor X (.ok a) (.ok b) = and X [or X [.ok a, .ok b], not X (and X [.ok a, .ok b])] := by
  simp only [app1, not_eq, app2, xor_eq, truthy_bool, and_eq, or_eq, List.all_cons, List.all_nil, List.any_cons, List.any_nil, Bool.and_true, Bool.or_false]
  generalize Logic.truthy a = p
  generalize Logic.truthy b = q
  generalize Logic.truthy c = r
  cases p <;> cases q <;> cases r <;> exact ⟨rfl, rfl, rfl, rfl, rfl, rfl, rfl, rfl, rfl⟩

/-- **C153.** Choices: a condition may be negated, combined, or be a choice itself; and `AND`, `OR`, `NOT` are choices. -/
theorem C153_choice (X : Ext) (c d e a b : Value) :
    ite X (not X (.ok c)) (.ok a) (.ok b) = ite X (.ok c) (.ok b) (.ok a) ∧
    ite X (.ok c) (.ok a) (.ok a) = .ok a ∧
    ite X (ite X (.ok c) (.ok d) (.ok e)) (.ok a) (.ok b) = ite X (.ok c) (ite X (.ok d) (.ok a) (.ok b)) (ite X (.ok e) (.ok a) (.ok b)) ∧
    ite X (and X [.ok c, .ok d]) (.ok a) (.ok b) = ite X (.ok c) (ite X (.ok d) (.ok a) (.ok b)) (.ok b) ∧
    ite X (or X [.ok c, .ok d]) (.ok a) (.ok b) = ite X (.ok c) (.ok a) (ite X (.ok d) (.ok a) (.ok b)) ∧
    ite X (xor X (.ok c) (.ok d)) (.ok a) (.ok b) = ite X (.ok c) (ite X (.ok d) (.ok b) (.ok a)) (ite X (.ok d) (.ok a) (.ok b)) ∧
    ite X (.ok c) (ite X (.ok c) (.ok a) (.ok d)) (.ok b) = ite X (.ok c) (.ok a) (.ok b) ∧
    ite X (.ok c) (.ok a) (ite X (.ok c) (.ok d) (.ok b)) = ite X (.ok c) (.ok a) (.ok b) ∧
    ite X (.ok c) yes no = and X [.ok c] ∧ ite X (.ok c) no yes = not X (.ok c) ∧
    app X c!"IF" [.ok c, .ok a] = ite X (.ok c) (.ok a) no := by
  have h2 : fn X c!"IF" [c, a] = .ok (if Logic.truthy c then a else .bool false) := by rw [fn_eq X _ _ (by decide)]; rfl
  simp only [app1, not_eq, app2, app3, xor_eq, if_eq, truthy_bool, and_eq, or_eq, List.all_cons, List.all_nil, List.any_cons, List.any_nil, Bool.and_true, Bool.or_false, h2]
  cases hc : Logic.truthy c <;> cases hd : Logic.truthy d <;> cases he : Logic.truthy e <;> simp [hd, he]

theorem ifs_eq (X : Ext) (ps : List (Value × Value)) : fn X c!"IFS" (ps.flatMap fun p => [p.1, p.2]) = .ok (((ps.find? fun p => Logic.truthy p.1).map (·.2)).getD (.bool false)) := by
  obtain ⟨h1, h2⟩ := C36_ifs X ps
  cases hf : ps.find? fun p => Logic.truthy p.1 with
  | none =>
    rw [List.find?_eq_none] at hf
    exact h2 fun p hp => by rw [← truthy_iff]; exact hf p hp
  | some p =>
    rw [List.find?_eq_some_iff_append] at hf
    obtain ⟨hp, pre, post, e, hpre⟩ := hf
    exact h1 pre p.1 p.2 post e (fun q hq => by rw [← truthy_iff]; simpa using hpre q hq) ((truthy_iff _).1 hp)

theorem ifs_vals (X : Ext) (ps : List (Value × Value)) : ifs X (ps.map fun p => (.ok p.1, .ok p.2)) = fn X c!"IFS" (ps.flatMap fun p => [p.1, p.2]) := by
  rw [ifs, List.flatMap_map, ← app_vals, vals, List.map_flatMap]; rfl

/-- **C153.** `IFS` is the choices one after the other: rules can be split off at the front, a condition asked before is never asked again, and rules that give the same can
be exchanged. -/
theorem C153_ifs (X : Ext) (c a b : Value) (d : Value) (ps qs : List (Value × Value)) :
    ifs X [] = no ∧
    ifs X ((.ok c, .ok a) :: ps.map fun p => (.ok p.1, .ok p.2)) = ite X (.ok c) (.ok a) (ifs X (ps.map fun p => (.ok p.1, .ok p.2))) ∧
    ifs X ((.ok c, .ok a) :: (ps ++ (c, b) :: qs).map fun p => (.ok p.1, .ok p.2)) = ifs X ((.ok c, .ok a) :: (ps ++ qs).map fun p => (.ok p.1, .ok p.2)) ∧
    ifs X ((.ok c, .ok a) :: (.ok d, .ok a) :: ps.map fun p => (.ok p.1, .ok p.2)) = ifs X ((or X [.ok c, .ok d], .ok a) :: ps.map fun p => (.ok p.1, .ok p.2)) := by
  have h : ∀ (c a : Value) (ps : List (Value × Value)), ifs X ((.ok c, .ok a) :: ps.map fun p => (.ok p.1, .ok p.2)) =
      .ok (if Logic.truthy c then a else ((ps.find? fun p => Logic.truthy p.1).map (·.2)).getD (.bool false)) := by
    intro c a ps
    have := ifs_vals X ((c, a) :: ps)
    rw [ifs_eq, List.find?_cons] at this
    rw [← List.map_cons (f := fun p : Value × Value => ((.ok p.1 : Res Value), (.ok p.2 : Res Value))) (a := (c, a))]
    rw [this]
    cases Logic.truthy c <;> rfl
  refine ⟨?_, ?_, ?_, ?_⟩
  · have := ifs_vals X []
    rw [ifs_eq] at this
    exact this
  · rw [h, ifs_vals, ifs_eq, Spec.ite, app3, if_eq]
  · rw [h, h]
    cases hc : Logic.truthy c with
    | true => rfl
    | false => simp [List.find?_append, hc]
  · rw [Spec.or, app2, or_eq, h]
    have := h c a ((d, a) :: ps)
    rw [List.map_cons] at this
    rw [this]
    simp only [List.find?_cons, truthy_bool, List.any_cons, List.any_nil, Bool.or_false]
    cases Logic.truthy c <;> cases Logic.truthy d <;> rfl

/-- **C153.** On truth values the functions do what the operators do, and `IF` what `? :` does when both branches can be evaluated. -/
theorem C153_operators (X : Ext) (r : Option Registry) (env : Env) (a b c d : Expr) (ha : Identities.Spec.Truth X r env a) (hb : Identities.Spec.Truth X r env b)
    (hc : ∃ v, Eval.eval X c r env = .ok v) (hd : ∃ v, Eval.eval X d r env = .ok v) (hr : ∀ f ∈ [c!"AND", c!"OR", c!"NOT", c!"XOR", c!"IF"], NotCustom X r f)
    (hs : ∀ e ∈ [a, b, c, d], ∀ e', e ≠ .spread e') :
    Identities.Spec.Rewrites X r env (.call c!"AND" [a, b]) (Identities.Spec.both a b) ∧
    Identities.Spec.Rewrites X r env (.call c!"OR" [a, b]) (Identities.Spec.either a b) ∧
    Identities.Spec.Rewrites X r env (.call c!"NOT" [a]) (Identities.Spec.opposite a) ∧
    Identities.Spec.Rewrites X r env (.call c!"XOR" [a, b]) (.binary a .ne b) ∧
    Identities.Spec.Rewrites X r env (.call c!"IF" [a, c, d]) (_root_.Laws.Spec.choose a c d) := by
  obtain ⟨x, hx⟩ := ha
  obtain ⟨y, hy⟩ := hb
  obtain ⟨v, hv⟩ := hc
  obtain ⟨w, hw⟩ := hd
  have sa : ∀ e', a ≠ .spread e' := hs a (by simp)
  have sb : ∀ e', b ≠ .spread e' := hs b (by simp)
  have sc : ∀ e', c ≠ .spread e' := hs c (by simp)
  have sd : ∀ e', d ≠ .spread e' := hs d (by simp)
  have one : Args X r env [a] [.bool x] := .plain sa hx .nil
  have two : Args X r env [a, b] [.bool x, .bool y] := .plain sa hx (.plain sb hy .nil)
  have three : Args X r env [a, c, d] [.bool x, v, w] := .plain sa hx (.plain sc hv (.plain sd hw .nil))
  unfold Identities.Spec.Rewrites
  rw [call_eq_fn X _ r env _ _ (by decide) (hr _ (by simp)) two, call_eq_fn X _ r env _ _ (by decide) (hr _ (by simp)) two,
    call_eq_fn X _ r env _ _ (by decide) (hr _ (by simp)) one, call_eq_fn X _ r env _ _ (by decide) (hr _ (by simp)) two,
    call_eq_fn X _ r env _ _ (by decide) (hr _ (by simp)) three, and_eq, or_eq, not_eq, xor_eq, if_eq]
  simp only [Identities.choose_eval, Identities.Spec.both, Identities.Spec.either, Identities.Spec.opposite, Eval.eval, hx, hy, hv, hw, bind, Except.bind, Ops.unary, Ops.binary,
    Value.asBool, truthy_bool]
  cases x <;> cases y <;> simp [Logic.truthy] <;> rfl

/-- **C153.** What does not hold: a text is neither true nor does `AND` of it give it back, and `XOR` does not take three arguments. -/
theorem C153_not_laws (X : Ext) : and X [.ok (.num (F64.ofInt 2))] = yes ∧ and X [.ok (.str c!"TRUE")] = no ∧ or X [.ok (.str c!"a")] = no ∧
    app X c!"XOR" [yes, no, no] = fail "XOR expects 2 arguments" := by
  refine ⟨?_, ?_, ?_, ?_⟩ <;> kernel_rfl

example (X : Ext) : and X [.ok (.num (F64.ofInt 2)), not X (.ok (.num (F64.ofInt 0))), or X [no, .ok (.str c!"a"), yes]] = yes := by kernel_rfl
example : (∀ v, v ∈ [Value.bool true, .bool false, .bool true] ↔ v ∈ [Value.bool false, .bool true]) ∧ Value.bool true ∈ [Value.bool false, .bool true] := by
  constructor
  · intro v; simp only [List.mem_cons, List.not_mem_nil, or_false]; tauto
  · simp

/-- The hypotheses of `C153_operators` are met: `:a`, `:b` true and false, numbers the branches. -/
example (X : Ext) : let env := (Env.empty.insert c!"a" (.bool true)).insert c!"b" (.bool false)
    Identities.Spec.Truth X none env (.var c!"a") ∧ Identities.Spec.Truth X none env (.var c!"b") ∧ (∃ v, Eval.eval X (.number (.fin 1)) none env = .ok v) ∧
      (∀ f, NotCustom X none f) ∧ ∀ e ∈ [Expr.var c!"a", .var c!"b", .number (.fin 1), .number (.fin 2)], ∀ e', e ≠ .spread e' := by
  refine ⟨⟨true, by simp [Eval.eval, Env.insert]⟩, ⟨false, by simp [Eval.eval, Env.insert]⟩, ⟨.num (.fin 1), by simp [Eval.eval]⟩, by intro f reg h; simp at h, ?_⟩
  intro e he e' h
  subst h
  simp at he

end LogicLaws
