import Verif.Spec.Live
import Verif.Model.Live
import Verif.Props.Registration
/-! An evaluation while functions are being registered, compared with an evaluation with one registry. -/

namespace Live

open Live.Spec _root_.Spec

/-- What is fixed in a comparison: the registries found, the one to compare with, and the functions whose calls are counted. -/
structure Ctx where
  X : Ext
  sched : Nat → Registry
  r : Registry
  ns : List Str

variable {C : Ctx}

/-- The computation gives `ρ` if all that it finds agrees with `r`, and finds at most `t` things about the functions that are counted, if `t` is at most one. -/
def Rel (C : Ctx) (t : Nat) {α : Type} (m : Fx.M Run α) (ρ : Res α) : Prop :=
  ∀ s, ∃ new, (m s).1.seen = s.seen ++ new ∧ (s.reads ≤ (m s).1.reads ∧ ∀ p ∈ new, p.at < (m s).1.reads) ∧ (t ≤ 1 → (new.filter (concerns C.X C.ns)).length ≤ t) ∧ ((∀ p ∈ new, Agrees C.X C.sched C.r p) → (m s).2 = ρ)

theorem Rel.lift {t : Nat} {α : Type} {ρ : Res α} : Rel C t (Fx.lift ρ) ρ := fun _ => ⟨[], by simp [Fx.lift], by simp [Fx.lift], by simp, fun _ => rfl⟩

theorem Rel.of_eq {t : Nat} {α : Type} {m : Fx.M Run α} {ρ : Res α} (h : m = Fx.lift ρ) : Rel C t m ρ := h ▸ Rel.lift

theorem Rel.bind {n k t : Nat} {α β : Type} {m : Fx.M Run α} {ρ : Res α} {f : α → Fx.M Run β} {g : α → Res β} (h1 : Rel C n m ρ) (h2 : ∀ v, Rel C k (f v) (g v))
    (hw : t ≤ 1 → n + k ≤ t) : Rel C t (m >>= f) (ρ >>= g) := by
  intro s
  obtain ⟨new, a1, a0, a2, a3⟩ := h1 s
  rcases hm : m s with ⟨s', v | v⟩
  · rw [hm] at a1 a3 a0
    rw [show (m >>= f) s = (s', .error v) by simp only [Bind.bind, hm]]
    refine ⟨new, a1, a0, fun ht => ?_, fun hp => ?_⟩
    · have := a2 (by have := hw ht; omega); have := hw ht; omega
    · rw [← a3 hp]; rfl
  · rw [hm] at a1 a3 a0
    rw [show (m >>= f) s = f v s' by simp only [Bind.bind, hm]]
    obtain ⟨new', b1, b0, b2, b3⟩ := h2 v s'
    refine ⟨new ++ new', by rw [← List.append_assoc, ← a1]; exact b1, ⟨Nat.le_trans a0.1 b0.1, fun p hp => ?_⟩, fun ht => ?_, fun hp => ?_⟩
    · rcases List.mem_append.1 hp with hp | hp
      · exact Nat.lt_of_lt_of_le (a0.2 p hp) b0.1
      · exact b0.2 p hp
    · have := hw ht
      have := a2 (by omega); have := b2 (by omega)
      rw [List.filter_append, List.length_append]; omega
    · rw [← a3 fun p h => hp p (by simp [h])]
      exact b3 fun p h => hp p (by simp [h])

theorem Rel.loose {n t : Nat} {α : Type} {m : Fx.M Run α} {ρ : Res α} (h : Rel C n m ρ) (hw : t ≤ 1 → n ≤ t) : Rel C t m ρ := by
  intro s
  obtain ⟨new, a1, a0, a2, a3⟩ := h s
  exact ⟨new, a1, a0, fun ht => Nat.le_trans (a2 (by have := hw ht; omega)) (hw ht), a3⟩

theorem Rel.then_ {n t : Nat} {α β : Type} {m : Fx.M Run α} {ρ : Res α} {f : α → Fx.M Run β} {g : α → Res β} (h1 : Rel C n m ρ) (h2 : ∀ v, f v = Fx.lift (g v))
    (hw : t ≤ 1 → n ≤ t) : Rel C t (m >>= f) (ρ >>= g) :=
  Rel.bind h1 (k := 0) (fun v => Rel.of_eq (h2 v)) (by simpa using hw)

theorem look_rel {w t : Nat} {n : Str} {es : List Expr} {custom : Registry → Res Value} {builtin : Fx.M Run Value} {ρ ρ' : Res Value}
    (hc : ∀ k, (C.sched k).has C.X n → (∀ m ∈ called C.X (.call n es), C.sched k m = C.r m) → custom (C.sched k) = ρ)
    (hb : Rel C w builtin ρ') (hρ : C.r.has C.X n = false → ρ' = ρ)
    (h1 : concerns C.X C.ns (.held 0 n es) = true → 1 ≤ t) (h2 : (if C.ns.contains (C.X.upper n) then 1 else 0) + w ≤ t) : Rel C t (look C.X C.sched n es custom builtin) ρ := by
  intro s
  unfold look
  dsimp only
  by_cases hh : (C.sched s.reads).has C.X n
  · rw [if_pos hh]
    refine ⟨[.held s.reads n es], rfl, by simp [Seen.at], fun _ => ?_, fun hp => hc _ hh (hp (.held s.reads n es) (by simp))⟩
    rw [List.filter_cons]
    split
    · rename_i h; exact h1 h
    · simp
  · rw [if_neg hh]
    obtain ⟨new, a1, a0, a2, a3⟩ := hb ⟨s.reads + 1, s.seen ++ [.absent s.reads n]⟩
    refine ⟨.absent s.reads n :: new, by rw [a1]; simp, ⟨by have := a0.1; simp only at this; omega, fun p hp => ?_⟩, fun ht => ?_, fun hp => ?_⟩
    · rcases List.mem_cons.1 hp with rfl | hp
      · have := a0.1; simp only at this; simp only [Seen.at]; omega
      · exact a0.2 p hp
    · have := a2 (by omega)
      rw [List.filter_cons]
      by_cases h : C.ns.contains (C.X.upper n) = true
      · rw [if_pos h] at h2
        rw [if_pos (show concerns C.X C.ns (.absent s.reads n) = true from h), List.length_cons]; omega
      · rw [if_neg h] at h2
        rw [if_neg (show ¬ concerns C.X C.ns (.absent s.reads n) = true from h)]
        omega
    · rw [a3 fun p h => hp p (by simp [h])]
      refine hρ ?_
      have := hp (.absent s.reads n) (by simp)
      simp only [Agrees] at this
      unfold Registry.has at hh ⊢
      rw [← this]
      simpa using hh

/-- Operands that correspond. -/
structure Same (C : Ctx) (w : Nat) (a : Fx.Operand Run) (b : Arg) : Prop where
  run : ∀ env, Rel C w (a.run env) (b.run (some C.r) env)
  spread : match a.spread, b.spread with
    | none, none => True
    | some d, some d' => ∀ env, Rel C w (d env) (d' (some C.r) env)
    | _, _ => False
  plain : a.plain = b

/-- Lists of operands that correspond. -/
inductive SameAll (C : Ctx) : List (Fx.Operand Run) → List Arg → Nat → Prop
  | nil : SameAll C [] [] 0
  | cons {a b as bs w v} : Same C w a b → SameAll C as bs v → SameAll C (a :: as) (b :: bs) (w + v)

theorem evalArgs_rel {as : List (Fx.Operand Run)} {bs : List Arg} {w : Nat} (h : SameAll C as bs w) (env : Env) : Rel C w (Fx.evalArgs env as) (_root_.evalArgs (some C.r) env bs) := by
  induction h with
  | nil => exact Rel.lift
  | cons h _ ih =>
    rename_i a b as bs _ _ _
    simp only [Fx.evalArgs, _root_.evalArgs]
    have hs := h.spread
    cases ha : a.spread <;> cases hb : b.spread <;> rw [ha, hb] at hs
    · exact Rel.bind (h.run env) (fun v => Rel.then_ ih (fun vs => rfl) (fun _ => Nat.le_refl _)) (by omega)
    · exact hs.elim
    · exact hs.elim
    · refine Rel.bind (hs env) (fun v => ?_) (fun _ => Nat.le_refl _)
      cases v with
      | arr items => exact Rel.then_ ih (fun vs => rfl) (fun _ => Nat.le_refl _)
      | _ => exact Rel.of_eq rfl

section
variable {lam : Env → Fx.M Run Value} {lam' : Env → Res Value} {w : Nat} (h : ∀ env, Rel C w (lam env) (lam' env))
include h

theorem filter_rel (p : Str) (env : Env) (items : List Value) : Rel C (2 * w) (Fx.Loop.filter lam p env items) (Loop.filter lam' p env items) := by
  induction items generalizing env with
  | nil => exact Rel.of_eq rfl
  | cons v vs ih => exact Rel.bind (h _) (fun r => Rel.then_ (ih _) (fun out => rfl) (fun _ => Nat.le_refl _)) (by omega)

theorem find_rel (p : Str) (env : Env) (items : List Value) : Rel C (2 * w) (Fx.Loop.find lam p env items) (Loop.find lam' p env items) := by
  induction items generalizing env with
  | nil => exact Rel.of_eq rfl
  | cons v vs ih =>
    refine Rel.bind (k := 2 * w) (h _) (fun r => ?_) (by omega)
    by_cases hr : isTrue r
    · simp only [hr, if_true]; exact Rel.of_eq rfl
    · simp only [hr]; exact ih _

theorem map_rel (p : Str) (env : Env) (items : List Value) : Rel C (2 * w) (Fx.Loop.map lam p env items) (Loop.map lam' p env items) := by
  induction items generalizing env with
  | nil => exact Rel.of_eq rfl
  | cons v vs ih => exact Rel.bind (h _) (fun r => Rel.then_ (ih _) (fun out => rfl) (fun _ => Nat.le_refl _)) (by omega)

theorem reduce_rel (p q : Str) (env : Env) (acc : Value) (items : List Value) : Rel C (2 * w) (Fx.Loop.reduce lam p q env acc items) (Loop.reduce lam' p q env acc items) := by
  induction items generalizing env acc with
  | nil => exact Rel.of_eq rfl
  | cons v vs ih => exact Rel.bind (h _) (fun r => ih _ _) (by omega)

theorem reduceAccFirst_rel (env : Env) (acc : Value) (items : List Value) : Rel C (2 * w) (Fx.Loop.reduceAccFirst lam env acc items) (Loop.reduceAccFirst lam' env acc items) := by
  induction items generalizing env acc with
  | nil => exact Rel.of_eq rfl
  | cons v vs ih => exact Rel.bind (h _) (fun r => ih _ _) (by omega)

theorem sumif_rel (env : Env) (acc : F64) (items : List Value) : Rel C (2 * w) (Fx.Loop.sumif lam env acc items) (Loop.sumif lam' env acc items) := by
  induction items generalizing env acc with
  | nil => exact Rel.of_eq rfl
  | cons v vs ih => exact Rel.bind (h _) (fun r => ih _ _) (by omega)

theorem avgif_rel (env : Env) (acc : F64) (n : Nat) (items : List Value) : Rel C (2 * w) (Fx.Loop.avgif lam env acc n items) (Loop.avgif lam' env acc n items) := by
  induction items generalizing env acc n with
  | nil => exact Rel.of_eq rfl
  | cons v vs ih =>
    refine Rel.bind (k := 2 * w) (h _) (fun r => ?_) (by omega)
    by_cases hr : isTrue r && Loop.isAmount v
    · simp only [hr, if_true]; exact ih _ _ _
    · simp only [hr]; exact ih _ _ _

theorem countif_rel (env : Env) (n : Nat) (items : List Value) : Rel C (2 * w) (Fx.Loop.countif lam env n items) (Loop.countif lam' env n items) := by
  induction items generalizing env n with
  | nil => exact Rel.of_eq rfl
  | cons v vs ih => exact Rel.bind (h _) (fun r => ih _ _) (by omega)
end

/-- Members that correspond. -/
inductive SameMembers (C : Ctx) : List (Str × (Env → Fx.M Run Value)) → List (Str × Den) → Nat → Prop
  | nil : SameMembers C [] [] 0
  | cons {k d d' as bs w v} : (∀ env, Rel C w (d env) (d' (some C.r) env)) → SameMembers C as bs v → SameMembers C ((k, d) :: as) ((k, d') :: bs) (w + v)

theorem objectMembers_rel {as : List (Str × (Env → Fx.M Run Value))} {bs : List (Str × Den)} {w : Nat} (h : SameMembers C as bs w) (env : Env) (ms : List (Str × Json)) :
    Rel C w (Fx.objectMembers C.X env ms as) (objectMembers C.X (some C.r) env ms bs) := by
  induction h generalizing ms with
  | nil => exact Rel.of_eq rfl
  | cons h _ ih => exact Rel.bind (h env) (fun v => Rel.bind (n := 0) Rel.lift (fun j => ih _) (fun _ => Nat.le_of_eq (Nat.zero_add _))) (by omega)

theorem elements_rel {as : List (Fx.Operand Run)} {bs : List Arg} {w : Nat} (h : SameAll C as bs w) (env : Env) : Rel C w (Fx.elements env as) (elements (some C.r) env bs) := by
  induction h with
  | nil => exact Rel.of_eq rfl
  | cons h _ ih => exact Rel.bind (h.run env) (fun v => Rel.then_ ih (fun vs => rfl) (fun _ => Nat.le_refl _)) (by omega)

theorem lastOf_rel {as : List (Fx.Operand Run)} {bs : List Arg} {w : Nat} (h : SameAll C as bs w) (env : Env) (v : Value) : Rel C w (Fx.lastOf env v as) (lastOf (some C.r) env v bs) := by
  induction h generalizing v with
  | nil => exact Rel.of_eq rfl
  | cons h _ ih => exact Rel.bind (h.run env) (fun v => ih v) (by omega)

theorem ternary_rel {as : List (Fx.Operand Run)} {bs : List Arg} {w : Nat} (h : SameAll C as bs w) (env : Env) : Rel C w (Fx.ternary env as) (_root_.Legacy.ternary (some C.r) env bs) := by
  match h with
  | .nil => exact Rel.of_eq rfl
  | .cons _ .nil => exact Rel.of_eq rfl
  | .cons _ (.cons _ .nil) => exact Rel.of_eq rfl
  | .cons _ (.cons _ (.cons _ (.cons _ _))) => exact Rel.of_eq rfl
  | .cons (w := w1) hc (.cons (w := w2) ha (.cons (w := w3) hb .nil)) =>
    refine Rel.bind (k := w2 + w3) (hc.run env) (fun v => ?_) (by omega)
    cases v.asBool with
    | none => exact Rel.of_eq rfl
    | some b => cases b
                · exact (hb.run env).loose (by omega)
                · exact (ha.run env).loose (by omega)

theorem plain_rel {as : List (Fx.Operand Run)} {bs : List Arg} {w : Nat} (h : SameAll C as bs w) : as.map Fx.Operand.plain = bs := by
  induction h with
  | nil => rfl
  | cons h _ ih => rw [List.map_cons, ih, h.plain]

theorem plain_head {as : List (Fx.Operand Run)} {bs : List Arg} {w : Nat} (h : SameAll C as bs w) : as.head?.map Fx.Operand.plain = bs.head? := by
  rw [← List.head?_map, plain_rel h]

theorem plain_one {as : List (Fx.Operand Run)} {bs : List Arg} {w : Nat} (h : SameAll C as bs w) : as[1]?.map Fx.Operand.plain = bs[1]? := by
  rw [← plain_rel h, List.getElem?_map]

theorem exec_rel {as : List (Fx.Operand Run)} {bs : List Arg} {w : Nat} (h : SameAll C as bs w) (env : Env) (n : Str) (p : Bool) (v : Value) :
    Rel C (2 * w) (Fx.Method.exec C.X env n p v as) (Method.exec C.X (some C.r) env n p v bs) := by
  unfold Fx.Method.exec Method.exec
  rw [plain_rel h]
  cases p
  · simp only [Bool.false_eq_true, if_false]
    cases Method.conversion C.X (C.X.lower n) v with
    | some r => exact Rel.of_eq rfl
    | none =>
      cases v with
      | arr items =>
        dsimp only
        by_cases h1 : C.X.lower n = c!"filter"
        · simp only [h1, if_true]
          cases h with
          | nil => exact Rel.of_eq rfl
          | cons hl hr =>
            simp only [Fx.Method.filter, Method.filter]
            rw [plain_head hr]
            exact Rel.then_ (filter_rel hl.run _ _ _) (fun _ => rfl) (by omega)
        by_cases h2 : C.X.lower n = c!"map"
        · simp only [h2, if_true]
          cases h with
          | nil => exact Rel.of_eq rfl
          | cons hl hr =>
            simp only [Fx.Method.map, Method.map]
            rw [plain_head hr]
            exact Rel.then_ (map_rel hl.run _ _ _) (fun _ => rfl) (by omega)
        by_cases h3 : C.X.lower n = c!"find"
        · simp only [h3, if_true]
          cases h with
          | nil => exact Rel.of_eq rfl
          | cons hl hr =>
            simp only [Fx.Method.find, Method.find]
            rw [plain_head hr]
            exact (find_rel hl.run _ _ _).loose (by omega)
        by_cases h4 : C.X.lower n = c!"reduce"
        · simp only [h4, if_true]
          cases h with
          | nil => exact Rel.of_eq rfl
          | cons hl hr =>
            cases hr with
            | nil => exact Rel.of_eq rfl
            | cons hi hr =>
              simp only [Fx.Method.reduce, Method.reduce]
              rw [plain_head hr, plain_one hr]
              exact Rel.bind (hi.run _) (fun _ => reduce_rel hl.run _ _ _ _ _) (by omega)
        · simp only [h1, h2, h3, h4, if_false]; exact Rel.of_eq rfl
      | _ => exact Rel.of_eq rfl
  · exact Rel.of_eq rfl

/-- Two optional functions that correspond. -/
def SameHigher (C : Ctx) (w : Nat) (env : Env) (as : List (Fx.Operand Run)) (bs : List Arg) (f : Option (Env → List (Fx.Operand Run) → Fx.M Run Value)) (f' : Option (Option Registry → Env → List Arg → Res Value)) : Prop :=
  match f, f' with
  | some f, some f' => Rel C w (f env as) (f' (some C.r) env bs)
  | none, none => True
  | _, _ => False

/-- A weight for a call of a function that takes a lambda: the first operand once, the rest many times. -/
inductive Headed (C : Ctx) : List (Fx.Operand Run) → List Arg → Nat → Prop
  | nil : Headed C [] [] 0
  | cons {a b as bs w v} : Same C w a b → SameAll C as bs v → Headed C (a :: as) (b :: bs) (w + 2 * v)

theorem Legacy.higherOrder_rel {as : List (Fx.Operand Run)} {bs : List Arg} {w : Nat} (h : Headed C as bs w) (env : Env) (n : Str) :
    SameHigher C w env as bs (Fx.Legacy.higherOrder n) (_root_.Legacy.higherOrder n) := by
  unfold Fx.Legacy.higherOrder _root_.Legacy.higherOrder
  split
  · simp only [SameHigher]
    match h with
    | .nil => exact Rel.of_eq rfl
    | .cons _ .nil => exact Rel.of_eq rfl
    | .cons ha (.cons (w := w2) (v := w3) hl _) =>
      refine Rel.bind (k := 2 * (w2 + w3)) (ha.run _) (fun v => ?_) (by omega)
      cases v <;> first | exact Rel.of_eq rfl | exact Rel.then_ (filter_rel hl.run _ _ _) (fun _ => rfl) (by omega)
  split
  · simp only [SameHigher]
    match h with
    | .nil => exact Rel.of_eq rfl
    | .cons _ .nil => exact Rel.of_eq rfl
    | .cons ha (.cons (w := w2) (v := w3) hl _) =>
      refine Rel.bind (k := 2 * (w2 + w3)) (ha.run _) (fun v => ?_) (by omega)
      cases v <;> first | exact Rel.of_eq rfl | exact (find_rel hl.run _ _ _).loose (by omega)
  split
  · simp only [SameHigher]
    match h with
    | .nil => exact Rel.of_eq rfl
    | .cons _ .nil => exact Rel.of_eq rfl
    | .cons ha (.cons (w := w2) (v := w3) hl _) =>
      refine Rel.bind (k := 2 * (w2 + w3)) (ha.run _) (fun v => ?_) (by omega)
      cases v <;> first | exact Rel.of_eq rfl | exact Rel.then_ (map_rel hl.run _ _ _) (fun _ => rfl) (by omega)
  split
  · simp only [SameHigher]
    match h with
    | .nil => exact Rel.of_eq rfl
    | .cons _ .nil => exact Rel.of_eq rfl
    | .cons _ (.cons _ .nil) => exact Rel.of_eq rfl
    | .cons ha (.cons (w := w2) hl (.cons (w := w3) (v := w4) hi _)) =>
      refine Rel.bind (k := 2 * (w2 + (w3 + w4))) (ha.run _) (fun v => Rel.bind (k := 2 * (w2 + w4)) (hi.run _) (fun acc => ?_) (by omega)) (by omega)
      cases v <;> first | exact Rel.of_eq rfl | exact (reduceAccFirst_rel hl.run _ _ _).loose (by omega)
  split
  · simp only [SameHigher]
    match h with
    | .nil => exact Rel.of_eq rfl
    | .cons _ .nil => exact Rel.of_eq rfl
    | .cons _ (.cons _ (.cons _ _)) => exact Rel.of_eq rfl
    | .cons ha (.cons (w := w2) hl .nil) =>
      refine Rel.bind (k := 2 * w2) (ha.run _) (fun v => ?_) (by omega)
      cases v <;> first | exact Rel.of_eq rfl | exact Rel.then_ (sumif_rel hl.run _ _ _) (fun _ => rfl) (by omega)
  split
  · simp only [SameHigher]
    match h with
    | .nil => exact Rel.of_eq rfl
    | .cons _ .nil => exact Rel.of_eq rfl
    | .cons _ (.cons _ (.cons _ _)) => exact Rel.of_eq rfl
    | .cons ha (.cons (w := w2) hl .nil) =>
      refine Rel.bind (k := 2 * w2) (ha.run _) (fun v => ?_) (by omega)
      cases v <;> first | exact Rel.of_eq rfl | exact Rel.then_ (avgif_rel hl.run _ _ _ _) (fun _ => rfl) (by omega)
  split
  · simp only [SameHigher]
    match h with
    | .nil => exact Rel.of_eq rfl
    | .cons _ .nil => exact Rel.of_eq rfl
    | .cons _ (.cons _ (.cons _ _)) => exact Rel.of_eq rfl
    | .cons ha (.cons (w := w2) hl .nil) =>
      refine Rel.bind (k := 2 * w2) (ha.run _) (fun v => ?_) (by omega)
      cases v <;> first | exact Rel.of_eq rfl | exact Rel.then_ (countif_rel hl.run _ _ _) (fun _ => rfl) (by omega)
  · trivial

theorem paramName_rel {as : List (Fx.Operand Run)} {bs : List Arg} {w : Nat} (h : SameAll C as bs w) (env : Env) (d : Str) :
    Rel C w (Fx.paramName env d as.head?) (Eval.paramName (some C.r) env d bs.head?) ∧ Rel C w (Fx.paramName env d as[1]?) (Eval.paramName (some C.r) env d bs[1]?) := by
  have key : ∀ {a : Fx.Operand Run} {b : Arg} {w : Nat}, Same C w a b → Rel C w (Fx.paramName env d (some a)) (Eval.paramName (some C.r) env d (some b)) := by
    intro a b w h
    refine Rel.then_ (h.run env) (fun v => ?_) (fun _ => Nat.le_refl _)
    cases v <;> rfl
  match h with
  | .nil => exact ⟨Rel.of_eq rfl, Rel.of_eq rfl⟩
  | .cons h .nil => exact ⟨(key h).loose (by omega), Rel.of_eq rfl⟩
  | .cons h (.cons h' _) => exact ⟨(key h).loose (by omega), (key h').loose (by omega)⟩

theorem staticCriterion_rel {a : Fx.Operand Run} {b : Arg} {w : Nat} (h : Same C w a b) (env : Env) : Rel C w (Fx.staticCriterion env a) (Eval.staticCriterion (some C.r) env b) := by
  intro s
  obtain ⟨new, a1, a0, a2, a3⟩ := h.run env s
  unfold Fx.staticCriterion Eval.staticCriterion
  rcases hm : a.run env s with ⟨s', v | v⟩ <;> rw [hm] at a1 a3 a0
  · refine ⟨new, ?_, ?_, a2, fun hp => ?_⟩
    · cases v <;> exact a1
    · cases v <;> exact a0
    · rw [← a3 hp]; cases v <;> rfl
  · refine ⟨new, ?_, ?_, a2, fun hp => ?_⟩
    · cases v <;> exact a1
    · cases v <;> exact a0
    · rw [← a3 hp]; cases v <;> rfl

theorem higherOrder_rel {as : List (Fx.Operand Run)} {bs : List Arg} {w : Nat} (h : Headed C as bs w) (env : Env) (n : Str) :
    SameHigher C w env as bs (Fx.higherOrder C.X n) (Eval.higherOrder C.X n) := by
  unfold Fx.higherOrder Eval.higherOrder
  split
  · simp only [SameHigher]
    match h with
    | .nil => exact Rel.of_eq rfl
    | .cons _ .nil => exact Rel.of_eq rfl
    | .cons ha (.cons hl h) =>
      refine Rel.bind (ha.run _) (fun v => Rel.then_ (paramName_rel h env _).1 (fun p => ?_) (fun _ => Nat.le_refl _)) (by omega)
      rw [hl.plain]; cases v <;> rfl
  split
  · simp only [SameHigher]
    match h with
    | .nil => exact Rel.of_eq rfl
    | .cons _ .nil => exact Rel.of_eq rfl
    | .cons ha (.cons hl h) =>
      refine Rel.bind (ha.run _) (fun v => Rel.then_ (paramName_rel h env _).1 (fun p => ?_) (fun _ => Nat.le_refl _)) (by omega)
      rw [hl.plain]; cases v <;> rfl
  split
  · simp only [SameHigher]
    match h with
    | .nil => exact Rel.of_eq rfl
    | .cons _ .nil => exact Rel.of_eq rfl
    | .cons ha (.cons hl h) =>
      refine Rel.bind (ha.run _) (fun v => Rel.then_ (paramName_rel h env _).1 (fun p => ?_) (fun _ => Nat.le_refl _)) (by omega)
      rw [hl.plain]; cases v <;> rfl
  split
  · simp only [SameHigher]
    match h with
    | .nil => exact Rel.of_eq rfl
    | .cons _ .nil => exact Rel.of_eq rfl
    | .cons _ (.cons _ .nil) => exact Rel.of_eq rfl
    | .cons ha (.cons hl (.cons hi h)) =>
      refine Rel.bind (ha.run _) (fun v => Rel.bind (hi.run _) (fun acc => Rel.bind (paramName_rel h env _).1 (fun p => Rel.then_ (paramName_rel h env _).2 (fun q => ?_) (fun _ => Nat.le_refl _))
        (fun _ => Nat.le_refl _)) (fun _ => Nat.le_refl _)) (by omega)
      rw [hl.plain]; cases v <;> rfl
  split
  · simp only [SameHigher]
    match h with
    | .nil => exact Rel.of_eq rfl
    | .cons _ .nil => exact Rel.of_eq rfl
    | .cons _ (.cons _ (.cons _ (.cons _ _))) => exact Rel.of_eq rfl
    | .cons ha (.cons hl .nil) =>
      refine Rel.bind (ha.run _) (fun v => ?_) (fun _ => Nat.le_refl _)
      simp only [pure_bind]
      refine Rel.then_ (staticCriterion_rel hl env) (fun c => ?_) (by omega)
      rw [hl.plain]
      cases c <;> cases v <;> rfl
    | .cons ha (.cons (w := w2) hl (.cons (w := w3) hs .nil)) =>
      refine Rel.bind (k := w2 + w3) (ha.run _) (fun v => ?_) (by omega)
      simp only [pure_bind]
      refine Rel.bind (hs.run _) (fun s => Rel.then_ (staticCriterion_rel hl env) (fun c => ?_) (fun _ => Nat.le_refl _)) (by omega)
      cases c <;> rfl
  split
  · simp only [SameHigher]
    match h with
    | .nil => exact Rel.of_eq rfl
    | .cons _ .nil => exact Rel.of_eq rfl
    | .cons _ (.cons _ (.cons _ _)) => exact Rel.of_eq rfl
    | .cons ha (.cons hl .nil) =>
      refine Rel.then_ (ha.run _) (fun v => ?_) (by omega)
      rw [hl.plain]; cases v <;> rfl
  split
  · simp only [SameHigher]
    match h with
    | .nil => exact Rel.of_eq rfl
    | .cons _ .nil => exact Rel.of_eq rfl
    | .cons _ (.cons _ (.cons _ _)) => exact Rel.of_eq rfl
    | .cons ha (.cons hl .nil) =>
      refine Rel.then_ (ha.run _) (fun v => ?_) (by omega)
      rw [hl.plain]; cases v <;> rfl
  split
  · simp only [SameHigher]
    match h with
    | .nil => exact Rel.of_eq rfl
    | .cons _ .nil => exact Rel.of_eq rfl
    | .cons _ (.cons _ (.cons _ _)) => exact Rel.of_eq rfl
    | .cons ha (.cons hl .nil) => exact Rel.bind (ha.run _) (fun v => Rel.then_ (hl.run _) (fun p => rfl) (fun _ => Nat.le_refl _)) (by omega)
  · trivial

mutual
theorem places_pos (X : Ext) (ns : List Str) (e : Expr) (h : ∃ m ∈ calls e, X.upper m ∈ ns) : 1 ≤ places X ns e := by
  obtain ⟨m, hm, hn⟩ := h
  cases e
  case number | strLit | null | var => simp [calls] at hm
  all_goals simp only [calls, List.mem_append, List.mem_cons] at hm
  all_goals try simp only [places]
  case unary | prop | safeProp | spread | cast | assign => exact places_pos X ns _ ⟨m, hm, hn⟩
  case binary a _ b | index a b =>
    rcases hm with hm | hm
    · have := places_pos X ns a ⟨m, hm, hn⟩; omega
    · have := places_pos X ns b ⟨m, hm, hn⟩; omega
  case array es | seq es => exact placesList_pos X ns es ⟨m, hm, hn⟩
  case object ms => exact placesMembers_pos X ns ms ⟨m, hm, hn⟩
  case safeCall t _ es | method t _ es _ =>
    rcases hm with hm | hm
    · have := places_pos X ns t ⟨m, hm, hn⟩; omega
    · have := placesList_pos X ns es ⟨m, hm, hn⟩; omega
  case slice t a b =>
    rcases hm with (hm | hm) | hm
    · have := places_pos X ns t ⟨m, hm, hn⟩; omega
    · have := placesOpt_pos X ns a ⟨m, hm, hn⟩; omega
    · have := placesOpt_pos X ns b ⟨m, hm, hn⟩; omega
  case call n es =>
    rcases hm with rfl | hm
    · have hc : ns.contains (X.upper m) = true := by simpa using hn
      cases es <;> simp only [places, hc, if_true] <;> omega
    · have := placesList_pos X ns es ⟨m, hm, hn⟩
      cases es with
      | nil => simp only [placesList] at this; omega
      | cons e es =>
        simp only [placesList] at this
        simp only [places]
        cases loops.contains n <;> simp only [Bool.false_eq_true, if_true, if_false] <;> omega
theorem placesList_pos (X : Ext) (ns : List Str) (es : List Expr) (h : ∃ m ∈ callsList es, X.upper m ∈ ns) : 1 ≤ placesList X ns es := by
  obtain ⟨m, hm, hn⟩ := h
  cases es with
  | nil => simp [callsList] at hm
  | cons e es =>
    simp only [callsList, List.mem_append] at hm
    simp only [placesList]
    rcases hm with hm | hm
    · have := places_pos X ns e ⟨m, hm, hn⟩; omega
    · have := placesList_pos X ns es ⟨m, hm, hn⟩; omega
theorem placesMembers_pos (X : Ext) (ns : List Str) (ms : List (Str × Expr)) (h : ∃ m ∈ callsMembers ms, X.upper m ∈ ns) : 1 ≤ placesMembers X ns ms := by
  obtain ⟨m, hm, hn⟩ := h
  cases ms with
  | nil => simp [callsMembers] at hm
  | cons p ms =>
    obtain ⟨k, e⟩ := p
    simp only [callsMembers, List.mem_append] at hm
    simp only [placesMembers]
    rcases hm with hm | hm
    · have := places_pos X ns e ⟨m, hm, hn⟩; omega
    · have := placesMembers_pos X ns ms ⟨m, hm, hn⟩; omega
theorem placesOpt_pos (X : Ext) (ns : List Str) (o : Option Expr) (h : ∃ m ∈ callsOpt o, X.upper m ∈ ns) : 1 ≤ placesOpt X ns o := by
  obtain ⟨m, hm, hn⟩ := h
  cases o with
  | none => simp [callsOpt] at hm
  | some e =>
    simp only [callsOpt] at hm
    simp only [placesOpt]
    exact places_pos X ns e ⟨m, hm, hn⟩
end

/-- Optional operands that correspond. -/
def SameOpt (C : Ctx) (w : Nat) (o : Option (Env → Fx.M Run Value)) (o' : Option Den) : Prop :=
  match o, o' with
  | none, none => True
  | some d, some d' => ∀ env, Rel C w (d env) (d' (some C.r) env)
  | _, _ => False

theorem Legacy.bound_rel {o : Option (Env → Fx.M Run Value)} {o' : Option Den} {w : Nat} (h : SameOpt C w o o') (env : Env) (len dflt : Int) (err : String) :
    Rel C w (Fx.Legacy.bound env len dflt err o) (_root_.Legacy.boundCustom (some C.r) env len dflt err o') := by
  cases o <;> cases o' <;> simp only [SameOpt] at h
  · exact Rel.of_eq rfl
  · refine Rel.then_ (h env) (fun v => ?_) (fun _ => Nat.le_refl _)
    cases v.asNumber <;> rfl

theorem optional_rel {o : Option (Env → Fx.M Run Value)} {o' : Option Den} {w : Nat} (h : SameOpt C w o o') (env : Env) :
    Rel C w (Fx.optional env o) (_root_.Legacy.optional (some C.r) env o') := by
  cases o <;> cases o' <;> simp only [SameOpt] at h
  · exact Rel.of_eq rfl
  · exact Rel.then_ (h env) (fun v => rfl) (fun _ => Nat.le_refl _)

theorem Legacy.execute_rel {as : List (Fx.Operand Run)} {w : Nat} (n : Str) (es : List Expr) (env : Env) (h : SameAll C as (_root_.Legacy.argsOf C.X es) w) (hn : n ≠ c!"__TERNARY__") (k : Nat)
    (hh : (C.sched k).has C.X n) (ha : ∀ m ∈ called C.X (.call n es), C.sched k m = C.r m) : execute C.X n as env (C.sched k) = _root_.Legacy.call C.X n (_root_.Legacy.argsOf C.X es) (some C.r) env := by
  have key : _root_.Legacy.eval C.X (.call n es) (some (C.sched k)) env = _root_.Legacy.eval C.X (.call n es) (some C.r) env :=
    legacy_sim (E := sameEnv) (AlikeRuns.registries (ns := called C.X (.call n es))) (.call n es) (fun _ _ _ _ he => by rw [show _ = _ from he])
      (fun m hm => by simp only [called, List.mem_map]; exact ⟨m, hm, rfl⟩) (.inr ⟨_, _, rfl, rfl, ha⟩) env env rfl
  simp only [_root_.Legacy.eval] at key
  rw [← key]
  unfold _root_.Legacy.call execute
  simp only [hn, if_false, hh, if_true]
  rw [plain_rel h]

theorem Legacy.loops_of {n : Str} {f} (h : _root_.Legacy.higherOrder n = some f) : loops.contains n = true := by
  unfold _root_.Legacy.higherOrder at h
  repeat' split at h
  all_goals first | cases h; done | subst_vars; decide

theorem Legacy.call_rel {as : List (Fx.Operand Run)} {w w' t : Nat} (n : Str) (es : List Expr) (env : Env) (h : SameAll C as (_root_.Legacy.argsOf C.X es) w) (h' : Headed C as (_root_.Legacy.argsOf C.X es) w')
    (h1 : concerns C.X C.ns (.held 0 n es) = true → 1 ≤ t) (h2 : loops.contains n = false → (if C.ns.contains (C.X.upper n) then 1 else 0) + w ≤ t)
    (h3 : loops.contains n = true → (if C.ns.contains (C.X.upper n) then 1 else 0) + w' ≤ t) (hw : w ≤ w') :
    Rel C t (Legacy.call C.X C.sched n es as env) (_root_.Legacy.call C.X n (_root_.Legacy.argsOf C.X es) (some C.r) env) := by
  have hwt : w ≤ t := by
    cases hl : loops.contains n
    · have := h2 hl; omega
    · have := h3 hl; omega
  have hwt' : (if C.ns.contains (C.X.upper n) then 1 else 0) + w ≤ t := by
    cases hl : loops.contains n
    · exact h2 hl
    · have := h3 hl; omega
  by_cases hn : n = c!"__TERNARY__"
  · subst hn
    exact (ternary_rel h env).loose fun _ => hwt
  have hd : _root_.Legacy.call C.X n (_root_.Legacy.argsOf C.X es) (some C.r) env = if C.r.has C.X n then (do C.r.execute C.X n (← _root_.evalArgs (some C.r) env (_root_.Legacy.argsOf C.X es))) else
      match _root_.Legacy.higherOrder n with
      | some f => f (some C.r) env (_root_.Legacy.argsOf C.X es)
      | none => _root_.evalArgs (some C.r) env (_root_.Legacy.argsOf C.X es) >>= fun vs => execBuiltin C.X n vs := by
    unfold _root_.Legacy.call
    simp only [hn, if_false]
    by_cases hr : C.r.has C.X n
    · simp only [hr, if_true]
    · simp only [hr, if_false, Bool.false_eq_true]
      cases _root_.Legacy.higherOrder n <;> rfl
  unfold Legacy.call
  simp only [hn, if_false]
  have hh := Legacy.higherOrder_rel h' env n
  cases h4 : _root_.Legacy.higherOrder n with
  | none =>
    refine look_rel (w := w) (ρ' := _root_.evalArgs (some C.r) env (_root_.Legacy.argsOf C.X es) >>= fun vs => execBuiltin C.X n vs) (fun k hk ha => Legacy.execute_rel n es env h hn k hk ha) ?_ ?_ h1 hwt'
    · rw [h4] at hh
      cases h5 : (Fx.Legacy.higherOrder n : Option (Env → List (Fx.Operand Run) → Fx.M Run Value)) with
      | none => exact Rel.then_ (evalArgs_rel h env) (fun vs => rfl) (fun _ => Nat.le_refl _)
      | some f => rw [h5] at hh; exact hh.elim
    · intro hr
      rw [hd, hr, h4]
      rfl
  | some f' =>
    refine look_rel (w := w') (ρ' := f' (some C.r) env (_root_.Legacy.argsOf C.X es)) (fun k hk ha => Legacy.execute_rel n es env h hn k hk ha) ?_ ?_ h1 (h3 (Legacy.loops_of h4))
    · rw [h4] at hh
      cases h5 : (Fx.Legacy.higherOrder n : Option (Env → List (Fx.Operand Run) → Fx.M Run Value)) with
      | none => rw [h5] at hh; exact hh.elim
      | some f => rw [h5] at hh; exact hh
    · intro hr
      rw [hd, hr, h4]
      rfl

mutual
theorem Legacy.eval_rel (C : Ctx) (e : Expr) (env : Env) : Rel C (places C.X C.ns e) (Legacy.eval C.X C.sched e env) (_root_.Legacy.eval C.X e (some C.r) env) := by
  cases e with
  | number _ => simp only [Legacy.eval, _root_.Legacy.eval]; exact Rel.of_eq rfl
  | strLit _ => simp only [Legacy.eval, _root_.Legacy.eval]; exact Rel.of_eq rfl
  | null => simp only [Legacy.eval, _root_.Legacy.eval]; exact Rel.of_eq rfl
  | spread _ => simp only [Legacy.eval, _root_.Legacy.eval]; exact Rel.of_eq rfl
  | var n => simp only [Legacy.eval, _root_.Legacy.eval]; cases env n <;> exact Rel.of_eq rfl
  | unary op e => simp only [Legacy.eval, _root_.Legacy.eval, places]; exact Rel.then_ (Legacy.eval_rel C e env) (fun _ => rfl) (fun _ => Nat.le_refl _)
  | prop e n => simp only [Legacy.eval, _root_.Legacy.eval, places]; exact Rel.then_ (Legacy.eval_rel C e env) (fun _ => rfl) (fun _ => Nat.le_refl _)
  | safeProp e n => simp only [Legacy.eval, _root_.Legacy.eval, places]; exact Rel.then_ (Legacy.eval_rel C e env) (fun _ => rfl) (fun _ => Nat.le_refl _)
  | cast e t => simp only [Legacy.eval, _root_.Legacy.eval, places]; exact Rel.then_ (Legacy.eval_rel C e env) (fun _ => rfl) (fun _ => Nat.le_refl _)
  | assign x e => simp only [Legacy.eval, _root_.Legacy.eval, places]; exact Legacy.eval_rel C e env
  | binary a op b =>
    simp only [Legacy.eval, _root_.Legacy.eval, places]
    exact Rel.bind (Legacy.eval_rel C a env) (fun _ => Rel.then_ (Legacy.eval_rel C b env) (fun _ => rfl) (fun _ => Nat.le_refl _)) (fun _ => Nat.le_refl _)
  | index a b =>
    simp only [Legacy.eval, _root_.Legacy.eval, places]
    exact Rel.bind (Legacy.eval_rel C a env) (fun _ => Rel.then_ (Legacy.eval_rel C b env) (fun _ => rfl) (fun _ => Nat.le_refl _)) (fun _ => Nat.le_refl _)
  | call n es =>
    have hp := places_pos C.X C.ns (.call n es)
    obtain ⟨ha, hd⟩ := Legacy.args_rel C es
    simp only [Legacy.eval, _root_.Legacy.eval]
    cases es with
    | nil =>
      simp only [placesList] at ha hd
      refine Legacy.call_rel n [] env ha hd (fun h => hp (by simpa [concerns, called] using h)) ?_ ?_ (Nat.le_refl _) <;> intro _ <;> simp only [places] <;> omega
    | cons e es =>
      simp only [placesList] at ha hd
      refine Legacy.call_rel n (e :: es) env ha hd (fun h => hp (by simpa [concerns, called] using h)) ?_ ?_ (by omega) <;> intro hl <;> simp only [places, hl, if_true, Bool.false_eq_true, if_false] <;> omega
  | array es => simp only [Legacy.eval, _root_.Legacy.eval, places]; exact Rel.then_ (elements_rel (Legacy.args_rel C es).1 env) (fun _ => rfl) (fun _ => Nat.le_refl _)
  | seq es => simp only [Legacy.eval, _root_.Legacy.eval, places]; exact lastOf_rel (Legacy.args_rel C es).1 env .null
  | object ms => simp only [Legacy.eval, _root_.Legacy.eval, places]; exact Rel.then_ (objectMembers_rel (Legacy.members_rel C ms) env []) (fun _ => rfl) (fun _ => Nat.le_refl _)
  | safeCall t n es =>
    simp only [Legacy.eval, _root_.Legacy.eval, places]
    refine Rel.bind (Legacy.eval_rel C t env) (fun v => ?_) (fun _ => Nat.le_refl _)
    cases v <;> first | exact Rel.of_eq rfl | exact exec_rel (Legacy.args_rel C es).1 env n false _
  | method t n es p =>
    simp only [Legacy.eval, _root_.Legacy.eval, places]
    exact Rel.bind (Legacy.eval_rel C t env) (fun v => exec_rel (Legacy.args_rel C es).1 env n p _) (fun _ => Nat.le_refl _)
  | slice t a b =>
    simp only [Legacy.eval, _root_.Legacy.eval, places]
    refine Rel.bind (k := placesOpt C.X C.ns a + placesOpt C.X C.ns b) (Legacy.eval_rel C t env) (fun v => ?_) (by omega)
    cases v <;> first | exact Rel.of_eq rfl | skip
    simp only [Fx.Legacy.slice, _root_.Legacy.sliceCustom]
    refine Rel.bind (Legacy.bound_rel (Legacy.opt_rel C a) _ _ _ _) (fun s => Rel.then_ (Legacy.bound_rel (Legacy.opt_rel C b) _ _ _ _) (fun e => ?_) (fun _ => Nat.le_refl _)) (fun _ => Nat.le_refl _)
    by_cases hse : s ≤ e <;> simp only [hse, if_true, if_false] <;> rfl
theorem Legacy.args_rel (C : Ctx) (es : List Expr) : SameAll C (Legacy.argsOf C.X C.sched es) (_root_.Legacy.argsOf C.X es) (placesList C.X C.ns es) ∧
    Headed C (Legacy.argsOf C.X C.sched es) (_root_.Legacy.argsOf C.X es) (match es with | [] => 0 | e :: es => places C.X C.ns e + 2 * placesList C.X C.ns es) := by
  cases es with
  | nil => simp only [Legacy.argsOf, _root_.Legacy.argsOf]; exact ⟨.nil, .nil⟩
  | cons e es =>
    have hr := Legacy.eval_rel C e
    have ht := (Legacy.args_rel C es).1
    cases e <;> simp only [Legacy.argsOf, _root_.Legacy.argsOf, placesList] <;> refine ⟨.cons ⟨?_, ?_, rfl⟩ ht, .cons ⟨?_, ?_, rfl⟩ ht⟩ <;> first | exact trivial | exact hr | exact fun _ => Rel.of_eq rfl | skip
    all_goals
      rename_i e
      exact Legacy.eval_rel C e
theorem Legacy.members_rel (C : Ctx) (ms : List (Str × Expr)) : SameMembers C (Legacy.membersOf C.X C.sched ms) (_root_.Legacy.membersOf C.X ms) (placesMembers C.X C.ns ms) := by
  cases ms with
  | nil => simp only [Legacy.membersOf, _root_.Legacy.membersOf]; exact .nil
  | cons m ms =>
    obtain ⟨k, e⟩ := m
    simp only [Legacy.membersOf, _root_.Legacy.membersOf, placesMembers]
    exact .cons (Legacy.eval_rel C e) (Legacy.members_rel C ms)
theorem Legacy.opt_rel (C : Ctx) (o : Option Expr) : SameOpt C (placesOpt C.X C.ns o) (Legacy.optOf C.X C.sched o) (_root_.Legacy.optOf C.X o) := by
  cases o with
  | none => simp only [Legacy.optOf, _root_.Legacy.optOf, SameOpt]
  | some e => simp only [Legacy.optOf, _root_.Legacy.optOf, SameOpt]; exact Legacy.eval_rel C e
end

theorem execute_rel {as : List (Fx.Operand Run)} {w : Nat} (n : Str) (es : List Expr) (env : Env) (h : SameAll C as (Eval.argsOf C.X es) w) (hn : n ≠ c!"__TERNARY__") (hn2 : n ≠ c!"__CONST_TRUE__") (hn3 : n ≠ c!"__CONST_FALSE__") (k : Nat)
    (hh : (C.sched k).has C.X n) (ha : ∀ m ∈ called C.X (.call n es), C.sched k m = C.r m) : execute C.X n as env (C.sched k) = Eval.call C.X n (Eval.argsOf C.X es) (some C.r) env := by
  have key : Eval.eval C.X (.call n es) (some (C.sched k)) env = Eval.eval C.X (.call n es) (some C.r) env :=
    eval_sim (E := sameEnv) (AlikeRuns.registries (ns := called C.X (.call n es))) (.call n es) (fun _ _ _ _ he => by rw [show _ = _ from he])
      (fun m hm => by simp only [called, List.mem_map]; exact ⟨m, hm, rfl⟩) (.inr ⟨_, _, rfl, rfl, ha⟩) env env rfl
  simp only [Eval.eval] at key
  rw [← key]
  unfold Eval.call execute
  simp only [hn, hn2, hn3, if_false, hh, if_true]
  rw [plain_rel h]

theorem loops_of {X : Ext} {n : Str} {f} (h : Eval.higherOrder X n = some f) : loops.contains n = true := by
  unfold Eval.higherOrder at h
  repeat' split at h
  all_goals first | cases h; done | subst_vars; decide

theorem call_rel {as : List (Fx.Operand Run)} {w w' t : Nat} (n : Str) (es : List Expr) (env : Env) (h : SameAll C as (Eval.argsOf C.X es) w) (h' : Headed C as (Eval.argsOf C.X es) w')
    (h1 : concerns C.X C.ns (.held 0 n es) = true → 1 ≤ t) (h2 : loops.contains n = false → (if C.ns.contains (C.X.upper n) then 1 else 0) + w ≤ t)
    (h3 : loops.contains n = true → (if C.ns.contains (C.X.upper n) then 1 else 0) + w' ≤ t) (hw : w ≤ w') :
    Rel C t (call C.X C.sched n es as env) (Eval.call C.X n (Eval.argsOf C.X es) (some C.r) env) := by
  have hwt : w ≤ t := by
    cases hl : loops.contains n
    · have := h2 hl; omega
    · have := h3 hl; omega
  have hwt' : (if C.ns.contains (C.X.upper n) then 1 else 0) + w ≤ t := by
    cases hl : loops.contains n
    · exact h2 hl
    · have := h3 hl; omega
  by_cases hn : n = c!"__TERNARY__"
  · subst hn
    exact (ternary_rel h env).loose fun _ => hwt
  by_cases hn2 : n = c!"__CONST_TRUE__"
  · subst hn2; exact Rel.of_eq rfl
  by_cases hn3 : n = c!"__CONST_FALSE__"
  · subst hn3; exact Rel.of_eq rfl
  have hd : Eval.call C.X n (Eval.argsOf C.X es) (some C.r) env = if C.r.has C.X n then (do C.r.execute C.X n (← _root_.evalArgs (some C.r) env (Eval.argsOf C.X es))) else
      match Eval.higherOrder C.X n with
      | some f => f (some C.r) env (Eval.argsOf C.X es)
      | none => _root_.evalArgs (some C.r) env (Eval.argsOf C.X es) >>= fun vs => execFast C.X n vs := by
    unfold Eval.call
    simp only [hn, hn2, hn3, if_false]
    by_cases hr : C.r.has C.X n
    · simp only [hr, if_true]
    · simp only [hr, if_false, Bool.false_eq_true]
      cases Eval.higherOrder C.X n <;> rfl
  unfold call
  simp only [hn, hn2, hn3, if_false]
  have hh := higherOrder_rel h' env n
  cases h4 : Eval.higherOrder C.X n with
  | none =>
    refine look_rel (w := w) (ρ' := _root_.evalArgs (some C.r) env (Eval.argsOf C.X es) >>= fun vs => execFast C.X n vs) (fun k hk ha => execute_rel n es env h hn hn2 hn3 k hk ha) ?_ ?_ h1 hwt'
    · rw [h4] at hh
      cases h5 : (Fx.higherOrder C.X n : Option (Env → List (Fx.Operand Run) → Fx.M Run Value)) with
      | none => exact Rel.then_ (evalArgs_rel h env) (fun vs => rfl) (fun _ => Nat.le_refl _)
      | some f => rw [h5] at hh; exact hh.elim
    · intro hr
      rw [hd, hr, h4]
      rfl
  | some f' =>
    refine look_rel (w := w') (ρ' := f' (some C.r) env (Eval.argsOf C.X es)) (fun k hk ha => execute_rel n es env h hn hn2 hn3 k hk ha) ?_ ?_ h1 (h3 (loops_of h4))
    · rw [h4] at hh
      cases h5 : (Fx.higherOrder C.X n : Option (Env → List (Fx.Operand Run) → Fx.M Run Value)) with
      | none => rw [h5] at hh; exact hh.elim
      | some f => rw [h5] at hh; exact hh
    · intro hr
      rw [hd, hr, h4]
      rfl

mutual
theorem eval_rel (C : Ctx) (e : Expr) (env : Env) : Rel C (places C.X C.ns e) (eval C.X C.sched e env) (Eval.eval C.X e (some C.r) env) := by
  cases e with
  | number _ => simp only [eval, Eval.eval]; exact Rel.of_eq rfl
  | strLit _ => simp only [eval, Eval.eval]; exact Rel.of_eq rfl
  | null => simp only [eval, Eval.eval]; exact Rel.of_eq rfl
  | spread _ => simp only [eval, Eval.eval]; exact Rel.of_eq rfl
  | var n => simp only [eval, Eval.eval]; cases env n <;> exact Rel.of_eq rfl
  | unary op e => simp only [eval, Eval.eval, places]; exact Rel.then_ (eval_rel C e env) (fun _ => rfl) (fun _ => Nat.le_refl _)
  | prop e n => simp only [eval, Eval.eval, places]; exact Rel.then_ (eval_rel C e env) (fun _ => rfl) (fun _ => Nat.le_refl _)
  | safeProp e n => simp only [eval, Eval.eval, places]; exact Rel.then_ (eval_rel C e env) (fun _ => rfl) (fun _ => Nat.le_refl _)
  | cast e t => simp only [eval, Eval.eval, places]; exact Rel.then_ (eval_rel C e env) (fun _ => rfl) (fun _ => Nat.le_refl _)
  | assign x e => simp only [eval, Eval.eval, places]; exact eval_rel C e env
  | binary a op b =>
    simp only [eval, Eval.eval, places]
    exact Rel.bind (eval_rel C a env) (fun _ => Rel.then_ (eval_rel C b env) (fun _ => rfl) (fun _ => Nat.le_refl _)) (fun _ => Nat.le_refl _)
  | index a b =>
    simp only [eval, Eval.eval, places]
    exact Rel.bind (eval_rel C a env) (fun _ => Rel.then_ (eval_rel C b env) (fun _ => rfl) (fun _ => Nat.le_refl _)) (fun _ => Nat.le_refl _)
  | call n es =>
    have hp := places_pos C.X C.ns (.call n es)
    obtain ⟨ha, hd⟩ := args_rel C es
    simp only [eval, Eval.eval]
    cases es with
    | nil =>
      simp only [placesList] at ha hd
      refine call_rel n [] env ha hd (fun h => hp (by simpa [concerns, called] using h)) ?_ ?_ (Nat.le_refl _) <;> intro _ <;> simp only [places] <;> omega
    | cons e es =>
      simp only [placesList] at ha hd
      refine call_rel n (e :: es) env ha hd (fun h => hp (by simpa [concerns, called] using h)) ?_ ?_ (by omega) <;> intro hl <;> simp only [places, hl, if_true, Bool.false_eq_true, if_false] <;> omega
  | array es => simp only [eval, Eval.eval, places]; exact Rel.then_ (elements_rel (args_rel C es).1 env) (fun _ => rfl) (fun _ => Nat.le_refl _)
  | seq es => simp only [eval, Eval.eval, places]; exact lastOf_rel (args_rel C es).1 env .null
  | object ms => simp only [eval, Eval.eval, places]; exact Rel.then_ (objectMembers_rel (members_rel C ms) env []) (fun _ => rfl) (fun _ => Nat.le_refl _)
  | safeCall t n es =>
    simp only [eval, Eval.eval, places]
    refine Rel.bind (eval_rel C t env) (fun v => ?_) (fun _ => Nat.le_refl _)
    cases v <;> first | exact Rel.of_eq rfl | exact exec_rel (Legacy.args_rel C es).1 env n false _
  | method t n es p =>
    simp only [eval, Eval.eval, places]
    exact Rel.bind (eval_rel C t env) (fun v => exec_rel (Legacy.args_rel C es).1 env n p _) (fun _ => Nat.le_refl _)
  | slice t a b =>
    simp only [eval, Eval.eval, places]
    refine Rel.bind (k := placesOpt C.X C.ns a + placesOpt C.X C.ns b) (eval_rel C t env) (fun v => ?_) (by omega)
    cases v <;> first | exact Rel.of_eq rfl | exact Rel.bind (optional_rel (opt_rel C a) _) (fun s => Rel.then_ (optional_rel (opt_rel C b) _) (fun e => rfl) (fun _ => Nat.le_refl _)) (fun _ => Nat.le_refl _)
theorem args_rel (C : Ctx) (es : List Expr) : SameAll C (argsOf C.X C.sched es) (Eval.argsOf C.X es) (placesList C.X C.ns es) ∧
    Headed C (argsOf C.X C.sched es) (Eval.argsOf C.X es) (match es with | [] => 0 | e :: es => places C.X C.ns e + 2 * placesList C.X C.ns es) := by
  cases es with
  | nil => simp only [argsOf, Eval.argsOf]; exact ⟨.nil, .nil⟩
  | cons e es =>
    have hr := eval_rel C e
    have ht := (args_rel C es).1
    cases e <;> simp only [argsOf, Eval.argsOf, placesList] <;> refine ⟨.cons ⟨?_, ?_, rfl⟩ ht, .cons ⟨?_, ?_, rfl⟩ ht⟩ <;> first | exact trivial | exact hr | exact fun _ => Rel.of_eq rfl | skip
    all_goals
      rename_i e
      exact eval_rel C e
theorem members_rel (C : Ctx) (ms : List (Str × Expr)) : SameMembers C (membersOf C.X C.sched ms) (Eval.membersOf C.X ms) (placesMembers C.X C.ns ms) := by
  cases ms with
  | nil => simp only [membersOf, Eval.membersOf]; exact .nil
  | cons m ms =>
    obtain ⟨k, e⟩ := m
    simp only [membersOf, Eval.membersOf, placesMembers]
    exact .cons (eval_rel C e) (members_rel C ms)
theorem opt_rel (C : Ctx) (o : Option Expr) : SameOpt C (placesOpt C.X C.ns o) (optOf C.X C.sched o) (Eval.optOf C.X o) := by
  cases o with
  | none => simp only [optOf, Eval.optOf, SameOpt]
  | some e => simp only [optOf, Eval.optOf, SameOpt]; exact eval_rel C e
end


end Live
