import Mathlib.Data.List.Forall2
import Verif.Lemmas.EvalBasic
/-! Two runs side by side: if the argument expressions give related results, so do the functions that take them. -/

/-- A relation between results that sequencing respects. -/
structure Cong where
  rel : {α : Type} → Res α → Res α → Prop
  refl : ∀ {α : Type} (a : Res α), rel a a
  bind : ∀ {α β : Type} {a b : Res α} {f g : α → Res β}, rel a b → (∀ v, rel (f v) (g v)) → rel (a >>= f) (b >>= g)

/-- Equality. -/
def Cong.eq : Cong where
  rel := fun a b => a = b
  refl := fun _ => rfl
  bind := by rintro α β a b f g rfl h; rw [show f = g from funext h]

/-- A relation between variable maps that binding respects. -/
structure EnvRel where
  rel : Env → Env → Prop
  insert : ∀ {e e' : Env} (k : Str) (v : Value), rel e e' → rel (e.insert k v) (e'.insert k v)

/-- Two unevaluated expressions give related results with registries `r` and `r'`. -/
def DenRel (Q : Cong) (E : EnvRel) (r r' : Option Registry) (d d' : Den) : Prop :=
  ∀ env env', E.rel env env' → Q.rel (d r env) (d' r' env')

/-- Two unevaluated arguments are related. -/
structure ArgRel (Q : Cong) (E : EnvRel) (r r' : Option Registry) (a a' : Arg) : Prop where
  run : DenRel Q E r r' a.run a'.run
  lit : a.lit = a'.lit
  spread : match a.spread, a'.spread with
    | none, none => True
    | some d, some d' => DenRel Q E r r' d d'
    | _, _ => False

/-- Two argument lists are related. -/
abbrev ArgsRel (Q : Cong) (E : EnvRel) (r r' : Option Registry) : List Arg → List Arg → Prop :=
  List.Forall₂ (ArgRel Q E r r')

namespace Sim

variable {Q : Cong} {E : EnvRel} {r r' : Option Registry} {env env' : Env}

theorem evalArgs {as as' : List Arg} (h : ArgsRel Q E r r' as as') (he : E.rel env env') :
    Q.rel (_root_.evalArgs r env as) (_root_.evalArgs r' env' as') := by
  induction h with
  | nil => exact Q.refl _
  | @cons a a' l l' ha hl ih =>
    have hs := ha.spread
    rw [_root_.evalArgs, _root_.evalArgs]
    cases h1 : a.spread with
    | none =>
      cases h2 : a'.spread with
      | some d' => rw [h1, h2] at hs; exact hs.elim
      | none => exact Q.bind (ha.run _ _ he) fun v => Q.bind ih fun vs => Q.refl _
    | some d =>
      cases h2 : a'.spread with
      | none => rw [h1, h2] at hs; exact hs.elim
      | some d' =>
        rw [h1, h2] at hs
        refine Q.bind (hs _ _ he) fun v => ?_
        cases v with
        | arr items => exact Q.bind ih fun vs => Q.refl _
        | _ => exact Q.refl _

theorem elements {as as' : List Arg} (h : ArgsRel Q E r r' as as') (he : E.rel env env') :
    Q.rel (_root_.elements r env as) (_root_.elements r' env' as') := by
  induction h with
  | nil => exact Q.refl _
  | cons ha hl ih => exact Q.bind (ha.run _ _ he) fun v => Q.bind ih fun vs => Q.refl _

theorem lastOf {as as' : List Arg} (h : ArgsRel Q E r r' as as') (he : E.rel env env') (v : Value) :
    Q.rel (_root_.lastOf r env v as) (_root_.lastOf r' env' v as') := by
  induction h generalizing v with
  | nil => exact Q.refl _
  | cons ha hl ih => exact Q.bind (ha.run _ _ he) fun v => ih v

theorem objectMembers (X : Ext) {ms ms' : List (Str × Den)}
    (h : List.Forall₂ (fun m m' => m.1 = m'.1 ∧ DenRel Q E r r' m.2 m'.2) ms ms') (he : E.rel env env') (acc : List (Str × Json)) :
    Q.rel (_root_.objectMembers X r env acc ms) (_root_.objectMembers X r' env' acc ms') := by
  induction h generalizing acc with
  | nil => exact Q.refl _
  | @cons m m' l l' hm hl ih =>
    obtain ⟨k, d⟩ := m
    obtain ⟨k', d'⟩ := m'
    obtain ⟨rfl, hd⟩ := hm
    exact Q.bind (hd _ _ he) fun v => Q.bind (Q.refl _) fun j => ih _

theorem optional {d d' : Option Den} (h : match d, d' with
      | none, none => True
      | some d, some d' => DenRel Q E r r' d d'
      | _, _ => False) (he : E.rel env env') :
    Q.rel (Legacy.optional r env d) (Legacy.optional r' env' d') := by
  cases d <;> cases d' <;> first
    | exact h.elim
    | exact Q.refl _
    | exact Q.bind (h _ _ he) fun v => Q.refl _

theorem filter {lam lam' : Env → Res Value} (h : ∀ e e', E.rel e e' → Q.rel (lam e) (lam' e')) (p : Str)
    (he : E.rel env env') (items : List Value) : Q.rel (Loop.filter lam p env items) (Loop.filter lam' p env' items) := by
  induction items generalizing env env' with
  | nil => exact Q.refl _
  | cons v vs ih => exact Q.bind (h _ _ (E.insert _ _ he)) fun b => Q.bind (ih (E.insert _ _ he)) fun _ => Q.refl _

theorem map {lam lam' : Env → Res Value} (h : ∀ e e', E.rel e e' → Q.rel (lam e) (lam' e')) (p : Str)
    (he : E.rel env env') (items : List Value) : Q.rel (Loop.map lam p env items) (Loop.map lam' p env' items) := by
  induction items generalizing env env' with
  | nil => exact Q.refl _
  | cons v vs ih => exact Q.bind (h _ _ (E.insert _ _ he)) fun b => Q.bind (ih (E.insert _ _ he)) fun _ => Q.refl _

theorem find {lam lam' : Env → Res Value} (h : ∀ e e', E.rel e e' → Q.rel (lam e) (lam' e')) (p : Str)
    (he : E.rel env env') (items : List Value) : Q.rel (Loop.find lam p env items) (Loop.find lam' p env' items) := by
  induction items generalizing env env' with
  | nil => exact Q.refl _
  | cons v vs ih =>
    refine Q.bind (h _ _ (E.insert _ _ he)) fun b => ?_
    split
    · exact Q.refl _
    · exact ih (E.insert _ _ he)

theorem reduce {lam lam' : Env → Res Value} (h : ∀ e e', E.rel e e' → Q.rel (lam e) (lam' e')) (p q : Str)
    (he : E.rel env env') (acc : Value) (items : List Value) :
    Q.rel (Loop.reduce lam p q env acc items) (Loop.reduce lam' p q env' acc items) := by
  induction items generalizing env env' acc with
  | nil => exact Q.refl _
  | cons v vs ih =>
    exact Q.bind (h _ _ (E.insert _ _ (E.insert _ _ he))) fun b => ih (E.insert _ _ (E.insert _ _ he)) b

theorem reduceAccFirst {lam lam' : Env → Res Value} (h : ∀ e e', E.rel e e' → Q.rel (lam e) (lam' e'))
    (he : E.rel env env') (acc : Value) (items : List Value) :
    Q.rel (Loop.reduceAccFirst lam env acc items) (Loop.reduceAccFirst lam' env' acc items) := by
  induction items generalizing env env' acc with
  | nil => exact Q.refl _
  | cons v vs ih =>
    exact Q.bind (h _ _ (E.insert _ _ (E.insert _ _ he))) fun b => ih (E.insert _ _ (E.insert _ _ he)) b

theorem sumif {lam lam' : Env → Res Value} (h : ∀ e e', E.rel e e' → Q.rel (lam e) (lam' e'))
    (he : E.rel env env') (acc : F64) (items : List Value) :
    Q.rel (Loop.sumif lam env acc items) (Loop.sumif lam' env' acc items) := by
  induction items generalizing env env' acc with
  | nil => exact Q.refl _
  | cons v vs ih => exact Q.bind (h _ _ (E.insert _ _ he)) fun b => ih (E.insert _ _ he) _

theorem avgif {lam lam' : Env → Res Value} (h : ∀ e e', E.rel e e' → Q.rel (lam e) (lam' e'))
    (he : E.rel env env') (acc : F64) (n : Nat) (items : List Value) :
    Q.rel (Loop.avgif lam env acc n items) (Loop.avgif lam' env' acc n items) := by
  induction items generalizing env env' acc n with
  | nil => exact Q.refl _
  | cons v vs ih =>
    refine Q.bind (h _ _ (E.insert _ _ he)) fun b => ?_
    split
    · exact ih (E.insert _ _ he) _ _
    · exact ih (E.insert _ _ he) _ _

theorem countif {lam lam' : Env → Res Value} (h : ∀ e e', E.rel e e' → Q.rel (lam e) (lam' e'))
    (he : E.rel env env') (n : Nat) (items : List Value) :
    Q.rel (Loop.countif lam env n items) (Loop.countif lam' env' n items) := by
  induction items generalizing env env' n with
  | nil => exact Q.refl _
  | cons v vs ih => exact Q.bind (h _ _ (E.insert _ _ he)) fun b => ih (E.insert _ _ he) _

theorem ternary {as as' : List Arg} (h : ArgsRel Q E r r' as as') (he : E.rel env env') :
    Q.rel (Legacy.ternary r env as) (Legacy.ternary r' env' as') := by
  cases h with
  | nil => exact Q.refl _
  | cons h1 h =>
    cases h with
    | nil => exact Q.refl _
    | cons h2 h =>
      cases h with
      | nil => exact Q.refl _
      | cons h3 h =>
        cases h with
        | cons _ _ => exact Q.refl _
        | nil =>
          refine Q.bind (h1.run _ _ he) fun v => ?_
          cases v.asBool with
          | none => exact Q.refl _
          | some b =>
            cases b
            · exact h3.run _ _ he
            · exact h2.run _ _ he

theorem ite {α : Type} {c : Prop} [Decidable c] {a a' b b' : Res α} (h1 : Q.rel a a') (h2 : Q.rel b b') :
    Q.rel (if c then a else b) (if c then a' else b') := by
  split
  · exact h1
  · exact h2

/-! Methods. -/

/-- The arguments give related results in these two variable maps. -/
abbrev EvRel (Q : Cong) (env env' : Env) : List Arg → List Arg → Prop :=
  List.Forall₂ fun a a' => Q.rel (Method.ev env a) (Method.ev env' a')

theorem EvRel.of {as as' : List Arg} (h : ArgsRel Q E none none as as') (he : E.rel env env') : EvRel Q env env' as as' :=
  h.imp fun _ _ h => h.run _ _ he

theorem textArg {as as' : List Arg} (h : EvRel Q env env' as as') (m b : String) :
    Q.rel (Method.textArg env m b as) (Method.textArg env' m b as') := by
  cases h with
  | nil => exact Q.refl _
  | cons h1 _ => exact Q.bind h1 fun v => Q.refl _

theorem onString {as as' : List Arg} (h : EvRel Q env env' as as') (X : Ext) (name s : Str) :
    Q.rel (Method.onString X env name s as) (Method.onString X env' name s as') := by
  unfold Method.onString
  extract_lets l
  refine ite (Q.refl _) ?_
  refine ite (Q.refl _) ?_
  refine ite (Q.refl _) ?_
  refine ite (Q.refl _) ?_
  refine ite (Q.refl _) ?_
  refine ite ?_ ?_
  · exact Q.bind (textArg h _ _) fun v => Q.refl _
  refine ite ?_ ?_
  · exact Q.bind (textArg h _ _) fun v => Q.refl _
  refine ite ?_ ?_
  · exact Q.bind (textArg h _ _) fun v => Q.refl _
  refine ite ?_ ?_
  · exact Q.bind (textArg h _ _) fun v => Q.refl _
  refine ite ?_ ?_
  · cases h with
    | nil => exact Q.refl _
    | cons h1 h =>
      cases h with
      | nil => exact Q.refl _
      | cons h2 h => exact Q.bind h1 fun v => Q.bind h2 fun w => Q.refl _
  refine ite ?_ ?_
  · cases h with
    | nil => exact Q.refl _
    | cons h1 h =>
      refine Q.bind h1 fun v => ?_
      cases v with
      | num n =>
        cases h with
        | nil => exact Q.refl _
        | cons h2 h => exact Q.bind h2 fun v => Q.refl _
      | _ => exact Q.refl _
  · exact Q.refl _

theorem onArray {as as' : List Arg} (h : EvRel Q env env' as as') (X : Ext) (name : Str)
    (items : List Value) : Q.rel (Method.onArray X env name items as) (Method.onArray X env' name items as') := by
  unfold Method.onArray
  extract_lets l
  refine ite (Q.refl _) ?_
  refine ite (Q.refl _) ?_
  refine ite (Q.refl _) ?_
  refine ite (Q.refl _) ?_
  refine ite (Q.refl _) ?_
  refine ite ?_ ?_
  · cases h with
    | nil => exact Q.refl _
    | cons h1 h => 
      refine Q.bind h1 fun v => ?_
      cases v <;> exact Q.refl _
  refine ite (Q.refl _) ?_
  refine ite (Q.refl _) ?_
  refine ite (Q.refl _) ?_
  refine ite (Q.refl _) ?_
  refine ite ?_ ?_
  · cases h with
    | nil => exact Q.refl _
    | cons h1 h => 
      refine Q.bind h1 fun v => ?_
      cases v <;> exact Q.refl _
  refine ite ?_ ?_
  · cases h with
    | nil => exact Q.refl _
    | cons h1 h => exact Q.bind h1 fun v => Q.refl _
  refine ite (Q.refl _) ?_
  refine ite (Q.refl _) ?_
  · exact Q.refl _

theorem onNumber {as as' : List Arg} (h : EvRel Q env env' as as') (X : Ext) (name : Str)
    (n : F64) : Q.rel (Method.onNumber X env name n as) (Method.onNumber X env' name n as') := by
  unfold Method.onNumber
  extract_lets l
  refine ite (Q.refl _) ?_
  refine ite (Q.refl _) ?_
  refine ite (Q.refl _) ?_
  refine ite ?_ ?_
  · cases h with
    | nil => exact Q.refl _
    | cons h1 h => exact Q.bind h1 fun v => Q.refl _
  refine ite (Q.refl _) ?_
  refine ite (Q.refl _) ?_
  refine ite (Q.refl _) ?_
  refine ite (Q.refl _) ?_
  refine ite (Q.refl _) ?_
  refine ite ?_ ?_
  · cases h with
    | nil => exact Q.refl _
    | cons h1 h =>
      cases h with
      | nil => exact Q.refl _
      | cons h2 h =>
        cases h with
        | cons _ _ => exact Q.refl _
        | nil => exact Q.bind h1 fun v => Q.bind h2 fun w => Q.refl _
  · exact Q.refl _

theorem onJson {as as' : List Arg} (h : EvRel Q env env' as as') (X : Ext) (name s : Str) :
    Q.rel (Method.onJson X env name s as) (Method.onJson X env' name s as') := by
  unfold Method.onJson
  extract_lets l
  refine ite (Q.refl _) ?_
  refine ite (Q.refl _) ?_
  refine ite ?_ ?_
  · cases h with
    | nil => exact Q.refl _
    | cons h1 h => exact Q.bind h1 fun v => Q.refl _
  refine ite ?_ ?_
  · cases h with
    | nil => exact Q.refl _
    | cons h1 h =>
      refine Q.bind h1 fun v => ?_
      cases h with
      | nil => exact Q.refl _
      | cons h2 h => exact Q.bind h2 fun d => Q.refl _
  · exact Q.refl _

/-- The names of the methods that take a lambda. -/
def lambdaNames : List Str := [c!"filter", c!"map", c!"find", c!"reduce"]

theorem paramName {as as' : List Arg} (h : ArgsRel Q E r r' as as') (d : Str) (i : Nat) :
    Method.paramName d as[i]? = Method.paramName d as'[i]? := by
  induction h generalizing i with
  | nil => rfl
  | cons h1 h ih =>
    cases i with
    | zero => simp [Method.paramName, h1.lit]
    | succ i => simpa using ih i

/-- A method without lambda evaluates its arguments without registry. -/
theorem exec_ev {as as' : List Arg} (h : EvRel Q env env' as as') (X : Ext) (name : Str) (pred : Bool)
    (recv : Value) (hn : ∀ items, recv = .arr items → X.lower name ∉ lambdaNames) :
    Q.rel (Method.exec X r env name pred recv as) (Method.exec X r' env' name pred recv as') := by
  unfold Method.exec
  split
  · exact Q.refl _
  simp only
  split
  · exact Q.refl _
  · cases recv with
    | str s => exact onString h X name s
    | arr items =>
      have hn := hn items rfl
      simp only [lambdaNames, List.mem_cons, List.not_mem_nil, or_false, not_or] at hn
      simp only [if_neg hn.1, if_neg hn.2.1, if_neg hn.2.2.1, if_neg hn.2.2.2]
      exact onArray h X name items
    | num n => exact onNumber h X name n
    | json s => exact onJson h X name s
    | _ => exact Q.refl _

theorem exec_plain {as as' : List Arg} (h : ArgsRel Q E none none as as') (he : E.rel env env') (X : Ext) (name : Str) (pred : Bool)
    (recv : Value) (hn : X.lower name ∉ lambdaNames) :
    Q.rel (Method.exec X r env name pred recv as) (Method.exec X r' env' name pred recv as') :=
  exec_ev (.of h he) X name pred recv fun _ _ => hn

/-- A method with a lambda runs its arguments with the registry in reach. -/
theorem exec_lambda {as as' : List Arg} (h : ArgsRel Q E r r' as as') (he : E.rel env env') (X : Ext) (name : Str) (pred : Bool)
    (recv : Value) (hn : X.lower name ∈ lambdaNames) :
    Q.rel (Method.exec X r env name pred recv as) (Method.exec X r' env' name pred recv as') := by
  unfold Method.exec
  split
  · exact Q.refl _
  simp only
  split
  · exact Q.refl _
  · cases recv with
    | str s =>
      simp only [Method.onString]
      simp only [lambdaNames, List.mem_cons, List.not_mem_nil, or_false] at hn
      rcases hn with hn | hn | hn | hn <;> simp only [hn] <;> exact Q.refl _
    | arr items =>
      have p0 : ∀ {a a' : Arg} {l l' : List Arg}, ArgsRel Q E r r' l l' → ∀ d, Method.paramName d l.head? = Method.paramName d l'.head? := by
        intro _ _ l l' hl d
        have := paramName hl d 0
        rwa [← List.head?_eq_getElem?, ← List.head?_eq_getElem?] at this
      simp only [lambdaNames, List.mem_cons, List.not_mem_nil, or_false] at hn
      rcases hn with hn | hn | hn | hn <;> simp only [hn]
      · change Q.rel (Method.filter r env items as) (Method.filter r' env' items as')
        cases h with
        | nil => exact Q.refl _
        | @cons a a' l l' h1 h =>
          simp only [Method.filter, p0 (a := a) (a' := a') h]
          exact Q.bind (filter h1.run _ he items) fun _ => Q.refl _
      · change Q.rel (Method.map r env items as) (Method.map r' env' items as')
        cases h with
        | nil => exact Q.refl _
        | @cons a a' l l' h1 h =>
          simp only [Method.map, p0 (a := a) (a' := a') h]
          exact Q.bind (map h1.run _ he items) fun _ => Q.refl _
      · change Q.rel (Method.find r env items as) (Method.find r' env' items as')
        cases h with
        | nil => exact Q.refl _
        | @cons a a' l l' h1 h =>
          simp only [Method.find, p0 (a := a) (a' := a') h]
          exact find h1.run _ he items
      · change Q.rel (Method.reduce r env items as) (Method.reduce r' env' items as')
        cases h with
        | nil => exact Q.refl _
        | @cons a a' l l' h1 h =>
          cases h with
          | nil => exact Q.refl _
          | cons h2 h =>
            simp only [Method.reduce, p0 (a := a) (a' := a') h, paramName h _ 1]
            exact Q.bind (h2.run _ _ he) fun acc => reduce h1.run _ _ he acc items
    | num n =>
      simp only [Method.onNumber]
      simp only [lambdaNames, List.mem_cons, List.not_mem_nil, or_false] at hn
      rcases hn with hn | hn | hn | hn <;> simp only [hn] <;> exact Q.refl _
    | json s =>
      simp only [Method.onJson]
      simp only [lambdaNames, List.mem_cons, List.not_mem_nil, or_false] at hn
      rcases hn with hn | hn | hn | hn <;> simp only [hn] <;> exact Q.refl _
    | _ => exact Q.refl _

end Sim
