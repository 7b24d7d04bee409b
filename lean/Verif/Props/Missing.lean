import Verif.Props.Independence
import Verif.Model.Lib
/-! C120: what happens when variables are not given. -/

namespace Missing

mutual
/-- The expressions whose failure is not reported: the criterion of a `SUMIF`, which is then taken for a lambda, and the names in a `REDUCE`. -/
def Spec.guesses : Expr → List Expr
  | .number _ | .strLit _ | .null | .var _ => []
  | .unary _ e | .prop e _ | .safeProp e _ | .spread e | .cast e _ | .assign _ e => guesses e
  | .binary a _ b | .index a b => guesses a ++ guesses b
  | .call n es => (if n = c!"SUMIF" then es[1]?.toList else if n = c!"REDUCE" then es[3]?.toList ++ es[4]?.toList else []) ++ guessesList es
  | .array es | .seq es => guessesList es
  | .object ms => guessesMembers ms
  | .safeCall t _ es | .method t _ es _ => guesses t ++ guessesList es
  | .slice t a b => guesses t ++ guessesOpt a ++ guessesOpt b
/-- Of a list. -/
def Spec.guessesList : List Expr → List Expr
  | [] => []
  | e :: es => guesses e ++ guessesList es
/-- Of object members. -/
def Spec.guessesMembers : List (Str × Expr) → List Expr
  | [] => []
  | (_, e) :: ms => guesses e ++ guessesMembers ms
/-- Of an optional operand. -/
def Spec.guessesOpt : Option Expr → List Expr
  | none => []
  | some e => guesses e
end

/-- The second map gives everything the first one gives. -/
def Spec.Gives (env env' : Env) : Prop := ∀ n v, env n = some v → env' n = some v

/-- The variable is in the second map only. -/
def Spec.Added (env env' : Env) (n : Str) : Prop := env n = none ∧ ∃ v, env' n = some v

/-- The result is the error for a variable that is not given. -/
def Spec.Lacks {α : Type} (n : Str) (a : Res α) : Prop := a = fail "Missing variable: :{}" [n] ∨ a = fail "Undefined variable: {}" [n]

/-- No added variable is read where failures are not reported. -/
def Spec.Steady (env env' : Env) (e : Expr) : Prop := ∀ g ∈ guesses e, ∀ n ∈ _root_.Spec.vars g, ¬ Added env env' n

open Missing.Spec _root_.Spec

/-- Equal, or the first lacks a variable. -/
def lacks (P : Str → Prop) : Cong where
  rel := fun a b => a = b ∨ ∃ n, P n ∧ Lacks n a
  refl := fun _ => .inl rfl
  bind := by
    rintro α β a b f g (rfl | ⟨n, hn, ha⟩) h
    · cases a with
      | ok v => exact h v
      | error e => exact .inl rfl
    · refine .inr ⟨n, hn, ?_⟩
      rcases ha with rfl | rfl
      · exact .inl rfl
      · exact .inr rfl

/-- Equal, but for variables that only the second may give. -/
def more (P : Str → Prop) : EnvRel where
  rel := fun e e' => ∀ n, e n = e' n ∨ (P n ∧ e n = none)
  insert := by
    intro e e' k v h n
    simp only [Env.insert]
    by_cases hk : n = k
    · simp [hk]
    · simp only [hk, if_false]; exact h n

variable {P : Str → Prop} {r : Option Registry} {env env' : Env}

/-- An argument. -/
def Ok (P : Str → Prop) (a : Arg) : Prop := ∀ r, ArgRel (lacks P) (more P) r r a a

/-- An argument that does the same in both. -/
def Fixed (P : Str → Prop) (a : Arg) : Prop := ∀ r env env', (more P).rel env env' → a.run r env = a.run r env'

theorem all_ok {as : List Arg} (h : ∀ a ∈ as, Ok P a) (r : Option Registry) : ArgsRel (lacks P) (more P) r r as as := List.forall₂_same.2 fun a ha => h a ha r

theorem lambda_ok {a : Arg} (h : Ok P a) (e e' : Env) (he : (more P).rel e e') : (lacks P).rel (Legacy.lambda a e) (Legacy.lambda a e') := by
  unfold Legacy.lambda
  split
  · exact (lacks P).refl _
  · exact (h none).run _ _ he

theorem legacy_name {o : Option Arg} (h : ∀ a, o = some a → Ok P a) (he : (more P).rel env env') : (lacks P).rel (Legacy.paramName env o) (Legacy.paramName env' o) := by
  cases o with
  | none => exact (lacks P).refl _
  | some a => exact (lacks P).bind ((h a rfl none).run _ _ he) fun v => (lacks P).refl _

theorem name_ok {o : Option Arg} (h : ∀ a, o = some a → Ok P a) (he : (more P).rel env env') (d : Str) : (lacks P).rel (Eval.paramName r env d o) (Eval.paramName r env' d o) := by
  cases o with
  | none => exact (lacks P).refl _
  | some a => exact (lacks P).bind ((h a rfl r).run _ _ he) fun v => (lacks P).refl _

theorem nameOr_same {o : Option Arg} (h : ∀ a, o = some a → Fixed P a) (he : (more P).rel env env') (d : Str) : Legacy.paramNameOr env d o = Legacy.paramNameOr env' d o := by
  unfold Legacy.paramNameOr
  cases o with
  | none => rfl
  | some a => simp only [Legacy.paramName]; rw [h a rfl none env env' he]

theorem legacy_higher {as : List Arg} (h : ∀ a ∈ as, Ok P a) (he : (more P).rel env env') (name : Str) (f) (hf : Legacy.higherOrder name = some f)
    (hg : name = c!"REDUCE" → ∀ i ∈ [3, 4], ∀ a, as[i]? = some a → Fixed P a) : (lacks P).rel (f r env as) (f r env' as) := by
  have Qr : ∀ {α : Type} (x : Res α), (lacks P).rel x x := (lacks P).refl
  unfold Legacy.higherOrder at hf
  repeat' split at hf
  all_goals try (simp only [Option.some.injEq, reduceCtorEq] at hf; subst hf)
  · match as, h with
    | [], _ => cases r <;> exact Qr _
    | [_], _ => cases r <;> exact Qr _
    | a :: lam :: rest, h =>
      cases r with
      | none =>
        refine (lacks P).bind ((h a (by simp) none).run _ _ he) fun v => (lacks P).bind (legacy_name (fun b hb => h b (by simp [List.mem_of_mem_head? hb])) he) fun p => ?_
        cases v <;> first | exact Qr _ | exact (lacks P).bind (Sim.filter (lambda_ok (h lam (by simp))) p he _) fun _ => Qr _
      | some g =>
        refine (lacks P).bind ((h a (by simp) (some g)).run _ _ he) fun v => ?_
        cases v <;> first | exact Qr _ | exact (lacks P).bind (Sim.filter (h lam (by simp) (some g)).run _ he _) fun _ => Qr _
  · match as, h with
    | [], _ => cases r <;> exact Qr _
    | [_], _ => cases r <;> exact Qr _
    | a :: lam :: rest, h =>
      cases r with
      | none =>
        refine (lacks P).bind ((h a (by simp) none).run _ _ he) fun v => (lacks P).bind (legacy_name (fun b hb => h b (by simp [List.mem_of_mem_head? hb])) he) fun p => ?_
        cases v <;> first | exact Qr _ | exact Sim.find (lambda_ok (h lam (by simp))) p he _
      | some g =>
        refine (lacks P).bind ((h a (by simp) (some g)).run _ _ he) fun v => ?_
        cases v <;> first | exact Qr _ | exact Sim.find (h lam (by simp) (some g)).run _ he _
  · match as, h with
    | [], _ => cases r <;> exact Qr _
    | [_], _ => cases r <;> exact Qr _
    | a :: lam :: rest, h =>
      cases r with
      | none =>
        refine (lacks P).bind ((h a (by simp) none).run _ _ he) fun v => (lacks P).bind (legacy_name (fun b hb => h b (by simp [List.mem_of_mem_head? hb])) he) fun p => ?_
        cases v <;> first | exact Qr _ | exact (lacks P).bind (Sim.map (lambda_ok (h lam (by simp))) p he _) fun _ => Qr _
      | some g =>
        refine (lacks P).bind ((h a (by simp) (some g)).run _ _ he) fun v => ?_
        cases v <;> first | exact Qr _ | exact (lacks P).bind (Sim.map (h lam (by simp) (some g)).run _ he _) fun _ => Qr _
  · rename_i hname
    have hg := hg hname
    match as, h, hg with
    | [], _, _ => cases r <;> exact Qr _
    | [_], _, _ => cases r <;> exact Qr _
    | [_, _], _, _ => cases r <;> exact Qr _
    | a :: lam :: init :: rest, h, hg =>
      cases r with
      | none =>
        refine (lacks P).bind ((h a (by simp) none).run _ _ he) fun v => (lacks P).bind ((h init (by simp) none).run _ _ he) fun acc => ?_
        rw [nameOr_same (o := rest.head?) (fun b hb => hg 3 (by simp) b (by rw [List.head?_eq_getElem?] at hb; simpa using hb)) he,
          nameOr_same (o := rest[1]?) (fun b hb => hg 4 (by simp) b (by simpa using hb)) he]
        refine (lacks P).bind (Qr _) fun p => (lacks P).bind (Qr _) fun q => ?_
        cases v <;> first | exact Qr _ | exact Sim.reduce (lambda_ok (h lam (by simp))) p q he acc _
      | some g =>
        refine (lacks P).bind ((h a (by simp) (some g)).run _ _ he) fun v => (lacks P).bind ((h init (by simp) (some g)).run _ _ he) fun acc => ?_
        cases v <;> first | exact Qr _ | exact Sim.reduceAccFirst (h lam (by simp) (some g)).run he acc _
  · match as, h with
    | [], _ => exact Qr _
    | [_], _ => exact Qr _
    | _ :: _ :: _ :: _, _ => exact Qr _
    | [a, lam], h =>
      refine (lacks P).bind ((h a (by simp) r).run _ _ he) fun v => ?_
      cases v <;> first | exact Qr _ | exact (lacks P).bind (Sim.sumif (h lam (by simp) r).run he _ _) fun _ => Qr _
  · match as, h with
    | [], _ => exact Qr _
    | [_], _ => exact Qr _
    | _ :: _ :: _ :: _, _ => exact Qr _
    | [a, lam], h =>
      refine (lacks P).bind ((h a (by simp) r).run _ _ he) fun v => ?_
      cases v <;> first | exact Qr _ | exact (lacks P).bind (Sim.avgif (h lam (by simp) r).run he _ _ _) fun _ => Qr _
  · match as, h with
    | [], _ => exact Qr _
    | [_], _ => exact Qr _
    | _ :: _ :: _ :: _, _ => exact Qr _
    | [a, lam], h =>
      refine (lacks P).bind ((h a (by simp) r).run _ _ he) fun v => ?_
      cases v <;> first | exact Qr _ | exact (lacks P).bind (Sim.countif (h lam (by simp) r).run he _ _) fun _ => Qr _
  · simp at hf

theorem higher {as : List Arg} (h : ∀ a ∈ as, Ok P a) (he : (more P).rel env env') (X : Ext) (name : Str) (f) (hf : Eval.higherOrder X name = some f)
    (hg : name = c!"SUMIF" → ∀ a, as[1]? = some a → Fixed P a) : (lacks P).rel (f r env as) (f r env' as) := by
  have Qr : ∀ {α : Type} (x : Res α), (lacks P).rel x x := (lacks P).refl
  unfold Eval.higherOrder at hf
  repeat' split at hf
  all_goals try (simp only [Option.some.injEq, reduceCtorEq] at hf; subst hf)
  · match as, h with
    | [], _ => exact Qr _
    | [_], _ => exact Qr _
    | a :: lam :: rest, h =>
      refine (lacks P).bind ((h a (by simp) r).run _ _ he) fun v => (lacks P).bind (name_ok (fun b hb => h b (by simp [List.mem_of_mem_head? hb])) he _) fun p => ?_
      cases v <;> first | exact Qr _ | exact (lacks P).bind (Sim.filter (h lam (by simp) none).run p he _) fun _ => Qr _
  · match as, h with
    | [], _ => exact Qr _
    | [_], _ => exact Qr _
    | a :: lam :: rest, h =>
      refine (lacks P).bind ((h a (by simp) r).run _ _ he) fun v => (lacks P).bind (name_ok (fun b hb => h b (by simp [List.mem_of_mem_head? hb])) he _) fun p => ?_
      cases v <;> first | exact Qr _ | exact Sim.find (h lam (by simp) none).run p he _
  · match as, h with
    | [], _ => exact Qr _
    | [_], _ => exact Qr _
    | a :: lam :: rest, h =>
      refine (lacks P).bind ((h a (by simp) r).run _ _ he) fun v => (lacks P).bind (name_ok (fun b hb => h b (by simp [List.mem_of_mem_head? hb])) he _) fun p => ?_
      cases v <;> first | exact Qr _ | exact (lacks P).bind (Sim.map (h lam (by simp) none).run p he _) fun _ => Qr _
  · match as, h with
    | [], _ => exact Qr _
    | [_], _ => exact Qr _
    | [_, _], _ => exact Qr _
    | a :: lam :: init :: rest, h =>
      refine (lacks P).bind ((h a (by simp) r).run _ _ he) fun v => (lacks P).bind ((h init (by simp) r).run _ _ he) fun acc =>
        (lacks P).bind (name_ok (fun b hb => h b (by simp [List.mem_of_mem_head? hb])) he _) fun p =>
        (lacks P).bind (name_ok (fun b hb => h b (by simp [List.mem_of_getElem? hb])) he _) fun q => ?_
      cases v <;> first | exact Qr _ | exact Sim.reduce (h lam (by simp) none).run p q he acc _
  · rename_i hname
    have hg := hg hname
    have hs : ∀ {a : Arg}, Fixed P a → Eval.staticCriterion r env a = Eval.staticCriterion r env' a := by
      intro a ha
      unfold Eval.staticCriterion
      rw [ha r env env' he]
    match as, h, hg with
    | [], _, _ => exact Qr _
    | [_], _, _ => exact Qr _
    | _ :: _ :: _ :: _ :: _, _, _ => exact Qr _
    | [a, lam], h, hg =>
      refine (lacks P).bind ((h a (by simp) r).run _ _ he) fun v => ?_
      dsimp only [Option.isSome]
      refine (lacks P).bind (Qr _) fun s => ?_
      rw [hs (hg lam rfl)]
      refine (lacks P).bind (Qr _) fun c => ?_
      cases c with
      | some c => exact Qr _
      | none => cases v <;> first | exact Qr _ | exact (lacks P).bind (Sim.sumif (h lam (by simp) none).run he _ _) fun _ => Qr _
    | [a, lam, s], h, hg =>
      refine (lacks P).bind ((h a (by simp) r).run _ _ he) fun v => ?_
      dsimp only [Option.isSome]
      refine (lacks P).bind ((h s (by simp) r).run _ _ he) fun s => ?_
      rw [hs (hg lam rfl)]
      exact Qr _
  · match as, h with
    | [], _ => exact Qr _
    | [_], _ => exact Qr _
    | _ :: _ :: _ :: _, _ => exact Qr _
    | [a, lam], h =>
      refine (lacks P).bind ((h a (by simp) r).run _ _ he) fun v => ?_
      cases v <;> first | exact Qr _ | exact (lacks P).bind (Sim.avgif (h lam (by simp) none).run he _ _ _) fun _ => Qr _
  · match as, h with
    | [], _ => exact Qr _
    | [_], _ => exact Qr _
    | _ :: _ :: _ :: _, _ => exact Qr _
    | [a, lam], h =>
      refine (lacks P).bind ((h a (by simp) r).run _ _ he) fun v => ?_
      cases v <;> first | exact Qr _ | exact (lacks P).bind (Sim.countif (h lam (by simp) none).run he _ _) fun _ => Qr _
  · match as, h with
    | [], _ => exact Qr _
    | [_], _ => exact Qr _
    | _ :: _ :: _ :: _, _ => exact Qr _
    | [a, b], h => exact (lacks P).bind ((h a (by simp) r).run _ _ he) fun v => (lacks P).bind ((h b (by simp) r).run _ _ he) fun w => Qr _
  · simp at hf

theorem legacy_call {X : Ext} {as : List Arg} (h : ∀ a ∈ as, Ok P a) (he : (more P).rel env env') (name : Str)
    (hg : name = c!"REDUCE" → ∀ i ∈ [3, 4], ∀ a, as[i]? = some a → Fixed P a) : (lacks P).rel (Legacy.call X name as r env) (Legacy.call X name as r env') := by
  unfold Legacy.call
  have h2 : (lacks P).rel (evalArgs r env as) (evalArgs r env' as) := Sim.evalArgs (all_ok h r) he
  split
  · exact Sim.ternary (all_ok h r) he
  split
  · exact (lacks P).bind h2 fun _ => (lacks P).refl _
  · split
    · rename_i f hf; exact legacy_higher h he name f hf hg
    · exact (lacks P).bind h2 fun _ => (lacks P).refl _

theorem call_ok {X : Ext} {as : List Arg} (h : ∀ a ∈ as, Ok P a) (he : (more P).rel env env') (name : Str)
    (hg : name = c!"SUMIF" → ∀ a, as[1]? = some a → Fixed P a) : (lacks P).rel (Eval.call X name as r env) (Eval.call X name as r env') := by
  unfold Eval.call
  have h2 : (lacks P).rel (evalArgs r env as) (evalArgs r env' as) := Sim.evalArgs (all_ok h r) he
  split
  · exact Sim.ternary (all_ok h r) he
  split
  · exact (lacks P).refl _
  split
  · exact (lacks P).refl _
  split
  · exact (lacks P).bind h2 fun _ => (lacks P).refl _
  · split
    · rename_i f hf; exact higher h he X name f hf hg
    · exact (lacks P).bind h2 fun _ => (lacks P).refl _

theorem exec_ok {X : Ext} {as : List Arg} (h : ∀ a ∈ as, Ok P a) (he : (more P).rel env env') (n : Str) (p : Bool) (v : Value) :
    (lacks P).rel (Method.exec X r env n p v as) (Method.exec X r env' n p v as) := by
  by_cases hn : X.lower n ∈ Sim.lambdaNames
  · exact Sim.exec_lambda (all_ok h r) he X n p v hn
  · exact Sim.exec_plain (all_ok h none) he X n p v hn

theorem reads_same (X : Ext) (g : Expr) (hg : ∀ n ∈ vars g, ¬ P n) (he : (more P).rel env env') : Eval.eval X g r env = Eval.eval X g r env' :=
  C09_coincidence X g r env env' fun n hn => (he n).resolve_right fun h => hg n hn h.1

theorem legacy_reads_same (X : Ext) (g : Expr) (hg : ∀ n ∈ vars g, ¬ P n) (he : (more P).rel env env') : Legacy.eval X g r env = Legacy.eval X g r env' :=
  legacy_sim (E := onNames (vars g)) (AlikeRuns.of (P := fun _ => True) (SameWorld.refl X) fun _ _ => ⟨fun _ => rfl, fun _ => rfl⟩) g (fun n hn _ _ h => h n hn) (fun _ _ => trivial)
    (rfl : r = r) env env' fun n hn => (he n).resolve_right fun h => hg n hn h.1

/-- No variable of this kind is read where failures are not reported. -/
def Calm (P : Str → Prop) (gs : List Expr) : Prop := ∀ g ∈ gs, ∀ n ∈ vars g, ¬ P n

theorem Calm.left {a b : List Expr} (h : Calm P (a ++ b)) : Calm P a := fun g hg => h g (by simp [hg])
theorem Calm.right {a b : List Expr} (h : Calm P (a ++ b)) : Calm P b := fun g hg => h g (by simp [hg])

theorem legacy_at (X : Ext) (es : List Expr) (i : Nat) (a : Arg) (h : (Legacy.argsOf X es)[i]? = some a) : ∃ e, es[i]? = some e ∧ a.run = Legacy.eval X e := by
  induction es generalizing i with
  | nil => simp [Legacy.argsOf] at h
  | cons e es ih =>
    rw [Legacy.argsOf_cons] at h
    cases i with
    | zero => simp only [List.getElem?_cons_zero, Option.some.injEq] at h; exact ⟨e, rfl, by rw [← h]; rfl⟩
    | succ i => exact ih i (by simpa using h)

theorem eval_at (X : Ext) (es : List Expr) (i : Nat) (a : Arg) (h : (Eval.argsOf X es)[i]? = some a) : ∃ e, es[i]? = some e ∧ a.run = Eval.eval X e := by
  induction es generalizing i with
  | nil => simp [Eval.argsOf] at h
  | cons e es ih =>
    rw [Eval.argsOf_cons] at h
    cases i with
    | zero => simp only [List.getElem?_cons_zero, Option.some.injEq] at h; exact ⟨e, rfl, by rw [← h]; rfl⟩
    | succ i => exact ih i (by simpa using h)

mutual
theorem legacy_main (X : Ext) (e : Expr) (hg : Calm P (guesses e)) (r : Option Registry) : DenRel (lacks P) (more P) r r (Legacy.eval X e) (Legacy.eval X e) := by
  intro env env' he
  have Qr : ∀ {α : Type} (x : Res α), (lacks P).rel x x := (lacks P).refl
  cases e with
  | number _ => simp only [Legacy.eval]; exact Qr _
  | strLit _ => simp only [Legacy.eval]; exact Qr _
  | null => simp only [Legacy.eval]; exact Qr _
  | spread _ => simp only [Legacy.eval]; exact Qr _
  | var n =>
    simp only [Legacy.eval]
    rcases he n with h | ⟨h, h0⟩
    · rw [h]; exact Qr _
    · rw [h0]
      refine .inr ⟨n, h, ?_⟩
      cases r with
      | none => exact .inl rfl
      | some _ => exact .inr rfl
  | unary op e => simp only [Legacy.eval]; exact (lacks P).bind (legacy_main X e hg r env env' he) fun _ => Qr _
  | prop e n => simp only [Legacy.eval]; exact (lacks P).bind (legacy_main X e hg r env env' he) fun _ => Qr _
  | safeProp e n => simp only [Legacy.eval]; exact (lacks P).bind (legacy_main X e hg r env env' he) fun _ => Qr _
  | cast e t => simp only [Legacy.eval]; exact (lacks P).bind (legacy_main X e hg r env env' he) fun _ => Qr _
  | assign x e => simp only [Legacy.eval]; exact legacy_main X e hg r env env' he
  | binary a op b =>
    simp only [guesses] at hg
    simp only [Legacy.eval]
    exact (lacks P).bind (legacy_main X a hg.left r env env' he) fun _ => (lacks P).bind (legacy_main X b hg.right r env env' he) fun _ => Qr _
  | index a b =>
    simp only [guesses] at hg
    simp only [Legacy.eval]
    exact (lacks P).bind (legacy_main X a hg.left r env env' he) fun _ => (lacks P).bind (legacy_main X b hg.right r env env' he) fun _ => Qr _
  | call n es =>
    simp only [guesses] at hg
    simp only [Legacy.eval]
    refine legacy_call (legacy_args X es hg.right) he n ?_
    rintro rfl i hi a ha
    obtain ⟨e, hes, hrun⟩ := legacy_at X es i a ha
    intro r env env' he
    rw [hrun]
    refine legacy_reads_same X e (hg.left e ?_) he
    rw [if_neg (by decide), if_pos rfl]
    simp only [List.mem_cons, List.not_mem_nil, or_false] at hi
    rcases hi with rfl | rfl <;> simp [hes]
  | array es =>
    simp only [Legacy.eval]
    exact (lacks P).bind (Sim.elements (all_ok (legacy_args X es hg) r) he) fun _ => Qr _
  | seq es =>
    simp only [Legacy.eval]
    exact Sim.lastOf (all_ok (legacy_args X es hg) r) he .null
  | object ms =>
    simp only [Legacy.eval]
    exact (lacks P).bind (Sim.objectMembers X (legacy_members X ms hg r) he []) fun _ => Qr _
  | safeCall t n es =>
    simp only [guesses] at hg
    simp only [Legacy.eval]
    refine (lacks P).bind (legacy_main X t hg.left r env env' he) fun v => ?_
    cases v <;> first | exact Qr _ | exact exec_ok (legacy_args X es hg.right) he n false _
  | method t n es p =>
    simp only [guesses] at hg
    simp only [Legacy.eval]
    exact (lacks P).bind (legacy_main X t hg.left r env env' he) fun v => exec_ok (legacy_args X es hg.right) he n p v
  | slice t a b =>
    simp only [guesses] at hg
    have ha := legacy_opt X a hg.left.right r
    have hb := legacy_opt X b hg.right r
    simp only [Legacy.eval]
    refine (lacks P).bind (legacy_main X t hg.left.left r env env' he) fun v => ?_
    have hbound : ∀ {d : Option Den} (len dflt : Int) (err : String), (∀ d', d = some d' → DenRel (lacks P) (more P) r r d' d') →
        (lacks P).rel (Legacy.boundCustom r env len dflt err d) (Legacy.boundCustom r env' len dflt err d) := by
      intro d len dflt err h
      cases d with
      | none => exact Qr _
      | some d => exact (lacks P).bind (h d rfl env env' he) fun _ => Qr _
    have hopt : ∀ {d : Option Den}, (∀ d', d = some d' → DenRel (lacks P) (more P) r r d' d') → (lacks P).rel (Legacy.optional r env d) (Legacy.optional r env' d) := by
      intro d h
      cases d with
      | none => exact Qr _
      | some d => exact (lacks P).bind (h d rfl env env' he) fun _ => Qr _
    cases r with
    | none =>
      cases v with
      | arr items => exact (lacks P).bind (hopt ha) fun _ => (lacks P).bind (hopt hb) fun _ => Qr _
      | _ => exact Qr _
    | some g =>
      cases v with
      | arr items => exact (lacks P).bind (hbound _ _ _ ha) fun _ => (lacks P).bind (hbound _ _ _ hb) fun _ => Qr _
      | _ => exact Qr _
theorem legacy_args (X : Ext) (es : List Expr) (hg : Calm P (guessesList es)) : ∀ a ∈ Legacy.argsOf X es, Ok P a := by
  cases es with
  | nil => simp [Legacy.argsOf]
  | cons e es =>
    simp only [guessesList] at hg
    rw [Legacy.argsOf_cons]
    intro a ha
    rcases List.mem_cons.1 ha with rfl | ha
    · intro r
      have hrun := legacy_main X e hg.left r
      cases e with
      | spread e => exact ⟨hrun, rfl, legacy_main X e hg.left r⟩
      | _ => exact ⟨hrun, rfl, trivial⟩
    · exact legacy_args X es hg.right a ha
theorem legacy_members (X : Ext) (ms : List (Str × Expr)) (hg : Calm P (guessesMembers ms)) (r : Option Registry) :
    List.Forall₂ (fun m m' => m.1 = m'.1 ∧ DenRel (lacks P) (more P) r r m.2 m'.2) (Legacy.membersOf X ms) (Legacy.membersOf X ms) := by
  cases ms with
  | nil => simp only [Legacy.membersOf]; exact .nil
  | cons m ms =>
    obtain ⟨k, e⟩ := m
    simp only [guessesMembers] at hg
    simp only [Legacy.membersOf]
    exact .cons ⟨rfl, legacy_main X e hg.left r⟩ (legacy_members X ms hg.right r)
theorem legacy_opt (X : Ext) (o : Option Expr) (hg : Calm P (guessesOpt o)) (r : Option Registry) : ∀ d, Legacy.optOf X o = some d → DenRel (lacks P) (more P) r r d d := by
  cases o with
  | none => intro d h; simp [Legacy.optOf] at h
  | some e =>
    intro d h
    simp only [Legacy.optOf, Option.some.injEq] at h
    rw [← h]
    exact legacy_main X e hg r
end

mutual
theorem main (X : Ext) (e : Expr) (hg : Calm P (guesses e)) (r : Option Registry) : DenRel (lacks P) (more P) r r (Eval.eval X e) (Eval.eval X e) := by
  intro env env' he
  have Qr : ∀ {α : Type} (x : Res α), (lacks P).rel x x := (lacks P).refl
  cases e with
  | number _ => simp only [Eval.eval]; exact Qr _
  | strLit _ => simp only [Eval.eval]; exact Qr _
  | null => simp only [Eval.eval]; exact Qr _
  | spread _ => simp only [Eval.eval]; exact Qr _
  | var n =>
    simp only [Eval.eval]
    rcases he n with h | ⟨h, h0⟩
    · rw [h]; exact Qr _
    · rw [h0]; exact .inr ⟨n, h, .inl rfl⟩
  | unary op e => simp only [Eval.eval]; exact (lacks P).bind (main X e hg r env env' he) fun _ => Qr _
  | prop e n => simp only [Eval.eval]; exact (lacks P).bind (main X e hg r env env' he) fun _ => Qr _
  | safeProp e n => simp only [Eval.eval]; exact (lacks P).bind (main X e hg r env env' he) fun _ => Qr _
  | cast e t => simp only [Eval.eval]; exact (lacks P).bind (main X e hg r env env' he) fun _ => Qr _
  | assign x e => simp only [Eval.eval]; exact main X e hg r env env' he
  | binary a op b =>
    simp only [guesses] at hg
    simp only [Eval.eval]
    exact (lacks P).bind (main X a hg.left r env env' he) fun _ => (lacks P).bind (main X b hg.right r env env' he) fun _ => Qr _
  | index a b =>
    simp only [guesses] at hg
    simp only [Eval.eval]
    exact (lacks P).bind (main X a hg.left r env env' he) fun _ => (lacks P).bind (main X b hg.right r env env' he) fun _ => Qr _
  | call n es =>
    simp only [guesses] at hg
    simp only [Eval.eval]
    refine call_ok (args_ok X es hg.right) he n ?_
    rintro rfl a ha
    obtain ⟨e, hes, hrun⟩ := eval_at X es 1 a ha
    intro r env env' he
    rw [hrun]
    refine reads_same X e (hg.left e ?_) he
    rw [if_pos rfl]
    simp [hes]
  | array es =>
    simp only [Eval.eval]
    exact (lacks P).bind (Sim.elements (all_ok (args_ok X es hg) r) he) fun _ => Qr _
  | seq es =>
    simp only [Eval.eval]
    exact Sim.lastOf (all_ok (args_ok X es hg) r) he .null
  | object ms =>
    simp only [Eval.eval]
    exact (lacks P).bind (Sim.objectMembers X (members_ok X ms hg r) he []) fun _ => Qr _
  | safeCall t n es =>
    simp only [guesses] at hg
    simp only [Eval.eval]
    refine (lacks P).bind (main X t hg.left r env env' he) fun v => ?_
    cases v <;> first | exact Qr _ | exact exec_ok (legacy_args X es hg.right) he n false _
  | method t n es p =>
    simp only [guesses] at hg
    simp only [Eval.eval]
    exact (lacks P).bind (main X t hg.left r env env' he) fun v => exec_ok (legacy_args X es hg.right) he n p v
  | slice t a b =>
    simp only [guesses] at hg
    have ha := opt_ok X a hg.left.right r
    have hb := opt_ok X b hg.right r
    simp only [Eval.eval]
    refine (lacks P).bind (main X t hg.left.left r env env' he) fun v => ?_
    have hopt : ∀ {d : Option Den}, (∀ d', d = some d' → DenRel (lacks P) (more P) r r d' d') → (lacks P).rel (Legacy.optional r env d) (Legacy.optional r env' d) := by
      intro d h
      cases d with
      | none => exact Qr _
      | some d => exact (lacks P).bind (h d rfl env env' he) fun _ => Qr _
    cases v with
    | arr items => exact (lacks P).bind (hopt ha) fun _ => (lacks P).bind (hopt hb) fun _ => Qr _
    | _ => exact Qr _
theorem args_ok (X : Ext) (es : List Expr) (hg : Calm P (guessesList es)) : ∀ a ∈ Eval.argsOf X es, Ok P a := by
  cases es with
  | nil => simp [Eval.argsOf]
  | cons e es =>
    simp only [guessesList] at hg
    rw [Eval.argsOf_cons]
    intro a ha
    rcases List.mem_cons.1 ha with rfl | ha
    · intro r
      have hrun := main X e hg.left r
      cases e with
      | spread e => exact ⟨hrun, rfl, main X e hg.left r⟩
      | _ => exact ⟨hrun, rfl, trivial⟩
    · exact args_ok X es hg.right a ha
theorem members_ok (X : Ext) (ms : List (Str × Expr)) (hg : Calm P (guessesMembers ms)) (r : Option Registry) :
    List.Forall₂ (fun m m' => m.1 = m'.1 ∧ DenRel (lacks P) (more P) r r m.2 m'.2) (Eval.membersOf X ms) (Eval.membersOf X ms) := by
  cases ms with
  | nil => simp only [Eval.membersOf]; exact .nil
  | cons m ms =>
    obtain ⟨k, e⟩ := m
    simp only [guessesMembers] at hg
    simp only [Eval.membersOf]
    exact .cons ⟨rfl, main X e hg.left r⟩ (members_ok X ms hg.right r)
theorem opt_ok (X : Ext) (o : Option Expr) (hg : Calm P (guessesOpt o)) (r : Option Registry) : ∀ d, Eval.optOf X o = some d → DenRel (lacks P) (more P) r r d d := by
  cases o with
  | none => intro d h; simp [Eval.optOf] at h
  | some e =>
    intro d h
    simp only [Eval.optOf, Option.some.injEq] at h
    rw [← h]
    exact main X e hg r
end

/-! ### C120 -/

/-- C120: giving further variables changes nothing unless the run without them stopped at one of them: then it is the error naming that
variable, which the expression mentions. (Partial: where an added variable is read in the criterion of a `SUMIF` or in a name of a `REDUCE`
this is false, see below.) -/
theorem C120_missing_partial (X : Ext) (e : Expr) (r : Option Registry) (env env' : Env) (h : Gives env env') (hs : Steady env env' e) :
    Eval.eval X e r env = Eval.eval X e r env' ∨ ∃ n ∈ vars e, Added env env' n ∧ Lacks n (Eval.eval X e r env) := by
  classical
  have h1 : Eval.eval X e r env' = Eval.eval X e r fun n => if n ∈ vars e then env' n else env n :=
    C09_coincidence X e r _ _ fun n hn => by simp [hn]
  have h2 := main (P := fun n => n ∈ vars e ∧ Added env env' n) X e (fun g hg n hn hp => hs g hg n hn hp.2) r env (fun n => if n ∈ vars e then env' n else env n)
    fun n => by
      by_cases hn : n ∈ vars e
      · simp only [hn, if_true, true_and]
        cases h0 : env n with
        | some v => exact .inl (h n v h0).symm
        | none =>
          cases h3 : env' n with
          | none => exact .inl rfl
          | some v => exact .inr ⟨⟨h0, v, h3⟩, rfl⟩
      · simp [hn]
  rw [h1]
  rcases h2 with h2 | ⟨n, ⟨hn, ha⟩, hl⟩
  · exact .inl h2
  · exact .inr ⟨n, hn, ha, hl⟩

/-- C120: a value found without some variables is the value found when they are given as well. -/
theorem C120_kept_partial (X : Ext) (e : Expr) (r : Option Registry) (env env' : Env) (h : Gives env env') (hs : Steady env env' e) (v : Value)
    (hv : Eval.eval X e r env = .ok v) : Eval.eval X e r env' = .ok v := by
  rcases C120_missing_partial X e r env env' h hs with h1 | ⟨n, _, _, h1 | h1⟩
  · rw [← h1, hv]
  · rw [hv] at h1; cases h1
  · rw [hv] at h1; cases h1

/-- Alike but for the variables of this kind, which the second has from the start. -/
def from' (P : Str → Prop) (start : Env) : EnvRel where
  rel := fun e e' => ∀ n, (∃ v, e n = some v ∧ e' n = some v) ∨ (e n = none ∧ e' n = start n ∧ (start n = none ∨ P n))
  insert := by
    intro e e' k v h n
    simp only [Env.insert]
    by_cases hk : n = k
    · simp [hk]
    · simp only [hk, if_false]; exact h n

/-- The two outcomes of a program. -/
def Outcome (P : Str → Prop) (start : Env) (a b : Res (Value × Env)) : Prop :=
  (∃ v en en', a = .ok (v, en) ∧ b = .ok (v, en') ∧ (from' P start).rel en en') ∨ (∃ f, a = .error f ∧ b = .error f) ∨ ∃ n, P n ∧ Lacks n a

theorem from'.more {start : Env} (he : (from' P start).rel env env') : (more P).rel env env' := fun n => by
  rcases he n with ⟨v, h1, h2⟩ | ⟨h1, h2, h3 | h3⟩
  · exact .inl (by rw [h1, h2])
  · exact .inl (by rw [h1, h2, h3])
  · exact .inr ⟨h3, h1⟩

theorem single {start : Env} (X : Ext) (e : Expr) (hg : Calm P (guesses e)) (he : (from' P start).rel env env') (k : Value → Env → Env)
    (hk : ∀ v {a b}, (from' P start).rel a b → (from' P start).rel (k v a) (k v b)) :
    Outcome P start (do let v ← Eval.eval X e none env; pure (v, k v env)) (do let v ← Eval.eval X e none env'; pure (v, k v env')) := by
  have h := main X e hg none env env' (from'.more he)
  rcases h with h | ⟨n, hn, h | h⟩
  · rw [h]
    cases Eval.eval X e none env' with
    | ok v => exact .inl ⟨v, _, _, rfl, rfl, hk v he⟩
    | error f => exact .inr (.inl ⟨f, rfl, rfl⟩)
  · rw [h]; exact .inr (.inr ⟨n, hn, .inl rfl⟩)
  · rw [h]; exact .inr (.inr ⟨n, hn, .inr rfl⟩)

mutual
theorem program {env env' start : Env} (X : Ext) (e : Expr) (hg : Calm P (guesses e)) (he : (from' P start).rel env env') :
    Outcome P start (Eval.assignments X e env) (Eval.assignments X e env') := by
  cases e with
  | assign x e =>
    simp only [Eval.assignments]
    exact single X e hg he (fun v env => env.insert x v) fun v _ _ h => (from' P start).insert x v h
  | seq es =>
    simp only [Eval.assignments]
    exact programs X es hg .null he
  | _ =>
    simp only [Eval.assignments]
    exact single X _ hg he (fun _ env => env) fun _ _ _ h => h
theorem programs {env env' start : Env} (X : Ext) (es : List Expr) (hg : Calm P (guessesList es)) (last : Value) (he : (from' P start).rel env env') :
    Outcome P start (Eval.assignmentsSeq X es last env) (Eval.assignmentsSeq X es last env') := by
  cases es with
  | nil => simp only [Eval.assignmentsSeq]; exact .inl ⟨_, _, _, rfl, rfl, he⟩
  | cons e es =>
    simp only [guessesList] at hg
    simp only [Eval.assignmentsSeq]
    rcases program X e hg.left he with ⟨v, en, en', h1, h2, h3⟩ | ⟨f, h1, h2⟩ | ⟨n, hn, h1 | h1⟩
    · rw [h1, h2]; exact programs X es hg.right v h3
    · rw [h1, h2]; exact .inr (.inl ⟨f, rfl, rfl⟩)
    · rw [h1]; exact .inr (.inr ⟨n, hn, .inl rfl⟩)
    · rw [h1]; exact .inr (.inr ⟨n, hn, .inr rfl⟩)
end

/-- C120 for programs with assignments: when the run without the added variables succeeds, the run with them gives the same value, leaves
every variable the first run leaves with the same value, and leaves the other variables as they were given. When it fails, the other fails
alike, or the error names an added variable. -/
theorem C120_assignments_partial (X : Ext) (e : Expr) (env env' : Env) (h : Gives env env') (hs : Steady env env' e) :
    (∀ v en, evalAssignCtx X e env = .ok (v, en) →
      ∃ en', evalAssignCtx X e env' = .ok (v, en') ∧ Gives en en' ∧ ∀ n, en n = none → en' n = env' n) ∧
    (∀ f, evalAssignCtx X e env = .error f → evalAssignCtx X e env' = .error f ∨ ∃ n, Added env env' n ∧ Lacks n (evalAssignCtx X e env)) := by
  have h1 : (from' (Added env env') env').rel env env' := fun n => by
    cases h0 : env n with
    | some v => exact .inl ⟨v, rfl, h n v h0⟩
    | none =>
      cases h3 : env' n with
      | none => exact .inr ⟨rfl, rfl, .inl rfl⟩
      | some v => exact .inr ⟨rfl, rfl, .inr ⟨h0, v, h3⟩⟩
  have hm := program X e (fun g hg n hn => hs g hg n hn) h1
  unfold evalAssignCtx
  constructor
  · intro v en hv
    rcases hm with ⟨w, a, b, h2, h3, h4⟩ | ⟨f, h2, _⟩ | ⟨n, _, h2 | h2⟩
    · rw [hv] at h2
      cases h2
      refine ⟨b, h3, fun n w hw => ?_, fun n hn => ?_⟩
      · rcases h4 n with ⟨u, h5, h6⟩ | ⟨h5, _⟩
        · rw [h6, ← h5, hw]
        · rw [hw] at h5; cases h5
      · rcases h4 n with ⟨u, h5, h6⟩ | ⟨_, h5, _⟩
        · rw [hn] at h5; cases h5
        · exact h5
    · rw [hv] at h2; cases h2
    · rw [hv] at h2; cases h2
    · rw [hv] at h2; cases h2
  · intro f hf
    rcases hm with ⟨w, a, b, h2, h3, h4⟩ | ⟨g, h2, h3⟩ | ⟨n, hn, h2⟩
    · rw [hf] at h2; cases h2
    · rw [hf] at h2; cases h2; exact .inl h3
    · exact .inr ⟨n, hn, h2⟩

/-- C120 for the text: whatever `evaluate_with` and `evaluate_with_custom` answer without the added variables they answer with them, unless
the answer is the error naming one of them. -/
theorem C120_text_partial (X : Ext) (reg : Registry) (text : Str) (env env' : Env) (h : Gives env env')
    (hs : ∀ e, Lib.parse text = .ok e → Steady env env' e) :
    (Lib.evaluateWith X text env = Lib.evaluateWith X text env' ∨ ∃ n, Added env env' n ∧ Lacks n (Lib.evaluateWith X text env)) ∧
    (Lib.evaluateWithCustom X reg text env = Lib.evaluateWithCustom X reg text env' ∨ ∃ n, Added env env' n ∧ Lacks n (Lib.evaluateWithCustom X reg text env)) := by
  unfold Lib.evaluateWith Lib.evaluateWithCustom evalVars evalCustom
  cases hp : Lib.parse text with
  | error f => exact ⟨.inl rfl, .inl rfl⟩
  | ok e =>
    exact ⟨(C120_missing_partial X e none env env' h (hs e hp)).imp id fun ⟨n, _, h1, h2⟩ => ⟨n, h1, h2⟩,
      (C120_missing_partial X e (some reg) env env' h (hs e hp)).imp id fun ⟨n, _, h1, h2⟩ => ⟨n, h1, h2⟩⟩

/-- A map with one variable. -/
def Spec.just (n : Str) (v : Value) : Env := fun m => if m = n then some v else none

theorem gives_just (n : Str) (v : Value) : Gives Env.empty (just n v) := fun _ _ h => by cases h

/-- Giving a variable can change a result that needs no variable: without `x` the criterion below is taken for a lambda, whose element is
a number and no truth value, so nothing is added up; with `x` given it is a criterion, and the elements equal to it are added up. -/
theorem C120_sumif_reads (X : Ext) : Lib.evaluateWith X c!"SUMIF([1, 2, 3], :x)" Env.empty = .ok (.num (.zero false)) ∧
    Lib.evaluateWith X c!"SUMIF([1, 2, 3], :x)" (just c!"x" (.num (F64.ofNat 2))) = .ok (.num (F64.ofNat 2)) :=
  ⟨by kernel_rfl, by kernel_rfl⟩

/-- It can also take a result away: in a method argument a name of `REDUCE` that cannot be read is not an error but stands for `x`, so
the expression below has a value, unless its variable is given. -/
theorem C120_reduce_name (X : Ext) (hX : X.lower c!"between" = c!"between") :
    Lib.evaluateWith X c!"2.between(1, REDUCE([1, 2], :acc + :x, 0, :p, \"acc\"))" Env.empty = .ok (.bool true) ∧
    Lib.evaluateWith X c!"2.between(1, REDUCE([1, 2], :acc + :x, 0, :p, \"acc\"))" (just c!"p" (.str c!"y")) = fail "Missing variable: :{}" [c!"x"] := by
  have hp : Lib.parse c!"2.between(1, REDUCE([1, 2], :acc + :x, 0, :p, \"acc\"))" =
      .ok (.method (.number (F64.ofNat 2)) c!"between" [.number (F64.ofNat 1), .call c!"REDUCE" [.array [.number (F64.ofNat 1), .number (F64.ofNat 2)],
        .binary (.var c!"acc") .add (.var c!"x"), .number (F64.ofNat 0), .var c!"p", .strLit c!"acc"]] false) := by kernel_rfl
  unfold Lib.evaluateWith
  rw [hp]
  constructor <;>
  · simp only [bind, Except.bind, evalVars, Eval.eval, Method.exec, Method.onNumber, hX]
    kernel_rfl

/-- A case of C120: `:a + :b` without and with `b`, and a criterion that reads `a` and the element. -/
example (X : Ext) : Gives (just c!"a" (.num (F64.ofNat 1))) ((just c!"a" (.num (F64.ofNat 1))).insert c!"b" (.num (F64.ofNat 2))) ∧
    Added (just c!"a" (.num (F64.ofNat 1))) ((just c!"a" (.num (F64.ofNat 1))).insert c!"b" (.num (F64.ofNat 2))) c!"b" ∧
    (∀ env env', Steady env env' (.binary (.var c!"a") .add (.var c!"b"))) ∧
    guesses (.call c!"SUMIF" [.array [.number (F64.ofNat 1)], .binary (.var c!"x") .gt (.var c!"a")]) = [.binary (.var c!"x") .gt (.var c!"a")] ∧
    Lacks c!"b" (Lib.evaluateWith X c!":a + :b" (just c!"a" (.num (F64.ofNat 1)))) ∧
    Lib.evaluateWith X c!":a + :b" ((just c!"a" (.num (F64.ofNat 1))).insert c!"b" (.num (F64.ofNat 2))) = .ok (.num (F64.ofNat 3)) ∧
    Lib.evaluateWith X c!"SUMIF([1, 3], :x > :a)" (just c!"a" (.num (F64.ofNat 1))) = .ok (.num (F64.ofNat 3)) := by
  refine ⟨?_, ⟨by kernel_rfl, .num (F64.ofNat 2), by kernel_rfl⟩, fun env env' g hg => by simp [guesses] at hg, by kernel_rfl, .inl (by kernel_rfl), by kernel_rfl, by kernel_rfl⟩
  intro n v h
  simp only [just] at h
  by_cases hn : n = c!"a"
  · subst hn; simpa [Env.insert, just] using h
  · simp [hn] at h

end Missing
