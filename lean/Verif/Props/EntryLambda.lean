import Verif.Props.Forms
import Verif.Props.Entry
/-! C10, the entry points agree: `evaluate_with_custom` with an empty registry and methods that take a lambda. -/

open Lib Spec

/-- An index or slice bound that is written as a number, perhaps with a minus sign, of magnitude below 2^31. -/
def Spec.SmallBound : Expr → Prop
  | .number (.zero _) | .unary .minus (.number (.zero _)) => True
  | .number (.fin q) | .unary .minus (.number (.fin q)) => -2147483648 < q ∧ q < 2147483648
  | _ => False

/-- A bound that is absent or such a number. -/
def Spec.SmallBoundOpt : Option Expr → Prop
  | none => True
  | some e => Spec.SmallBound e

/-- The arguments of a call of REDUCE name its parameters "x" and "acc". -/
def Spec.XAccReduce : List Expr → Prop
  | [_, _, _, .strLit p, .strLit q] => p = c!"x" ∧ q = c!"acc"
  | _ => False

mutual
/-- Lambdas of methods that do not notice an empty registry: nested FILTER, FIND and MAP do not name their parameter, nested REDUCE
names "x" and "acc", indices and slice bounds are small literals. -/
def Spec.Unaware (X : Ext) : Expr → Prop
  | .number _ | .strLit _ | .null | .var _ => True
  | .unary _ e | .prop e _ | .safeProp e _ | .spread e | .cast e _ | .assign _ e => Spec.Unaware X e
  | .binary a _ b => Spec.Unaware X a ∧ Spec.Unaware X b
  | .index t i => Spec.Unaware X t ∧ Spec.SmallBound i
  | .slice t a b => Spec.Unaware X t ∧ Spec.SmallBoundOpt a ∧ Spec.SmallBoundOpt b
  | .call n es =>
    (n ∈ [c!"FILTER", c!"FIND", c!"MAP"] → es.length ≤ 2) ∧ (n = c!"REDUCE" → Spec.XAccReduce es) ∧ Spec.UnawareList X es
  | .array es | .seq es => Spec.UnawareList X es
  | .object ms => Spec.UnawareMembers X ms
  | .safeCall t n es | .method t n es _ => Spec.Unaware X t ∧ (X.lower n ∈ Spec.lambdaMethods → Spec.UnawareList X es)
/-- Of a list. -/
def Spec.UnawareList (X : Ext) : List Expr → Prop
  | [] => True
  | e :: es => Spec.Unaware X e ∧ Spec.UnawareList X es
/-- Of object members. -/
def Spec.UnawareMembers (X : Ext) : List (Str × Expr) → Prop
  | [] => True
  | (_, e) :: es => Spec.Unaware X e ∧ Spec.UnawareMembers X es
end

mutual
/-- All lambdas of methods are of that kind; nothing is asked of the rest of the program. -/
def Spec.LambdasUnaware (X : Ext) : Expr → Prop
  | .number _ | .strLit _ | .null | .var _ => True
  | .unary _ e | .prop e _ | .safeProp e _ | .spread e | .cast e _ | .assign _ e => Spec.LambdasUnaware X e
  | .binary a _ b | .index a b => Spec.LambdasUnaware X a ∧ Spec.LambdasUnaware X b
  | .call _ es | .array es | .seq es => Spec.LambdasUnawareList X es
  | .object ms => Spec.LambdasUnawareMembers X ms
  | .safeCall t n es | .method t n es _ => Spec.LambdasUnaware X t ∧ (X.lower n ∈ Spec.lambdaMethods → Spec.UnawareList X es)
  | .slice t a b => Spec.LambdasUnaware X t ∧ Spec.LambdasUnawareOpt X a ∧ Spec.LambdasUnawareOpt X b
/-- Of a list. -/
def Spec.LambdasUnawareList (X : Ext) : List Expr → Prop
  | [] => True
  | e :: es => Spec.LambdasUnaware X e ∧ Spec.LambdasUnawareList X es
/-- Of object members. -/
def Spec.LambdasUnawareMembers (X : Ext) : List (Str × Expr) → Prop
  | [] => True
  | (_, e) :: es => Spec.LambdasUnaware X e ∧ Spec.LambdasUnawareMembers X es
/-- Of an optional operand. -/
def Spec.LambdasUnawareOpt (X : Ext) : Option Expr → Prop
  | none => True
  | some e => Spec.LambdasUnaware X e
end

namespace EmptyReg

abbrev ArgsE (as : List Arg) : Prop := ArgsRel Cong.agree sameEnv (some Registry.empty) none as as

theorem trunc_small {q : Rat} (h1 : -2147483648 < q) (h2 : q < 2147483648) :
    -2147483648 < F64.truncRat q ∧ F64.truncRat q < 2147483648 := by
  unfold F64.truncRat
  split
  · rename_i h0
    have a : q.floor < 2147483648 := by
      have := Rat.floor_le q
      have : (q.floor : Rat) < ((2147483648 : Int) : Rat) := lt_of_le_of_lt this (by simpa using h2)
      exact_mod_cast this
    have b : 0 ≤ q.floor := Rat.le_floor_iff.2 (by simpa using h0)
    omega
  · rename_i h0
    have a : (-q).floor < 2147483648 := by
      have := Rat.floor_le (-q)
      have : ((-q).floor : Rat) < ((2147483648 : Int) : Rat) := lt_of_le_of_lt this (by simp; linarith)
      exact_mod_cast this
    have b : 0 ≤ (-q).floor := Rat.le_floor_iff.2 (by simp; linarith)
    omega

/-- A small bound evaluates to a number both integer conversions read alike. -/
theorem small (X : Ext) (e : Expr) (h : SmallBound e) : ∃ n : F64, (∀ r env, Legacy.eval X e r env = .ok (.num n)) ∧
    n.toI64 = n.toI32 ∧ -2147483648 < n.toI32 ∧ n.toI32 < 2147483648 := by
  have key : ∀ q : Rat, -2147483648 < q → q < 2147483648 → (F64.fin q).toI64 = (F64.fin q).toI32 ∧
      -2147483648 < (F64.fin q).toI32 ∧ (F64.fin q).toI32 < 2147483648 := by
    intro q h1 h2
    have := trunc_small h1 h2
    simp only [F64.toI64, F64.toI32, F64.toIntSat, F64.i64Min, F64.i64Max, F64.i32Min, F64.i32Max]
    repeat' split
    all_goals omega
  have zero : ∀ b : Bool, (F64.zero b).toI64 = (F64.zero b).toI32 ∧ -2147483648 < (F64.zero b).toI32 ∧ (F64.zero b).toI32 < 2147483648 := by
    decide
  unfold SmallBound at h
  split at h
  · rename_i b
    exact ⟨.zero b, fun r env => by simp only [Legacy.eval], zero b⟩
  · rename_i b
    exact ⟨.zero !b, fun r env => by simp only [Legacy.eval, Ops.unary, Value.asNumber]; first | done | rfl, zero !b⟩
  · rename_i q
    exact ⟨.fin q, fun r env => by simp only [Legacy.eval], key _ h.1 h.2⟩
  · rename_i q
    exact ⟨_, fun r env => by simp only [Legacy.eval, Ops.unary, Value.asNumber]; rfl, by simpa only [F64.neg] using key (-q) (by linarith) (by linarith)⟩
  · exact h.elim

theorem index_same (t : Value) (n : F64) (h : n.toI64 = n.toI32) (h1 : -2147483648 < n.toI32) :
    Agree (Legacy.indexCustom t (.num n)) (Legacy.index t (.num n)) := by
  cases t with
  | arr items =>
    simp only [Legacy.indexCustom, Legacy.index, Value.asNumber, h, indexArray, clampIndex, F64.i64Min]
    generalize n.toI32 = k at *
    have hk : ¬ (k = -9223372036854775808) := by omega
    simp only [hk, if_false]
    rcases Int.lt_or_le k 0 with hn | hn
    · have hn' : ¬ 0 ≤ k := by omega
      simp only [if_pos hn, if_neg hn']
      by_cases hl : (-k).toNat ≤ items.length
      · have h' : ¬ ((items.length : Int) + k < 0 ∨ (items.length : Int) ≤ items.length + k) := by omega
        have : ((items.length : Int) + k).toNat = items.length - (-k).toNat := by omega
        simp only [if_neg h', if_pos hl, this]; rfl
      · have h' : (items.length : Int) + k < 0 ∨ (items.length : Int) ≤ items.length + k := by omega
        simp only [if_pos h', if_neg hl]; rfl
    · have hn' : ¬ k < 0 := by omega
      simp only [if_neg hn', if_pos hn]
      by_cases hl : k.toNat < items.length
      · have h' : ¬ (k < 0 ∨ (items.length : Int) ≤ k) := by omega
        simp only [if_neg h', if_pos hl]; rfl
      · have h' : k < 0 ∨ (items.length : Int) ≤ k := by omega
        simp only [if_pos h', if_neg hl]; rfl
  | _ => rfl

/-- A bound as both ways of slicing read it. -/
theorem bound_same (X : Ext) (env : Env) (o : Option Expr) (h : SmallBoundOpt o) (len : Nat) (d : Int) (hd : 0 ≤ d ∧ d ≤ len) (err : String) :
    ∃ (v : Option Value) (a b : Int), Legacy.optional none env (Legacy.optOf X o) = .ok v ∧ sliceBound d v = .ok a ∧
      Legacy.boundCustom (some Registry.empty) env len d err (Legacy.optOf X o) = .ok b ∧ 0 ≤ b ∧ b ≤ len ∧
      b = min (max (if a < 0 then len + a else a) 0) len := by
  cases o with
  | none =>
    refine ⟨none, d, d, rfl, rfl, rfl, hd.1, hd.2, ?_⟩
    split <;> omega
  | some e =>
    obtain ⟨n, h1, h2, h3, h4⟩ := small X e h
    refine ⟨some (.num n), n.toI32, if n.toI32 < 0 then max (len + n.toI32) 0 else min n.toI32 len, ?_, ?_, ?_, ?_⟩
    · simp only [Legacy.optOf, Legacy.optional, h1]; rfl
    · simp only [sliceBound, h2]
    · simp only [Legacy.optOf, Legacy.boundCustom, h1]; rfl
    · split <;> omega

theorem slice_same (X : Ext) (env : Env) (t : Value) (a b : Option Expr) (ha : SmallBoundOpt a) (hb : SmallBoundOpt b) :
    Agree (Legacy.sliceCustom (some Registry.empty) env t (Legacy.optOf X a) (Legacy.optOf X b))
      (match t with
      | .arr items => do
        let s ← Legacy.optional none env (Legacy.optOf X a)
        let e ← Legacy.optional none env (Legacy.optOf X b)
        sliceArray items s e
      | _ => fail "Slice on non-array") := by
  cases t with
  | arr items =>
    obtain ⟨v, x, y, h1, h2, h3, h4, h5, h6⟩ := bound_same X env a ha items.length 0 (by omega) "Slice start must be number"
    obtain ⟨v', x', y', h1', h2', h3', h4', h5', h6'⟩ := bound_same X env b hb items.length items.length (by omega) "Slice end must be number"
    simp only [Legacy.sliceCustom, h1, h3, h1', h3', bind, Except.bind, sliceArray, h2, h2']
    simp only [← h6, ← h6']
    by_cases hle : y ≤ y'
    · rw [if_pos hle, if_neg (by omega)]; rfl
    · rw [if_neg hle, if_pos (by omega)]; rfl
  | _ => rfl

theorem property_same (X : Ext) (f g : Value → Fail) (hf : ∀ v, ∃ m as, f v = .err m as none) (hg : ∀ v, ∃ m as, g v = .err m as none)
    (safe : Bool) (v : Value) (n : Str) : Agree (Ops.property X f safe v n) (Ops.property X g safe v n) := by
  have : ∀ v, Agree (α := Value) (.error (f v)) (.error (g v)) := by
    intro v
    obtain ⟨m, as, h⟩ := hf v
    obtain ⟨m', as', h'⟩ := hg v
    rw [h, h']; rfl
  cases v with
  | json s => rfl
  | null => cases safe <;> first | rfl | exact this _
  | _ => exact this _

theorem noProps_err (X : Ext) (r : Option Registry) (v : Value) : ∃ m as, Legacy.noProps X r v = .err m as none := by
  cases r <;> exact ⟨_, _, rfl⟩

theorem reduce_same {lam lam' : Env → Res Value} (h : ∀ e, Agree (lam e) (lam' e)) (env : Env) (acc : Value) (items : List Value) :
    Agree (Loop.reduceAccFirst lam env acc items) (Loop.reduce lam' c!"x" c!"acc" env acc items) := by
  induction items generalizing env acc with
  | nil => rfl
  | cons v vs ih =>
    have e : ((env.insert c!"acc" acc).insert c!"x" v) = ((env.insert c!"x" v).insert c!"acc" acc) := by
      funext k
      unfold Env.insert
      by_cases h1 : k = c!"x" <;> by_cases h2 : k = c!"acc" <;> simp [h1, h2]
    simp only [Loop.reduceAccFirst, Loop.reduce]
    rw [e]
    exact Cong.agree.bind (h _) fun b => ih _ b

theorem ternary_same {as : List Arg} (h : ArgsE as) (env : Env) :
    Agree (Legacy.ternary (some Registry.empty) env as) (Legacy.ternary none env as) :=
  Sim.ternary (Q := Cong.agree) (E := sameEnv) h rfl

theorem lambda_same {a : Arg} (h : ArgRel Cong.agree sameEnv (some Registry.empty) none a a) (hs : a.spread.isSome → ∀ r env, ∃ m as, a.run r env = fail m as)
    (env : Env) : Agree (a.run (some Registry.empty) env) (Legacy.lambda a env) := by
  unfold Legacy.lambda
  split
  · rename_i hh
    obtain ⟨m, as, h⟩ := hs hh (some Registry.empty) env
    rw [h]; rfl
  · exact h.run env env rfl

theorem argOf_spread (X : Ext) (e : Expr) (h : (Legacy.argOf X e).spread.isSome) (r : Option Registry) (env : Env) :
    ∃ m as, (Legacy.argOf X e).run r env = fail m as := by
  cases e <;> first
    | (simp [Legacy.argOf] at h; done)
    | (simp only [Legacy.argOf, Legacy.eval]; exact ⟨_, _, rfl⟩)

theorem arr_same {f g : List Value → Res Value} (v : Value) (m : String) (h : ∀ items, Agree (f items) (g items)) :
    Agree (match v with | .arr items => f items | _ => fail m) (match v with | .arr items => g items | _ => fail m) := by
  cases v <;> first | rfl | exact h _

theorem legacy_call (X : Ext) (n : Str) (es : List Expr) (env : Env) (h1 : n ∈ [c!"FILTER", c!"FIND", c!"MAP"] → es.length ≤ 2)
    (h2 : n = c!"REDUCE" → XAccReduce es) (hargs : ArgsE (Legacy.argsOf X es)) :
    Agree (Legacy.call X n (Legacy.argsOf X es) (some Registry.empty) env) (Legacy.call X n (Legacy.argsOf X es) none env) := by
  have B := @Cong.bind Cong.agree
  by_cases ht : n = c!"__TERNARY__"
  · simp only [Legacy.call, ht, if_true]; exact ternary_same hargs env
  have hh : Registry.empty.has X n = false := rfl
  simp only [Legacy.call, if_neg ht, hh, Bool.false_eq_true, if_false]
  rw [Legacy.argsOf_eq] at hargs ⊢
  have lam : ∀ l : Expr, ArgRel Cong.agree sameEnv (some Registry.empty) none (Legacy.argOf X l) (Legacy.argOf X l) →
      ∀ e1 e2, sameEnv.rel e1 e2 → Cong.agree.rel ((Legacy.argOf X l).run (some Registry.empty) e1) (Legacy.lambda (Legacy.argOf X l) e2) := by
    rintro l hl e1 e2 rfl; exact lambda_same hl (argOf_spread X l) e1
  by_cases hf : n = c!"FILTER"
  · have h1 := h1 (by simp [hf])
    subst hf
    change Agree (Legacy.filter _ env _) (Legacy.filter none env _)
    match es, h1, hargs with
    | [], _, _ => rfl
    | [a], _, _ => rfl
    | [a, l], _, .cons ha (.cons hl _) =>
      exact B (ha.run env env rfl) fun v => arr_same v _ fun items => B (Sim.filter (lam l hl) c!"x" (sameEnv_rel env) items) fun _ => Cong.agree.refl _
    | _ :: _ :: _ :: _, h1, _ => simp at h1
  by_cases hf : n = c!"FIND"
  · have h1 := h1 (by simp [hf])
    subst hf
    change Agree (Legacy.find _ env _) (Legacy.find none env _)
    match es, h1, hargs with
    | [], _, _ => rfl
    | [a], _, _ => rfl
    | [a, l], _, .cons ha (.cons hl _) =>
      exact B (ha.run env env rfl) fun v => arr_same v _ fun items => Sim.find (lam l hl) c!"x" (sameEnv_rel env) items
    | _ :: _ :: _ :: _, h1, _ => simp at h1
  by_cases hf : n = c!"MAP"
  · have h1 := h1 (by simp [hf])
    subst hf
    change Agree (Legacy.map _ env _) (Legacy.map none env _)
    match es, h1, hargs with
    | [], _, _ => rfl
    | [a], _, _ => rfl
    | [a, l], _, .cons ha (.cons hl _) =>
      exact B (ha.run env env rfl) fun v => arr_same v _ fun items => B (Sim.map (lam l hl) c!"x" (sameEnv_rel env) items) fun _ => Cong.agree.refl _
    | _ :: _ :: _ :: _, h1, _ => simp at h1
  by_cases hf : n = c!"REDUCE"
  · have hx := h2 hf
    subst hf
    change Agree (Legacy.reduce _ env _) (Legacy.reduce none env _)
    match es, hx, hargs with
    | [a, l, i, .strLit p, .strLit q], hx, .cons ha (.cons hl (.cons hi _)) =>
      obtain ⟨rfl, rfl⟩ := hx
      refine B (ha.run env env rfl) fun v => B (hi.run env env rfl) fun acc => ?_
      have e3 : Legacy.paramNameOr env c!"x" (List.map (Legacy.argOf X) [.strLit c!"x", .strLit c!"acc"]).head? = .ok c!"x" := by
        simp [Legacy.paramNameOr, Legacy.paramName, Legacy.eval, bind, Except.bind, pure, Except.pure]
      have e4 : Legacy.paramNameOr env c!"acc" (List.map (Legacy.argOf X) [.strLit c!"x", .strLit c!"acc"])[1]? = .ok c!"acc" := by
        simp [Legacy.paramNameOr, Legacy.paramName, Legacy.eval, bind, Except.bind, pure, Except.pure]
      rw [e3, e4]
      exact arr_same v _ fun items => reduce_same (fun e => lam l hl e e rfl) env acc items
  by_cases hf : n = c!"SUMIF"
  · subst hf
    change Agree (Legacy.sumif _ env _) (Legacy.sumif none env _)
    match es, hargs with
    | [], _ => rfl
    | [a], _ => rfl
    | [a, l], .cons ha (.cons hl _) =>
      exact B (ha.run env env rfl) fun v => arr_same v _ fun items => B (Sim.sumif hl.run (sameEnv_rel env) _ items) fun _ => Cong.agree.refl _
    | _ :: _ :: _ :: _, _ => rfl
  by_cases hf : n = c!"AVGIF"
  · subst hf
    change Agree (Legacy.avgif _ env _) (Legacy.avgif none env _)
    match es, hargs with
    | [], _ => rfl
    | [a], _ => rfl
    | [a, l], .cons ha (.cons hl _) =>
      exact B (ha.run env env rfl) fun v => arr_same v _ fun items => B (Sim.avgif hl.run (sameEnv_rel env) _ _ items) fun _ => Cong.agree.refl _
    | _ :: _ :: _ :: _, _ => rfl
  by_cases hf : n = c!"COUNTIF"
  · subst hf
    change Agree (Legacy.countif _ env _) (Legacy.countif none env _)
    match es, hargs with
    | [], _ => rfl
    | [a], _ => rfl
    | [a, l], .cons ha (.cons hl _) =>
      exact B (ha.run env env rfl) fun v => arr_same v _ fun items => B (Sim.countif hl.run (sameEnv_rel env) _ items) fun _ => Cong.agree.refl _
    | _ :: _ :: _ :: _, _ => rfl
  have e2 : Legacy.higherOrder n = none := by simp [Legacy.higherOrder, *]
  rw [e2]
  exact B (Sim.evalArgs hargs (sameEnv_rel env)) fun vs => Cong.agree.refl _

theorem exec_same (X : Ext) (n : Str) (es : List Expr) (env : Env) (p : Bool) (v : Value)
    (h : X.lower n ∈ lambdaMethods → ArgsE (Legacy.argsOf X es)) :
    Agree (Method.exec X (some Registry.empty) env n p v (Legacy.argsOf X es)) (Method.exec X none env n p v (Legacy.argsOf X es)) := by
  by_cases hn : X.lower n ∈ lambdaMethods
  · exact Sim.exec_lambda (Q := Cong.agree) (E := sameEnv) (h hn) rfl X n p v hn
  · rw [Method.exec_registry_irrelevant X _ none env n p v _ hn]; rfl

mutual
theorem legacy (X : Ext) (e : Expr) (h : Unaware X e) (env : Env) :
    Agree (Legacy.eval X e (some Registry.empty) env) (Legacy.eval X e none env) := by
  have B := @Cong.bind Cong.agree
  cases e with
  | number _ => rfl
  | strLit _ => rfl
  | null => rfl
  | spread _ => simp only [Legacy.eval]; rfl
  | var n => simp only [Legacy.eval]; cases env n <;> rfl
  | unary op e => simp only [Legacy.eval]; exact B (legacy X e h env) fun v => Cong.agree.refl _
  | prop e n =>
    simp only [Legacy.eval]
    exact B (legacy X e h env) fun v => property_same X _ _ (noProps_err X _) (noProps_err X _) _ _ _
  | safeProp e n =>
    simp only [Legacy.eval]
    exact B (legacy X e h env) fun v => property_same X _ _ (noProps_err X _) (noProps_err X _) _ _ _
  | cast e t => simp only [Legacy.eval]; exact B (legacy X e h env) fun v => Cong.agree.refl _
  | assign x e => simp only [Legacy.eval]; exact legacy X e h env
  | binary a op b =>
    simp only [Unaware] at h
    simp only [Legacy.eval]
    exact B (legacy X a h.1 env) fun v => B (legacy X b h.2 env) fun w => Cong.agree.refl _
  | index t i =>
    simp only [Unaware] at h
    obtain ⟨n, h1, h2, h3, _⟩ := small X i h.2
    simp only [Legacy.eval, h1]
    exact B (legacy X t h.1 env) fun v => index_same v n h2 h3
  | slice t a b =>
    simp only [Unaware] at h
    simp only [Legacy.eval]
    exact B (legacy X t h.1 env) fun v => slice_same X env v a b h.2.1 h.2.2
  | call n es =>
    simp only [Unaware] at h
    simp only [Legacy.eval]
    exact legacy_call X n es env h.1 h.2.1 (legacy_args X es h.2.2)
  | array es =>
    simp only [Legacy.eval]
    exact B (Sim.elements (legacy_args X es h) (sameEnv_rel env)) fun v => Cong.agree.refl _
  | seq es =>
    simp only [Legacy.eval]
    exact Sim.lastOf (legacy_args X es h) (sameEnv_rel env) .null
  | object ms =>
    simp only [Legacy.eval]
    exact B (Sim.objectMembers X (legacy_members X ms h) (sameEnv_rel env) []) fun v => Cong.agree.refl _
  | safeCall t n es =>
    simp only [Unaware] at h
    simp only [Legacy.eval]
    refine B (legacy X t h.1 env) fun v => ?_
    have := exec_same X n es env false v fun hn => legacy_args X es (h.2 hn)
    cases v <;> first | rfl | exact this
  | method t n es p =>
    simp only [Unaware] at h
    simp only [Legacy.eval]
    exact B (legacy X t h.1 env) fun v => exec_same X n es env p v fun hn => legacy_args X es (h.2 hn)
theorem legacy_args (X : Ext) (es : List Expr) (h : UnawareList X es) : ArgsE (Legacy.argsOf X es) := by
  cases es with
  | nil => unfold ArgsE; simp only [Legacy.argsOf]; exact .nil
  | cons e es =>
    simp only [UnawareList] at h
    unfold ArgsE
    rw [Legacy.argsOf_cons]
    refine .cons ?_ (legacy_args X es h.2)
    have hrun : DenRel Cong.agree sameEnv (some Registry.empty) none (Legacy.eval X e) (Legacy.eval X e) := by
      rintro e1 e2 rfl; exact legacy X e h.1 e1
    cases e with
    | spread e =>
      refine ⟨hrun, rfl, ?_⟩
      rintro e1 e2 rfl; exact legacy X e h.1 e1
    | _ => exact ⟨hrun, rfl, trivial⟩
theorem legacy_members (X : Ext) (ms : List (Str × Expr)) (h : UnawareMembers X ms) :
    List.Forall₂ (fun m m' => m.1 = m'.1 ∧ DenRel Cong.agree sameEnv (some Registry.empty) none m.2 m'.2) (Legacy.membersOf X ms) (Legacy.membersOf X ms) := by
  cases ms with
  | nil => simp only [Legacy.membersOf]; exact .nil
  | cons m ms =>
    obtain ⟨k, e⟩ := m
    simp only [UnawareMembers] at h
    simp only [Legacy.membersOf]
    refine .cons ⟨rfl, ?_⟩ (legacy_members X ms h.2)
    rintro e1 e2 rfl; exact legacy X e h.1 e1
end

theorem param_same {l : List Arg} (h : ArgsE l) (env : Env) (d : Str) (i : Nat) :
    Agree (Eval.paramName (some Registry.empty) env d l[i]?) (Eval.paramName none env d l[i]?) := by
  cases hi : l[i]? with
  | none => rfl
  | some a =>
    have : ArgRel Cong.agree sameEnv (some Registry.empty) none a a := by
      have hlt := (List.getElem?_eq_some_iff.1 hi)
      obtain ⟨hl, he⟩ := hlt
      have := (List.forall₂_iff_get.1 h).2 i hl hl
      simpa [he] using this
    exact Cong.agree.bind (this.run env env rfl) fun v => Cong.agree.refl _

theorem static_same {a : Arg} (h : ArgRel Cong.agree sameEnv (some Registry.empty) none a a) (env : Env) :
    Agree (Eval.staticCriterion (some Registry.empty) env a) (Eval.staticCriterion none env a) := by
  have := h.run env env rfl
  unfold Eval.staticCriterion
  change outcome _ = outcome _ at this
  cases h1 : a.run (some Registry.empty) env with
  | ok v =>
    cases h2 : a.run none env with
    | ok w => rw [h1, h2] at this; simp only [outcome, Except.ok.injEq] at this; subst this; rfl
    | error f => rw [h1, h2] at this; cases f <;> simp [outcome] at this
  | error f =>
    cases h2 : a.run none env with
    | ok w => rw [h1, h2] at this; cases f <;> simp [outcome] at this
    | error g =>
      rw [h1, h2] at this
      cases f <;> cases g <;> simp [outcome] at this
      · rfl
      · subst this; rfl

theorem eval_higherOrder {as : List Arg} (h : ArgsE as) (X : Ext) (env : Env) (n : Str) (f) (hf : Eval.higherOrder X n = some f) :
    Agree (f (some Registry.empty) env as) (f none env as) := by
  have B := @Cong.bind Cong.agree
  have R := @Cong.refl Cong.agree
  have H : ∀ {l : List Arg}, ArgsE l → ∀ d, Agree (Eval.paramName (some Registry.empty) env d l.head?) (Eval.paramName none env d l.head?) := by
    intro l h d; rw [List.head?_eq_getElem?]; exact param_same h env d 0
  unfold Eval.higherOrder at hf
  repeat' split at hf
  all_goals try (simp only [Option.some.injEq, reduceCtorEq] at hf; subst hf)
  · match as, h with
    | [], _ => rfl
    | [_], _ => rfl
    | a :: l :: rest, .cons h1 (.cons h2 h) => exact B (h1.run env env rfl) fun v => B (H h _) fun p => R _
  · match as, h with
    | [], _ => rfl
    | [_], _ => rfl
    | a :: l :: rest, .cons h1 (.cons h2 h) => exact B (h1.run env env rfl) fun v => B (H h _) fun p => R _
  · match as, h with
    | [], _ => rfl
    | [_], _ => rfl
    | a :: l :: rest, .cons h1 (.cons h2 h) => exact B (h1.run env env rfl) fun v => B (H h _) fun p => R _
  · match as, h with
    | [], _ => rfl
    | [_], _ => rfl
    | [_, _], _ => rfl
    | a :: l :: i :: rest, .cons h1 (.cons h2 (.cons h3 h)) =>
      exact B (h1.run env env rfl) fun v => B (h3.run env env rfl) fun acc => B (H h _) fun p => B (param_same h env _ 1) fun q => R _
  · match as, h with
    | [], _ => rfl
    | [_], _ => rfl
    | [a, l], .cons h1 (.cons h2 h) =>
      exact B (h1.run env env rfl) fun v => B (R _) fun s => B (static_same h2 env) fun c => R _
    | [a, l, t], .cons h1 (.cons h2 (.cons h3 h)) =>
      exact B (h1.run env env rfl) fun v => B (h3.run env env rfl) fun s => B (R _) fun s => B (static_same h2 env) fun c => R _
    | _ :: _ :: _ :: _ :: _, _ => rfl
  · match as, h with
    | [], _ => rfl
    | [_], _ => rfl
    | [a, l], .cons h1 (.cons h2 h) => exact B (h1.run env env rfl) fun v => R _
    | _ :: _ :: _ :: _, _ => rfl
  · match as, h with
    | [], _ => rfl
    | [_], _ => rfl
    | [a, l], .cons h1 (.cons h2 h) => exact B (h1.run env env rfl) fun v => R _
    | _ :: _ :: _ :: _, _ => rfl
  · match as, h with
    | [], _ => rfl
    | [_], _ => rfl
    | [a, l], .cons h1 (.cons h2 h) => exact B (h1.run env env rfl) fun v => B (h2.run env env rfl) fun w => R _
    | _ :: _ :: _ :: _, _ => rfl
  · simp at hf

theorem eval_call {as : List Arg} (h : ArgsE as) (X : Ext) (n : Str) (env : Env) :
    Agree (Eval.call X n as (some Registry.empty) env) (Eval.call X n as none env) := by
  have hh : Registry.empty.has X n = false := rfl
  simp only [Eval.call, hh, Bool.false_eq_true, if_false]
  refine Sim.ite (Q := Cong.agree) (ternary_same h env) (Sim.ite (Q := Cong.agree) rfl (Sim.ite (Q := Cong.agree) rfl ?_))
  cases hf : Eval.higherOrder X n with
  | none => exact Cong.agree.bind (Sim.evalArgs h (sameEnv_rel env)) fun vs => Cong.agree.refl _
  | some f => exact eval_higherOrder h X env n f hf

mutual
theorem eval (X : Ext) (e : Expr) (h : LambdasUnaware X e) (env : Env) :
    Agree (Eval.eval X e (some Registry.empty) env) (Eval.eval X e none env) := by
  have B := @Cong.bind Cong.agree
  cases e with
  | number _ => rfl
  | strLit _ => rfl
  | null => rfl
  | var n => rfl
  | spread _ => simp only [Eval.eval]; rfl
  | unary op e => simp only [Eval.eval]; exact B (eval X e h env) fun v => Cong.agree.refl _
  | prop e n => simp only [Eval.eval]; exact B (eval X e h env) fun v => Cong.agree.refl _
  | safeProp e n => simp only [Eval.eval]; exact B (eval X e h env) fun v => Cong.agree.refl _
  | cast e t => simp only [Eval.eval]; exact B (eval X e h env) fun v => Cong.agree.refl _
  | assign x e => simp only [Eval.eval]; exact eval X e h env
  | binary a op b =>
    simp only [LambdasUnaware] at h
    simp only [Eval.eval]
    exact B (eval X a h.1 env) fun v => B (eval X b h.2 env) fun w => Cong.agree.refl _
  | index a b =>
    simp only [LambdasUnaware] at h
    simp only [Eval.eval]
    exact B (eval X a h.1 env) fun v => B (eval X b h.2 env) fun w => Cong.agree.refl _
  | slice t a b =>
    simp only [LambdasUnaware] at h
    simp only [Eval.eval]
    refine B (eval X t h.1 env) fun v => ?_
    cases v <;> first
      | rfl
      | exact B (Sim.optional (eval_opt X a h.2.1) (sameEnv_rel env)) fun s =>
          B (Sim.optional (eval_opt X b h.2.2) (sameEnv_rel env)) fun e => Cong.agree.refl _
  | call n es =>
    simp only [Eval.eval]
    exact eval_call (eval_args X es h) X n env
  | array es =>
    simp only [Eval.eval]
    exact B (Sim.elements (eval_args X es h) (sameEnv_rel env)) fun v => Cong.agree.refl _
  | seq es =>
    simp only [Eval.eval]
    exact Sim.lastOf (eval_args X es h) (sameEnv_rel env) .null
  | object ms =>
    simp only [Eval.eval]
    exact B (Sim.objectMembers X (eval_members X ms h) (sameEnv_rel env) []) fun v => Cong.agree.refl _
  | safeCall t n es =>
    simp only [LambdasUnaware] at h
    simp only [Eval.eval]
    refine B (eval X t h.1 env) fun v => ?_
    have := exec_same X n es env false v fun hn => legacy_args X es (h.2 hn)
    cases v <;> first | rfl | exact this
  | method t n es p =>
    simp only [LambdasUnaware] at h
    simp only [Eval.eval]
    exact B (eval X t h.1 env) fun v => exec_same X n es env p v fun hn => legacy_args X es (h.2 hn)
theorem eval_args (X : Ext) (es : List Expr) (h : LambdasUnawareList X es) : ArgsE (Eval.argsOf X es) := by
  cases es with
  | nil => unfold ArgsE; simp only [Eval.argsOf]; exact .nil
  | cons e es =>
    simp only [LambdasUnawareList] at h
    unfold ArgsE
    rw [Eval.argsOf_cons]
    refine .cons ?_ (eval_args X es h.2)
    have hrun : DenRel Cong.agree sameEnv (some Registry.empty) none (Eval.eval X e) (Eval.eval X e) := by
      rintro e1 e2 rfl; exact eval X e h.1 e1
    cases e with
    | spread e =>
      refine ⟨hrun, rfl, ?_⟩
      rintro e1 e2 rfl; exact eval X e h.1 e1
    | _ => exact ⟨hrun, rfl, trivial⟩
theorem eval_members (X : Ext) (ms : List (Str × Expr)) (h : LambdasUnawareMembers X ms) :
    List.Forall₂ (fun m m' => m.1 = m'.1 ∧ DenRel Cong.agree sameEnv (some Registry.empty) none m.2 m'.2) (Eval.membersOf X ms) (Eval.membersOf X ms) := by
  cases ms with
  | nil => simp only [Eval.membersOf]; exact .nil
  | cons m ms =>
    obtain ⟨k, e⟩ := m
    simp only [LambdasUnawareMembers] at h
    simp only [Eval.membersOf]
    refine .cons ⟨rfl, ?_⟩ (eval_members X ms h.2)
    rintro e1 e2 rfl; exact eval X e h.1 e1
theorem eval_opt (X : Ext) (o : Option Expr) (h : LambdasUnawareOpt X o) :
    (match Eval.optOf X o, Eval.optOf X o with
      | none, none => True
      | some d, some d' => DenRel Cong.agree sameEnv (some Registry.empty) none d d'
      | _, _ => False) := by
  cases o with
  | none => simp only [Eval.optOf]
  | some e =>
    simp only [Eval.optOf]
    rintro e1 e2 rfl; exact eval X e h e1
end

end EmptyReg

/-- C10, partial: with an empty registry `evaluate_with_custom` and `evaluate_with` give the same value, fail together (texts of errors
may differ) or panic together, for every program whose method lambdas do not name the parameters of nested FILTER, FIND, MAP and REDUCE
(REDUCE: other than "x" and "acc") and index and slice by literals below 2^31. Missing: other lambdas, for which it is false
(`C10_custom_with_empty_registry_differs`, `C10_custom_with_empty_registry_differs_more`), and the texts of errors. -/
theorem C10_custom_with_empty_registry_lambdas_partial (X : Ext) (s : Str) (e : Expr) (env : Env) (hp : parse s = .ok e)
    (h : LambdasUnaware X e) : Agree (evaluateWithCustom X Registry.empty s env) (evaluateWith X s env) := by
  unfold evaluateWithCustom evaluateWith evalCustom evalVars
  rw [hp]
  exact EmptyReg.eval X e h env

/-- A case of it: nested lambdas, a FILTER, an index and a slice inside them, and named parameters outside them. -/
example (X : Ext) : ∃ e, parse c!"MAP(:y, :z.map(FILTER(:x, :x > :limit)[-1] + :x[1:].reduce(:acc + :x, 0)), \"z\")" = .ok e ∧ LambdasUnaware X e := by
  refine ⟨.call c!"MAP" [.var c!"y", .method (.var c!"z") c!"map" [.binary
    (.index (.call c!"FILTER" [.var c!"x", .binary (.var c!"x") .gt (.var c!"limit")]) (.unary .minus (.number (F64.ofNat 1)))) .add
    (.method (.slice (.var c!"x") (some (.number (F64.ofNat 1))) none) c!"reduce" [.binary (.var c!"acc") .add (.var c!"x"),
      .number (F64.ofNat 0)] false)] false, .strLit c!"z"], by kernel_rfl, ?_⟩
  have h1 : F64.ofNat 1 = .fin 1 := by kernel_rfl
  rw [h1]
  simp [LambdasUnaware, LambdasUnawareList, Unaware, UnawareList, SmallBound, SmallBoundOpt]
  intro _; norm_num

/-- C10 fails in further ways for `evaluate_with_custom` with an empty registry, each of them excluded above: inside a method lambda, a nested
REDUCE sees its accumulator, and an index converted to 32 bits does not overflow. -/
theorem C10_custom_with_empty_registry_differs_more (X : Ext) :
    evaluateWith X c!"[[1, 2]].map(REDUCE(:x, :acc + :x, 0))" Env.empty = fail "Missing variable: :{}" [c!"acc"] ∧
    evaluateWithCustom X Registry.empty c!"[[1, 2]].map(REDUCE(:x, :acc + :x, 0))" Env.empty = .ok (.arr [.num (F64.ofNat 3)]) ∧
    evaluateWith X c!"[[1]].map(:x[-9223372036854775808])" Env.empty = panics "attempt to negate with overflow" ∧
    evaluateWithCustom X Registry.empty c!"[[1]].map(:x[-9223372036854775808])" Env.empty = fail "Index out of bounds" :=
  ⟨by kernel_rfl, by kernel_rfl, by kernel_rfl, by kernel_rfl⟩
