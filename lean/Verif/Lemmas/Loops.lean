import Verif.Lemmas.EvalBasic
/-! The loops of the higher-order functions in closed form. -/

/-- The elements whose answer is `true`. -/
def Spec.select (items answers : List Value) : List Value :=
  ((items.zip answers).filter fun p => isTrue p.2).map Prod.fst

namespace Loop

theorem filter_eq (lam : Env → Res Value) (p : Str) (env : Env) (items : List Value) :
    filter lam p env items = (items.mapM fun v => lam (env.insert p v)).map (Spec.select items) := by
  induction items generalizing env with
  | nil => rfl
  | cons v items ih =>
    rw [filter, List.mapM_cons]
    simp only [ih, Env.insert_same]
    cases lam (env.insert p v) with
    | error f => rfl
    | ok b =>
      cases items.mapM fun v => lam (env.insert p v) with
      | error f => rfl
      | ok bs =>
        simp only [bind, Except.bind, pure, Except.pure, Except.map, Spec.select, List.zip_cons_cons, List.filter_cons]
        split <;> simp_all

theorem map_eq (lam : Env → Res Value) (p : Str) (env : Env) (items : List Value) :
    map lam p env items = items.mapM fun v => lam (env.insert p v) := by
  induction items generalizing env with
  | nil => rfl
  | cons v items ih =>
    rw [map, List.mapM_cons]
    simp only [ih, Env.insert_same]

theorem reduce_eq (lam : Env → Res Value) (p q : Str) (env : Env) (acc : Value) (items : List Value) :
    reduce lam p q env acc items = items.foldlM (fun acc v => lam ((env.insert p v).insert q acc)) acc := by
  induction items generalizing env acc with
  | nil => rfl
  | cons v items ih =>
    rw [reduce, List.foldlM_cons]
    simp only [ih]
    have : ∀ (a w b : Value), ((((env.insert p v).insert q a).insert p w).insert q b) = ((env.insert p w).insert q b) := by
      intro a w b
      funext n; simp only [Env.insert]; split
      · rfl
      · split <;> rfl
    simp only [this]

theorem countif_eq (lam : Env → Res Value) (env : Env) (n : Nat) (items : List Value) :
    countif lam env n items =
      (items.mapM fun v => lam (env.insert c!"x" v)).map fun bs => n + (Spec.select items bs).length := by
  induction items generalizing env n with
  | nil => rfl
  | cons v items ih =>
    rw [countif, List.mapM_cons]
    simp only [ih, Env.insert_same]
    cases lam (env.insert c!"x" v) with
    | error f => rfl
    | ok b =>
      cases items.mapM fun v => lam (env.insert c!"x" v) with
      | error f => rfl
      | ok bs =>
        simp only [bind, Except.bind, pure, Except.pure, Except.map, Spec.select, List.zip_cons_cons, List.filter_cons]
        split <;> simp_all <;> omega

/-- The numbers among the values: numbers and currencies. -/
def _root_.Spec.amounts : List Value → List F64
  | [] => []
  | .num n :: vs => n :: Spec.amounts vs
  | .cur n :: vs => n :: Spec.amounts vs
  | _ :: vs => Spec.amounts vs

/-- Left-to-right floating-point sum from zero. -/
def _root_.Spec.sum (xs : List F64) : F64 := xs.foldl F64.add (.zero false)

theorem amounts_cons (v : Value) (vs : List Value) (acc : F64) :
    (Spec.amounts (v :: vs)).foldl F64.add acc = (Spec.amounts vs).foldl F64.add (addTo acc v) := by
  cases v <;> rfl

theorem sumif_eq (lam : Env → Res Value) (env : Env) (acc : F64) (items : List Value) :
    sumif lam env acc items =
      (items.mapM fun v => lam (env.insert c!"x" v)).map fun bs => (Spec.amounts (Spec.select items bs)).foldl F64.add acc := by
  induction items generalizing env acc with
  | nil => rfl
  | cons v items ih =>
    rw [sumif, List.mapM_cons]
    simp only [ih, Env.insert_same]
    cases lam (env.insert c!"x" v) with
    | error f => rfl
    | ok b =>
      cases items.mapM fun v => lam (env.insert c!"x" v) with
      | error f => rfl
      | ok bs =>
        simp only [bind, Except.bind, pure, Except.pure, Except.map, Spec.select, List.zip_cons_cons, List.filter_cons]
        split
        · rw [List.map_cons, amounts_cons]
        · rfl

theorem avgif_eq (lam : Env → Res Value) (env : Env) (acc : F64) (n : Nat) (items : List Value) :
    avgif lam env acc n items =
      (items.mapM fun v => lam (env.insert c!"x" v)).map fun bs =>
        ((Spec.amounts (Spec.select items bs)).foldl F64.add acc, n + (Spec.amounts (Spec.select items bs)).length) := by
  induction items generalizing env acc n with
  | nil => rfl
  | cons v items ih =>
    rw [avgif, List.mapM_cons]
    simp only [ih, Env.insert_same]
    cases lam (env.insert c!"x" v) with
    | error f => rfl
    | ok b =>
      cases items.mapM fun v => lam (env.insert c!"x" v) with
      | error f => simp [bind, Except.bind, Except.map]
      | ok bs =>
        simp only [bind, Except.bind, pure, Except.pure, Except.map, Spec.select, List.zip_cons_cons, List.filter_cons]
        cases hb : isTrue b with
        | false => simp
        | true =>
          cases v <;> simp [isAmount, addTo, Spec.amounts] <;> omega

theorem find_ok (lam : Env → Res Value) (p : Str) (env : Env) (items : List Value) (w : Value) :
    find lam p env items = .ok w ↔
      (∃ pre post, items = pre ++ w :: post ∧ (∀ u ∈ pre, ∃ b, lam (env.insert p u) = .ok b ∧ b ≠ .bool true) ∧
        lam (env.insert p w) = .ok (.bool true)) ∨
      (w = .null ∧ ∀ u ∈ items, ∃ b, lam (env.insert p u) = .ok b ∧ b ≠ .bool true) := by
  induction items generalizing env with
  | nil => simp [find, eq_comm]
  | cons v items ih =>
    rw [find]
    have ih := ih (env.insert p v)
    simp only [Env.insert_same] at ih
    cases hv : lam (env.insert p v) with
    | error f =>
      simp only [bind, Except.bind, reduceCtorEq, false_iff]
      rintro (⟨pre, post, heq, hpre, hw⟩ | ⟨_, h⟩)
      · cases pre with
        | nil => simp at heq; obtain ⟨rfl, rfl⟩ := heq; rw [hv] at hw; simp at hw
        | cons u pre =>
          simp at heq; obtain ⟨rfl, rfl⟩ := heq
          obtain ⟨b, hb, _⟩ := hpre v (by simp)
          rw [hv] at hb; simp at hb
      · obtain ⟨b, hb, _⟩ := h v (by simp)
        rw [hv] at hb; simp at hb
    | ok b =>
      simp only [bind, Except.bind]
      by_cases hb : isTrue b = true
      · have hbt : b = .bool true := by cases b <;> simp_all [_root_.isTrue]
        subst hbt
        rw [if_pos hb]
        constructor
        · intro h; simp at h; subst h; exact .inl ⟨[], items, rfl, by simp, hv⟩
        · rintro (⟨pre, post, heq, hpre, hw⟩ | ⟨_, h⟩)
          · cases pre with
            | nil => simp at heq; obtain ⟨rfl, rfl⟩ := heq; rfl
            | cons u pre =>
              simp at heq; obtain ⟨rfl, rfl⟩ := heq
              obtain ⟨b, hb, hne⟩ := hpre v (by simp)
              rw [hv] at hb; simp at hb; exact absurd hb.symm hne
          · obtain ⟨b, hb, hne⟩ := h v (by simp)
            rw [hv] at hb; simp at hb; exact absurd hb.symm hne
      · have hbf : b ≠ .bool true := by rintro rfl; exact hb rfl
        rw [if_neg hb, ih]
        constructor
        · rintro (⟨pre, post, rfl, hpre, hw⟩ | ⟨hw, h⟩)
          · refine .inl ⟨v :: pre, post, rfl, ?_, hw⟩
            intro u hu; rcases List.mem_cons.1 hu with rfl | hu
            · exact ⟨b, hv, hbf⟩
            · exact hpre u hu
          · refine .inr ⟨hw, ?_⟩
            intro u hu; rcases List.mem_cons.1 hu with rfl | hu
            · exact ⟨b, hv, hbf⟩
            · exact h u hu
        · rintro (⟨pre, post, heq, hpre, hw⟩ | ⟨hw, h⟩)
          · cases pre with
            | nil =>
              simp at heq; obtain ⟨rfl, rfl⟩ := heq
              rw [hv] at hw; simp at hw; exact absurd hw hbf
            | cons u pre =>
              simp at heq; obtain ⟨rfl, rfl⟩ := heq
              exact .inl ⟨pre, post, rfl, fun u hu => hpre u (by simp [hu]), hw⟩
          · exact .inr ⟨hw, fun u hu => h u (by simp [hu])⟩

theorem find_error (lam : Env → Res Value) (p : Str) (env : Env) (items : List Value) (f : Fail) :
    find lam p env items = .error f ↔
      ∃ pre v post, items = pre ++ v :: post ∧ (∀ u ∈ pre, ∃ b, lam (env.insert p u) = .ok b ∧ b ≠ .bool true) ∧
        lam (env.insert p v) = .error f := by
  induction items generalizing env with
  | nil => simp [find]
  | cons v items ih =>
    rw [find]
    have ih := ih (env.insert p v)
    simp only [Env.insert_same] at ih
    cases hv : lam (env.insert p v) with
    | error g =>
      simp only [bind, Except.bind]
      constructor
      · intro h; simp at h; subst h; exact ⟨[], v, items, rfl, by simp, hv⟩
      · rintro ⟨pre, w, post, heq, hpre, hw⟩
        cases pre with
        | nil => simp at heq; obtain ⟨rfl, rfl⟩ := heq; rw [hv] at hw; exact congrArg _ (by simpa using hw)
        | cons u pre =>
          simp at heq; obtain ⟨rfl, rfl⟩ := heq
          obtain ⟨b, hb, _⟩ := hpre v (by simp)
          rw [hv] at hb; simp at hb
    | ok b =>
      simp only [bind, Except.bind]
      by_cases hb : isTrue b = true
      · have hbt : b = .bool true := by cases b <;> simp_all [_root_.isTrue]
        subst hbt
        rw [if_pos hb]
        simp only [reduceCtorEq, false_iff]
        rintro ⟨pre, w, post, heq, hpre, hw⟩
        cases pre with
        | nil => simp at heq; obtain ⟨rfl, rfl⟩ := heq; rw [hv] at hw; simp at hw
        | cons u pre =>
          simp at heq; obtain ⟨rfl, rfl⟩ := heq
          obtain ⟨b, hb, hne⟩ := hpre v (by simp)
          rw [hv] at hb; simp at hb; exact absurd hb.symm hne
      · have hbf : b ≠ .bool true := by rintro rfl; exact hb rfl
        rw [if_neg hb, ih]
        constructor
        · rintro ⟨pre, w, post, rfl, hpre, hw⟩
          refine ⟨v :: pre, w, post, rfl, ?_, hw⟩
          intro u hu; rcases List.mem_cons.1 hu with rfl | hu
          · exact ⟨b, hv, hbf⟩
          · exact hpre u hu
        · rintro ⟨pre, w, post, heq, hpre, hw⟩
          cases pre with
          | nil =>
            simp at heq; obtain ⟨rfl, rfl⟩ := heq
            rw [hv] at hw; simp at hw
          | cons u pre =>
            simp at heq; obtain ⟨rfl, rfl⟩ := heq
            exact ⟨pre, w, post, rfl, fun u hu => hpre u (by simp [hu]), hw⟩

end Loop
