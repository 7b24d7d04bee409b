import Verif.Props.Aggregates
/-! C95: sums, averages and extremes as methods. -/

open Lib Spec

namespace AggregateMethods

/-- The elements of an array of amounts. -/
def Spec.AllAmounts (items : List Value) : Prop := ∀ v ∈ items, (∃ n, v = .num n) ∨ ∃ n, v = .cur n

open AggregateMethods.Spec

theorem leaves_of {items : List Value} (h : AllAmounts items) : LeavesOf [.arr items] items :=
  .single fun v hv l e => by rcases h v hv with ⟨n, rfl⟩ | ⟨n, rfl⟩ <;> cases e

theorem total_eq (err : String) {items : List Value} (h : AllAmounts items) (acc : F64) : Method.total err acc items = .ok ((amounts items).foldl F64.add acc) := by
  induction items generalizing acc with
  | nil => rfl
  | cons v vs ih =>
    have hv := ih (fun w hw => h w (List.mem_cons_of_mem _ hw))
    rcases h v List.mem_cons_self with ⟨n, rfl⟩ | ⟨n, rfl⟩ <;> simp [Method.total, amounts, hv]

theorem extreme_eq (f : F64 → F64 → F64) (err : String) {items : List Value} (h : AllAmounts items) (c : F64) :
    Method.extreme f err (some c) items = .ok (some ((amounts items).foldl (fun a b => f b a) c)) := by
  induction items generalizing c with
  | nil => rfl
  | cons v vs ih =>
    have hv := ih (fun w hw => h w (List.mem_cons_of_mem _ hw))
    rcases h v List.mem_cons_self with ⟨n, rfl⟩ | ⟨n, rfl⟩ <;> simp [Method.extreme, amounts, hv]

theorem amounts_length {items : List Value} (h : AllAmounts items) : (amounts items).length = items.length := by
  induction items with
  | nil => rfl
  | cons v vs ih =>
    have hv := ih (fun w hw => h w (List.mem_cons_of_mem _ hw))
    rcases h v List.mem_cons_self with ⟨n, rfl⟩ | ⟨n, rfl⟩ <;> simp [amounts, hv]

theorem meth_sum (X : Ext) (items : List Value) : meth0 X (.arr items) c!"sum" =
    (do return .num (← Method.total "sum method expects numeric array" (.zero false) items) : Res Value) := by kernel_rfl
theorem meth_avg (X : Ext) (items : List Value) : meth0 X (.arr items) c!"avg" =
    if items.isEmpty then .ok (.num (.zero false)) else (do
      let t ← Method.total "avg method expects numeric array" (.zero false) items
      return .num (F64.div t (F64.ofNat items.length)) : Res Value) := by kernel_rfl
theorem meth_average (X : Ext) (items : List Value) : meth0 X (.arr items) c!"average" =
    if items.isEmpty then .ok (.num (.zero false)) else (do
      let t ← Method.total "avg method expects numeric array" (.zero false) items
      return .num (F64.div t (F64.ofNat items.length)) : Res Value) := by kernel_rfl
theorem meth_min (X : Ext) (items : List Value) : meth0 X (.arr items) c!"min" = Method.extremeOf F64.fmin "min method expects numeric array" items := by kernel_rfl
theorem meth_max (X : Ext) (items : List Value) : meth0 X (.arr items) c!"max" = Method.extremeOf F64.fmax "max method expects numeric array" items := by kernel_rfl

/-- **C95.** On an array of amounts the methods `sum`, `avg` and `average` are the functions. -/
theorem C95_sum_avg (X : Ext) (items : List Value) (h : AllAmounts items) :
    meth0 X (.arr items) c!"sum" = fn X c!"SUM" [.arr items] ∧
    meth0 X (.arr items) c!"avg" = fn X c!"AVG" [.arr items] ∧
    meth0 X (.arr items) c!"average" = fn X c!"AVERAGE" [.arr items] := by
  obtain ⟨h1, h2, h3, -, -⟩ := C38_aggregates X _ _ (leaves_of h)
  have havg : (if items.isEmpty then .ok (.num (.zero false)) else (do
      let t ← Method.total "avg method expects numeric array" (.zero false) items
      return .num (F64.div t (F64.ofNat items.length)) : Res Value)) = fn X c!"AVG" [.arr items] := by
    rw [h2, total_eq _ h, ← amounts_length h]
    cases items with
    | nil => rfl
    | cons v vs =>
      have hne : amounts (v :: vs) ≠ [] := by
        intro e
        have := amounts_length h
        rw [e] at this
        cases this
      rw [if_neg hne]
      rfl
  refine ⟨?_, ?_, ?_⟩
  · rw [h1, meth_sum, total_eq _ h]; rfl
  · rw [meth_avg, havg]
  · rw [meth_average, havg, h3]

/-- Two folds that select bounds agree. -/
theorem folds_agree {f g : F64 → F64 → F64} {r : F64 → F64 → Prop} (hfo : ∀ a b, f a b = a ∨ f a b = b) (hgo : ∀ a b, g a b = a ∨ g a b = b)
    (hfl : ∀ a b, a ≠ .nan → r (f a b) a) (hfr : ∀ a b, b ≠ .nan → r (f a b) b) (hgl : ∀ a b, a ≠ .nan → r (g a b) a) (hgr : ∀ a b, b ≠ .nan → r (g a b) b)
    (hrefl : ∀ a, a ≠ .nan → r a a) (htr : ∀ a b c, r a b → r b c → r a c) (hnan : ∀ a b, r a b → a ≠ .nan)
    (hanti : ∀ a b, r a b → r b a → F64.feq a b = true) (x : F64) (xs : List F64) :
    xs.foldl f x = xs.foldl g x ∨ F64.feq (xs.foldl f x) (xs.foldl g x) = true := by
  have m1 := foldl_mem hfo x xs
  have m2 := foldl_mem hgo x xs
  have b1 := foldl_bound hfl hfr hrefl htr hnan x xs
  have b2 := foldl_bound hgl hgr hrefl htr hnan x xs
  by_cases hall : ∀ y ∈ x :: xs, y = .nan
  · exact .inl ((hall _ m1).trans (hall _ m2).symm)
  · simp only [not_forall] at hall
    obtain ⟨y, hy, hn⟩ := hall
    exact .inr (hanti _ _ (b1 _ m2 (hnan _ _ (b2 y hy hn))) (b2 _ m1 (hnan _ _ (b1 y hy hn))))

theorem min_agree (x : F64) (xs : List F64) : xs.foldl (fun a b => F64.fmin b a) x = xs.foldl F64.fmin x ∨
    F64.feq (xs.foldl (fun a b => F64.fmin b a) x) (xs.foldl F64.fmin x) = true :=
  folds_agree (r := fun a b => F64.fle a b = true) (fun a b => (fmin_or b a).symm) fmin_or (fun a b => (fmin_le b a).2) (fun a b => (fmin_le b a).1)
    (fun a b => (fmin_le a b).1) (fun a b => (fmin_le a b).2) (fun _ => F64.fle_refl) (fun _ _ _ => F64.fle_trans) (fun a b h => ((F64.fle_iff a b).1 h).1)
    (fun _ _ => F64.fle_antisymm) x xs

theorem max_agree (x : F64) (xs : List F64) : xs.foldl (fun a b => F64.fmax b a) x = xs.foldl F64.fmax x ∨
    F64.feq (xs.foldl (fun a b => F64.fmax b a) x) (xs.foldl F64.fmax x) = true :=
  folds_agree (r := fun a b => F64.fle b a = true) (fun a b => (fmax_or b a).symm) fmax_or (fun a b => (le_fmax b a).2) (fun a b => (le_fmax b a).1)
    (fun a b => (le_fmax a b).1) (fun a b => (le_fmax a b).2) (fun _ => F64.fle_refl) (fun _ _ _ h1 h2 => F64.fle_trans h2 h1) (fun a b h => ((F64.fle_iff b a).1 h).2.1)
    (fun _ _ h1 h2 => F64.fle_antisymm h2 h1) x xs

theorem extremeOf_eq (f : F64 → F64 → F64) (err : String) {items : List Value} (h : AllAmounts items) (hne : items ≠ []) :
    ∃ x xs, amounts items = x :: xs ∧ Method.extremeOf f err items = .ok (.num (xs.foldl (fun a b => f b a) x)) := by
  cases items with
  | nil => exact absurd rfl hne
  | cons v vs =>
    have hv : AllAmounts vs := fun w hw => h w (List.mem_cons_of_mem _ hw)
    rcases h v List.mem_cons_self with ⟨n, rfl⟩ | ⟨n, rfl⟩
    all_goals
      refine ⟨n, amounts vs, rfl, ?_⟩
      simp [Method.extremeOf, Method.extreme, extreme_eq f err hv]

/-- **C95.** On an array of amounts that is not empty the methods `min` and `max` give a value equal to that of the functions: the same number, or zeros. -/
theorem C95_min_max (X : Ext) (items : List Value) (h : AllAmounts items) (hne : items ≠ []) :
    (∃ a b, meth0 X (.arr items) c!"min" = .ok (.num a) ∧ fn X c!"MIN" [.arr items] = .ok (.num b) ∧ (a = b ∨ F64.feq a b = true)) ∧
    ∃ a b, meth0 X (.arr items) c!"max" = .ok (.num a) ∧ fn X c!"MAX" [.arr items] = .ok (.num b) ∧ (a = b ∨ F64.feq a b = true) := by
  obtain ⟨-, -, -, h1, h2⟩ := C38_aggregates X _ _ (leaves_of h)
  constructor
  · obtain ⟨x, xs, e, he⟩ := extremeOf_eq F64.fmin "min method expects numeric array" h hne
    refine ⟨_, _, by rw [meth_min, he], h1, ?_⟩
    rw [e]
    exact min_agree x xs
  · obtain ⟨x, xs, e, he⟩ := extremeOf_eq F64.fmax "max method expects numeric array" h hne
    refine ⟨_, _, by rw [meth_max, he], h2, ?_⟩
    rw [e]
    exact max_agree x xs

theorem total_fails (err : String) {items : List Value} (h : ¬ AllAmounts items) (acc : F64) : Method.total err acc items = fail err := by
  induction items generalizing acc with
  | nil => exact absurd (fun v hv => absurd hv List.not_mem_nil) h
  | cons v vs ih =>
    cases v with
    | num n => rw [Method.total]; exact ih (fun hv => h fun w hw => (List.mem_cons.1 hw).elim (fun e => .inl ⟨n, e⟩) (hv w)) _
    | cur n => rw [Method.total]; exact ih (fun hv => h fun w hw => (List.mem_cons.1 hw).elim (fun e => .inr ⟨n, e⟩) (hv w)) _
    | _ => rfl

theorem extreme_fails (f : F64 → F64 → F64) (err : String) {items : List Value} (h : ¬ AllAmounts items) (c : Option F64) : Method.extreme f err c items = fail err := by
  induction items generalizing c with
  | nil => exact absurd (fun v hv => absurd hv List.not_mem_nil) h
  | cons v vs ih =>
    cases v with
    | num n => show Method.extreme f err _ vs = _; exact ih (fun hv => h fun w hw => (List.mem_cons.1 hw).elim (fun e => .inl ⟨n, e⟩) (hv w)) _
    | cur n => show Method.extreme f err _ vs = _; exact ih (fun hv => h fun w hw => (List.mem_cons.1 hw).elim (fun e => .inr ⟨n, e⟩) (hv w)) _
    | _ => rfl

/-- **C95 fails** on other arrays: where the functions skip what is not an amount and look into inner arrays, the methods fail. -/
theorem C95_methods_refuse (X : Ext) (items : List Value) (h : ¬ AllAmounts items) :
    meth0 X (.arr items) c!"sum" = fail "sum method expects numeric array" ∧
    meth0 X (.arr items) c!"avg" = fail "avg method expects numeric array" ∧
    meth0 X (.arr items) c!"average" = fail "avg method expects numeric array" ∧
    meth0 X (.arr items) c!"min" = fail "min method expects numeric array" ∧
    meth0 X (.arr items) c!"max" = fail "max method expects numeric array" := by
  have hne : items.isEmpty = false := by
    cases items with
    | nil => exact absurd (fun v hv => absurd hv List.not_mem_nil) h
    | cons => rfl
  rw [meth_sum, meth_avg, meth_average, meth_min, meth_max]
  simp only [Method.extremeOf, hne, total_fails _ h, extreme_fails _ _ h]
  exact ⟨rfl, rfl, rfl, rfl, rfl⟩

/-- **C95 fails** on the empty array: `MIN` and `MAX` give zero, the methods null. -/
theorem C95_empty (X : Ext) : fn X c!"MIN" [.arr []] = .ok (.num (.zero false)) ∧ meth0 X (.arr []) c!"min" = .ok .null ∧
    fn X c!"MAX" [.arr []] = .ok (.num (.zero false)) ∧ meth0 X (.arr []) c!"max" = .ok .null := ⟨by kernel_rfl, by kernel_rfl, by kernel_rfl, by kernel_rfl⟩

/-- A case of `C95_sum_avg` and `C95_min_max`. -/
example (X : Ext) : evaluate X c!"[[1, 2, 6].sum(), [1, 2, 6].avg(), [1, 2, 6].min(), [1, 2, 6].max()]" =
    .ok (.arr [.num (.fin 9), .num (.fin 3), .num (.fin 1), .num (.fin 6)]) := by kernel_rfl
/-- A case of `C95_methods_refuse`. -/
example (X : Ext) : evaluate X c!"SUM([1, [2], \"a\"])" = .ok (.num (.fin 3)) ∧ evaluate X c!"[1, [2]].sum()" = fail "sum method expects numeric array" :=
  ⟨by kernel_rfl, by kernel_rfl⟩

end AggregateMethods
