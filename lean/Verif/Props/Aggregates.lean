import Verif.Props.Logic
/-! C38–C41: sums, extremes and order statistics. -/

open Lib Spec

/-! ### C38 -/

namespace Spec

/-- The amounts summed from left to right. -/
def total (xs : List F64) : F64 := xs.foldl F64.add (.zero false)

/-- The amounts combined from left to right, zero when there are none. -/
def combine (f : F64 → F64 → F64) : List F64 → F64
  | [] => .zero false
  | x :: xs => xs.foldl f x

end Spec

theorem amounts_append (vs ws : List Value) : amounts (vs ++ ws) = amounts vs ++ amounts ws := by
  induction vs with
  | nil => rfl
  | cons v vs ih => cases v <;> simp [amounts, ih]

theorem collects_leaves {vs ls : List Value} (h : LeavesOf vs ls) : Stat.collects vs = amounts ls := by
  induction h with
  | nil => rfl
  | leaf hv _ ih =>
    rename_i v vs ls _
    cases v <;> simp_all [Stat.collects, Stat.collect, amounts]
  | nested _ _ ih1 ih2 => simp [Stat.collects, Stat.collect, amounts_append, ih1, ih2]

theorem sumValues_leaves {vs ls : List Value} (h : LeavesOf vs ls) (acc : F64) :
    Arith.sumValues acc vs = (amounts ls).foldl F64.add acc := by
  induction h generalizing acc with
  | nil => rfl
  | leaf hv _ ih =>
    rename_i v vs ls _
    cases v <;> simp_all [Arith.sumValues, Arith.sumValue, amounts]
  | nested _ _ ih1 ih2 => simp [Arith.sumValues, Arith.sumValue, amounts_append, ih1, ih2]

theorem avgVisits_leaves {vs ls : List Value} (h : LeavesOf vs ls) (acc : F64 × Nat) :
    Arith.avgVisits acc vs = ((amounts ls).foldl F64.add acc.1, acc.2 + (amounts ls).length) := by
  induction h generalizing acc with
  | nil => rfl
  | leaf hv _ ih =>
    rename_i v vs ls _
    cases v <;> simp_all [Arith.avgVisits, Arith.avgVisit, amounts] <;> omega
  | nested _ _ ih1 ih2 => simp [Arith.avgVisits, Arith.avgVisit, amounts_append, ih1, ih2]; omega

theorem extVisits_leaves (f : F64 → F64 → F64) {vs ls : List Value} (h : LeavesOf vs ls) (cur : Option F64) :
    Arith.extVisits f cur vs = match cur, amounts ls with
      | none, [] => none
      | none, x :: xs => some (xs.foldl f x)
      | some c, xs => some (xs.foldl f c) := by
  induction h generalizing cur with
  | nil => cases cur <;> rfl
  | leaf hv _ ih =>
    rename_i v vs ls _
    cases v <;> cases cur <;> simp_all [Arith.extVisits, Arith.extVisit, amounts]
  | nested _ _ ih1 ih2 =>
    rename_i items vs l1 l2 _ _
    simp only [Arith.extVisits, Arith.extVisit, amounts_append, ih1, ih2]
    cases cur with
    | none =>
      cases amounts l1 with
      | nil => simp
      | cons x xs => simp
    | some c => simp

/-- C38: `SUM`, `AVG`, `MIN` and `MAX` of any nesting of arguments are the fold, from left to right, of the amounts
among its leaves. -/
theorem C38_aggregates (X : Ext) (vs ls : List Value) (h : LeavesOf vs ls) :
    fn X c!"SUM" vs = .ok (.num (total (amounts ls))) ∧
    fn X c!"AVG" vs = .ok (.num (if amounts ls = [] then .zero false else F64.div (total (amounts ls)) (F64.ofNat (amounts ls).length))) ∧
    fn X c!"AVERAGE" vs = fn X c!"AVG" vs ∧
    fn X c!"MIN" vs = .ok (.num (combine F64.fmin (amounts ls))) ∧
    fn X c!"MAX" vs = .ok (.num (combine F64.fmax (amounts ls))) := by
  have hext : ∀ f, (Arith.extVisits f none vs).getD (.zero false) = combine f (amounts ls) := by
    intro f
    rw [extVisits_leaves f h]
    cases amounts ls <;> rfl
  refine ⟨?_, ?_, ?_, ?_, ?_⟩
  · rw [fn_eq X _ _ (by decide)]
    change Arith.sum vs = _
    simp only [Arith.sum, sumValues_leaves h, total]
  · rw [fn_eq X _ _ (by decide)]
    change Arith.avg vs = _
    simp only [Arith.avg, avgVisits_leaves h, total, Nat.zero_add]
    cases amounts ls <;> simp
  · rw [fn_eq X _ _ (by decide), fn_eq X _ _ (by decide)]; rfl
  · rw [fn_eq X _ _ (by decide)]
    change Arith.min vs = _
    simp only [Arith.min, hext]
  · rw [fn_eq X _ _ (by decide)]
    change Arith.max vs = _
    simp only [Arith.max, hext]

/-- C38: two argument lists with the same leaves have the same sum, average, minimum, maximum, median, mode,
variance and deviation. -/
theorem C38_grouping (X : Ext) (vs ws ls : List Value) (hv : LeavesOf vs ls) (hw : LeavesOf ws ls) :
    ∀ name ∈ [c!"SUM", c!"AVG", c!"AVERAGE", c!"MIN", c!"MAX", c!"MEDIAN", c!"MODE.SNGL", c!"VAR.P", c!"STDEV.P"],
      fn X name vs = fn X name ws := by
  have hc : Stat.collects vs = Stat.collects ws := (collects_leaves hv).trans (collects_leaves hw).symm
  obtain ⟨a1, a2, a3, a4, a5⟩ := C38_aggregates X vs ls hv
  obtain ⟨b1, b2, b3, b4, b5⟩ := C38_aggregates X ws ls hw
  intro name hn
  simp only [List.mem_cons, List.not_mem_nil, or_false] at hn
  rcases hn with rfl | rfl | rfl | rfl | rfl | rfl | rfl | rfl | rfl
  · rw [a1, b1]
  · rw [a2, b2]
  · rw [a3, b3, a2, b2]
  · rw [a4, b4]
  · rw [a5, b5]
  · rw [fn_eq X _ _ (by decide), fn_eq X _ _ (by decide)]
    change Stat.median vs = Stat.median ws
    simp only [Stat.median, hc]
  · rw [fn_eq X _ _ (by decide), fn_eq X _ _ (by decide)]
    change Stat.mode vs = Stat.mode ws
    simp only [Stat.mode, hc]
  · rw [fn_eq X _ _ (by decide), fn_eq X _ _ (by decide)]
    change Stat.varP vs = Stat.varP ws
    simp only [Stat.varP, hc]
  · rw [fn_eq X _ _ (by decide), fn_eq X _ _ (by decide)]
    change Stat.stdevP X vs = Stat.stdevP X ws
    simp only [Stat.stdevP, hc]

/-- C38: applied to the flattened list, the functions give the same. -/
theorem C38_flatten (X : Ext) (vs ls : List Value) (h : fn X c!"FLATTEN" vs = .ok (.arr ls)) :
    ∀ name ∈ [c!"SUM", c!"AVG", c!"AVERAGE", c!"MIN", c!"MAX", c!"MEDIAN", c!"MODE.SNGL", c!"VAR.P", c!"STDEV.P"],
      fn X name vs = fn X name [.arr ls] := by
  have h := (C26_flatten X vs ls).1 h
  exact C38_grouping X vs [.arr ls] ls h (.single h.noArrays)

example : amounts [.num (.fin 1), .str c!"x", .cur (.fin 2), .null] = [.fin 1, .fin 2] := rfl

/-! ### C39 -/

theorem fmin_le (a b : F64) : (a ≠ .nan → F64.fle (F64.fmin a b) a = true) ∧ (b ≠ .nan → F64.fle (F64.fmin a b) b = true) := by
  by_cases ha : a = .nan
  · subst ha; exact ⟨fun h => absurd rfl h, fun h => by cases b <;> first | exact absurd rfl h | exact F64.fle_refl h⟩
  by_cases hb : b = .nan
  · subst hb; exact ⟨fun h => by cases a <;> first | exact absurd rfl h | exact F64.fle_refl h, fun h => absurd rfl h⟩
  have : F64.fmin a b = if F64.flt b a then b else a := by
    cases a <;> cases b <;> first | exact absurd rfl ha | exact absurd rfl hb | rfl
  rw [this]
  split
  · rename_i h
    refine ⟨fun _ => ?_, fun _ => F64.fle_refl hb⟩
    rw [F64.flt_iff] at h; rw [F64.fle_iff]; exact ⟨h.1, h.2.1, h.2.2.le⟩
  · rename_i h
    exact ⟨fun _ => F64.fle_refl ha, fun _ => (F64.not_flt hb ha).1 (by simpa using h)⟩

theorem le_fmax (a b : F64) : (a ≠ .nan → F64.fle a (F64.fmax a b) = true) ∧ (b ≠ .nan → F64.fle b (F64.fmax a b) = true) := by
  by_cases ha : a = .nan
  · subst ha; exact ⟨fun h => absurd rfl h, fun h => by cases b <;> first | exact absurd rfl h | exact F64.fle_refl h⟩
  by_cases hb : b = .nan
  · subst hb; exact ⟨fun h => by cases a <;> first | exact absurd rfl h | exact F64.fle_refl h, fun h => absurd rfl h⟩
  have : F64.fmax a b = if F64.flt a b then b else a := by
    cases a <;> cases b <;> first | exact absurd rfl ha | exact absurd rfl hb | rfl
  rw [this]
  split
  · rename_i h
    refine ⟨fun _ => ?_, fun _ => F64.fle_refl hb⟩
    rw [F64.flt_iff] at h; rw [F64.fle_iff]; exact ⟨h.1, h.2.1, h.2.2.le⟩
  · rename_i h
    exact ⟨fun _ => F64.fle_refl ha, fun _ => (F64.not_flt ha hb).1 (by simpa using h)⟩

theorem fmin_or (a b : F64) : F64.fmin a b = a ∨ F64.fmin a b = b := by
  unfold F64.fmin; split <;> first | exact .inr rfl | exact .inl rfl | (split <;> simp)

theorem fmax_or (a b : F64) : F64.fmax a b = a ∨ F64.fmax a b = b := by
  unfold F64.fmax; split <;> first | exact .inr rfl | exact .inl rfl | (split <;> simp)

/-- A fold of a selecting function returns one of its inputs. -/
theorem foldl_mem {f : F64 → F64 → F64} (hf : ∀ a b, f a b = a ∨ f a b = b) (x : F64) (xs : List F64) :
    xs.foldl f x ∈ x :: xs := by
  induction xs generalizing x with
  | nil => simp
  | cons y ys ih =>
    have := ih (f x y)
    rw [List.foldl_cons]
    rcases List.mem_cons.1 this with h | h
    · rcases hf x y with h' | h' <;> rw [h, h'] <;> simp
    · simp [h]

theorem foldl_bound {f : F64 → F64 → F64} {r : F64 → F64 → Prop}
    (hl : ∀ a b, a ≠ .nan → r (f a b) a) (hr : ∀ a b, b ≠ .nan → r (f a b) b)
    (hrefl : ∀ a, a ≠ .nan → r a a) (htr : ∀ a b c, r a b → r b c → r a c) (hnan : ∀ a b, r a b → a ≠ .nan)
    (x : F64) (xs : List F64) : ∀ y ∈ x :: xs, y ≠ .nan → r (xs.foldl f x) y := by
  induction xs generalizing x with
  | nil => intro y hy hn; rw [List.mem_singleton] at hy; rw [hy] at hn ⊢; exact hrefl _ hn
  | cons z zs ih =>
    intro y hy hn
    rw [List.foldl_cons]
    have step : ∀ w, r (f x z) w → r (zs.foldl f (f x z)) w := fun w hw =>
      htr _ _ _ (ih (f x z) (f x z) (by simp) (hnan _ _ hw)) hw
    rcases List.mem_cons.1 hy with rfl | hy
    · exact step _ (hl _ _ hn)
    · rcases List.mem_cons.1 hy with rfl | hy
      · exact step _ (hr _ _ hn)
      · exact ih _ y (by simp [hy]) hn

/-- C39: `MIN` is at most, and `MAX` at least, every amount of the input that is not NaN; and both are amounts of the
input when there are any. -/
theorem C39_min_max (X : Ext) (vs ls : List Value) (h : LeavesOf vs ls) :
    ∃ lo hi, fn X c!"MIN" vs = .ok (.num lo) ∧ fn X c!"MAX" vs = .ok (.num hi) ∧
      (∀ x ∈ amounts ls, x ≠ .nan → F64.fle lo x = true ∧ F64.fle x hi = true) ∧
      (amounts ls ≠ [] → lo ∈ amounts ls ∧ hi ∈ amounts ls) := by
  obtain ⟨-, -, -, h1, h2⟩ := C38_aggregates X vs ls h
  refine ⟨_, _, h1, h2, ?_, ?_⟩
  · intro x hx hn
    cases hl : amounts ls with
    | nil => simp [hl] at hx
    | cons y ys =>
      rw [hl] at hx
      refine ⟨foldl_bound (f := F64.fmin) (r := fun a b => F64.fle a b = true) (fun a b => (fmin_le a b).1) (fun a b => (fmin_le a b).2)
        (fun a => F64.fle_refl) (fun a b c => F64.fle_trans) (fun a b h => ((F64.fle_iff a b).1 h).1) y ys x hx hn, ?_⟩
      exact foldl_bound (f := F64.fmax) (r := fun a b => F64.fle b a = true) (fun a b => (le_fmax a b).1) (fun a b => (le_fmax a b).2)
        (fun a => F64.fle_refl) (fun a b c h1 h2 => F64.fle_trans h2 h1) (fun a b h => ((F64.fle_iff b a).1 h).2.1) y ys x hx hn
  · intro hne
    cases hl : amounts ls with
    | nil => exact absurd hl hne
    | cons y ys => exact ⟨foldl_mem fmin_or y ys, foldl_mem fmax_or y ys⟩

example (X : Ext) : evaluate X c!"[MIN([3, [-1, 2]], 5), MAX([3, [-1, 2]], 5)]" = .ok (.arr [.num (.fin (-1)), .num (.fin 5)]) := by kernel_rfl
