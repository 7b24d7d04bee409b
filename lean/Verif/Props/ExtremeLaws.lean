import Verif.Props.SumError
import Verif.Props.Monotone
import Verif.Props.OrderStats
/-! C157: least and greatest numbers, sums and averages of the parts of a collection. -/

namespace ExtremeLaws

open Lib _root_.Spec

namespace Spec

/-- Both are numbers, and these are equal (so the sign of a zero does not matter) or both NaN. -/
def Same (r s : Res Value) : Prop := ∃ x y, r = .ok (.num x) ∧ s = .ok (.num y) ∧ (F64.feq x y = true ∨ x = .nan ∧ y = .nan)

/-- `F(a, b)`. -/
def two (X : Ext) (f : Str) (a b : Res Value) : Res Value := do
  let v ← a
  let w ← b
  fn X f [v, w]

/-- `MIN(a, b)` and `MAX(a, b)`. -/
abbrev mn (X : Ext) (a b : Res Value) : Res Value := two X c!"MIN" a b
abbrev mx (X : Ext) (a b : Res Value) : Res Value := two X c!"MAX" a b

/-- `r` is what `F` makes of the values `g`, among which there is at least one number. -/
def Part (X : Ext) (f : Str) (g : List Value) (r : F64) : Prop := fn X f g = .ok (.num r) ∧ ∃ ls, LeavesOf g ls ∧ amounts ls ≠ []

end Spec

open Spec

/-- `x` is one of `xs`, and the others are in relation to it. -/
def Top (R : F64 → F64 → Bool) (x : F64) (xs : List F64) : Prop := x ∈ xs ∧ ∀ y ∈ xs, y ≠ .nan → R y x = true

/-- The order or its reverse. -/
structure Ord (R : F64 → F64 → Bool) : Prop where
  left : ∀ {x y}, R x y = true → x ≠ .nan
  right : ∀ {x y}, R x y = true → y ≠ .nan
  trans : ∀ {x y z}, R x y = true → R y z = true → R x z = true
  anti : ∀ {x y}, R x y = true → R y x = true → F64.feq x y = true

theorem ord_le : Ord F64.fle :=
  ⟨fun h => ((F64.fle_iff ..).1 h).1, fun h => ((F64.fle_iff ..).1 h).2.1, F64.fle_trans, F64.fle_antisymm⟩

theorem ord_ge : Ord fun x y => F64.fle y x :=
  ⟨fun h => ((F64.fle_iff ..).1 h).2.1, fun h => ((F64.fle_iff ..).1 h).1, fun h k => F64.fle_trans k h, fun h k => F64.fle_antisymm k h⟩

theorem top_unique {R : F64 → F64 → Bool} (hR : Ord R) {x y : F64} {xs ys : List F64} (hx : Top R x xs) (hy : Top R y ys) (h : ∀ z, z ∈ xs ↔ z ∈ ys) :
    F64.feq x y = true ∨ x = .nan ∧ y = .nan := by
  by_cases hxn : x = .nan
  · by_cases hyn : y = .nan
    · exact .inr ⟨hxn, hyn⟩
    · exact absurd hxn (hR.right (hx.2 y ((h y).2 hy.1) hyn))
  · have h1 := hy.2 x ((h x).1 hx.1) hxn
    exact .inl (hR.anti h1 (hx.2 y ((h y).2 hy.1) (hR.right h1)))

theorem top_min (X : Ext) {vs ls : List Value} (h : LeavesOf vs ls) (hne : amounts ls ≠ []) : ∃ x, fn X c!"MIN" vs = .ok (.num x) ∧ Top (fun x y => F64.fle y x) x (amounts ls) := by
  obtain ⟨lo, hi, h1, h2, h3, h4⟩ := C39_min_max X vs ls h
  exact ⟨lo, h1, (h4 hne).1, fun y hy hn => (h3 y hy hn).1⟩

theorem top_max (X : Ext) {vs ls : List Value} (h : LeavesOf vs ls) (hne : amounts ls ≠ []) : ∃ x, fn X c!"MAX" vs = .ok (.num x) ∧ Top F64.fle x (amounts ls) := by
  obtain ⟨lo, hi, h1, h2, h3, h4⟩ := C39_min_max X vs ls h
  exact ⟨hi, h2, (h4 hne).2, fun y hy hn => (h3 y hy hn).2⟩

/-- **C157.** The least and the greatest number depend only on which numbers there are, not on their order, their grouping or how often each is given. -/
theorem C157_set (X : Ext) (vs ws ls ms : List Value) (hv : LeavesOf vs ls) (hw : LeavesOf ws ms) (h : ∀ x, x ∈ amounts ls ↔ x ∈ amounts ms) :
    Same (fn X c!"MIN" vs) (fn X c!"MIN" ws) ∧ Same (fn X c!"MAX" vs) (fn X c!"MAX" ws) := by
  by_cases hne : amounts ls = []
  · have hne' : amounts ms = [] := List.eq_nil_iff_forall_not_mem.2 fun x hx => by have := (h x).2 hx; rw [hne] at this; exact absurd this (by simp)
    obtain ⟨-, -, -, a1, a2⟩ := C38_aggregates X vs ls hv
    obtain ⟨-, -, -, b1, b2⟩ := C38_aggregates X ws ms hw
    rw [hne] at a1 a2
    rw [hne'] at b1 b2
    exact ⟨⟨_, _, a1, b1, .inl rfl⟩, ⟨_, _, a2, b2, .inl rfl⟩⟩
  · have hne' : amounts ms ≠ [] := by
      intro e
      refine hne (List.eq_nil_iff_forall_not_mem.2 fun x hx => ?_)
      have := (h x).1 hx
      rw [e] at this
      exact absurd this (by simp)
    obtain ⟨x, x1, x2⟩ := top_min X hv hne
    obtain ⟨y, y1, y2⟩ := top_min X hw hne'
    obtain ⟨x', x1', x2'⟩ := top_max X hv hne
    obtain ⟨y', y1', y2'⟩ := top_max X hw hne'
    exact ⟨⟨x, y, x1, y1, top_unique ord_ge x2 y2 h⟩, ⟨x', y', x1', y1', top_unique ord_le x2' y2' h⟩⟩

theorem leaves_append {vs ws ls ms : List Value} (h : LeavesOf vs ls) (k : LeavesOf ws ms) : LeavesOf (vs ++ ws) (ls ++ ms) := by
  induction h with
  | nil => exact k
  | leaf hv _ ih => exact .leaf hv ih
  | nested h1 _ _ ih => rw [List.cons_append, List.append_assoc]; exact .nested h1 ih

theorem amounts_nums (rs : List F64) : amounts (rs.map .num) = rs := by
  induction rs with
  | nil => rfl
  | cons r rs ih => simp [amounts, ih]

theorem leaves_nums (rs : List F64) : LeavesOf (rs.map .num) (rs.map .num) := by
  induction rs with
  | nil => exact .nil
  | cons r rs ih => exact .leaf (by simp) ih

theorem leaves_unique {vs ls ms : List Value} (h : LeavesOf vs ls) (k : LeavesOf vs ms) : ls = ms := by
  induction h generalizing ms with
  | nil => cases k; rfl
  | leaf hv _ ih =>
    cases k with
    | leaf _ k => rw [ih k]
    | nested _ _ => exact absurd rfl (hv _)
  | nested _ _ ih1 ih2 =>
    cases k with
    | leaf hv _ => exact absurd rfl (hv _)
    | nested k1 k2 => rw [ih1 k1, ih2 k2]

/-- The greatest of the greatest numbers of the parts is the greatest of all. -/
theorem parts_top (X : Ext) (f : Str) {R : F64 → F64 → Bool}
    (hf : ∀ {vs ls : List Value}, LeavesOf vs ls → amounts ls ≠ [] → ∃ x, fn X f vs = .ok (.num x) ∧ Top R x (amounts ls))
    (gs : List (List Value)) (rs : List F64) (h : List.Forall₂ (Part X f) gs rs) :
    ∃ ls, LeavesOf gs.flatten ls ∧ (∀ r ∈ rs, r ∈ amounts ls) ∧ ∀ y ∈ amounts ls, y ≠ .nan → ∃ r ∈ rs, R y r = true := by
  induction h with
  | nil => exact ⟨[], .nil, by simp, by simp [amounts]⟩
  | @cons g r gs rs hg _ ih =>
    obtain ⟨ls, h1, h2, h3⟩ := ih
    obtain ⟨hr, l, hl, hne⟩ := hg
    obtain ⟨x, x1, x2⟩ := hf hl hne
    rw [hr] at x1
    injection x1 with x1
    injection x1 with x1
    subst x1
    refine ⟨l ++ ls, leaves_append hl h1, ?_, ?_⟩
    · intro s hs
      rw [amounts_append, List.mem_append]
      rcases List.mem_cons.1 hs with rfl | hs
      · exact .inl x2.1
      · exact .inr (h2 s hs)
    · intro y hy hn
      rw [amounts_append, List.mem_append] at hy
      rcases hy with hy | hy
      · exact ⟨r, by simp, x2.2 y hy hn⟩
      · obtain ⟨s, s1, s2⟩ := h3 y hy hn
        exact ⟨s, by simp [s1], s2⟩

theorem parts_same (X : Ext) (f : Str) {R : F64 → F64 → Bool} (hR : Ord R)
    (hf : ∀ {vs ls : List Value}, LeavesOf vs ls → amounts ls ≠ [] → ∃ x, fn X f vs = .ok (.num x) ∧ Top R x (amounts ls))
    (gs : List (List Value)) (rs : List F64) (h : List.Forall₂ (Part X f) gs rs) (hne : gs ≠ []) : Same (fn X f (rs.map .num)) (fn X f gs.flatten) := by
  obtain ⟨ls, h1, h2, h3⟩ := parts_top X f hf gs rs h
  have hrs : rs ≠ [] := by rintro rfl; cases h; exact hne rfl
  obtain ⟨r, hr⟩ := List.exists_mem_of_ne_nil rs hrs
  obtain ⟨x, x1, x2⟩ := hf (leaves_nums rs) (by rwa [amounts_nums])
  rw [amounts_nums] at x2
  obtain ⟨y, y1, y2⟩ := hf h1 (List.ne_nil_of_mem (h2 r hr))
  refine ⟨x, y, x1, y1, top_unique hR (xs := amounts ls) ⟨h2 x x2.1, fun z hz hn => ?_⟩ y2 fun _ => Iff.rfl⟩
  obtain ⟨s, s1, s2⟩ := h3 z hz hn
  exact hR.trans s2 (x2.2 s s1 (hR.right s2))

/-- **C157.** The least of the least numbers of the parts is the least of all, and so for the greatest, however many parts there are; each must contain a number. -/
theorem C157_parts (X : Ext) (gs : List (List Value)) (rs : List F64) (hne : gs ≠ []) :
    (List.Forall₂ (Part X c!"MIN") gs rs → Same (fn X c!"MIN" (rs.map .num)) (fn X c!"MIN" gs.flatten)) ∧
    (List.Forall₂ (Part X c!"MAX") gs rs → Same (fn X c!"MAX" (rs.map .num)) (fn X c!"MAX" gs.flatten)) :=
  ⟨fun h => parts_same X _ ord_ge (top_min X) gs rs h hne, fun h => parts_same X _ ord_le (top_max X) gs rs h hne⟩

/-- **C157.** The greatest number is at most `b` exactly when all are, and the least at least `b`; and so for the strict order. -/
theorem C157_bounds (X : Ext) (vs ls : List Value) (hv : LeavesOf vs ls) (hne : amounts ls ≠ []) (hn : F64.nan ∉ amounts ls) (b : F64) :
    (∃ hi, fn X c!"MAX" vs = .ok (.num hi) ∧ (F64.fle hi b = true ↔ ∀ x ∈ amounts ls, F64.fle x b = true) ∧ (F64.flt hi b = true ↔ ∀ x ∈ amounts ls, F64.flt x b = true)) ∧
    (∃ lo, fn X c!"MIN" vs = .ok (.num lo) ∧ (F64.fle b lo = true ↔ ∀ x ∈ amounts ls, F64.fle b x = true) ∧ (F64.flt b lo = true ↔ ∀ x ∈ amounts ls, F64.flt b x = true)) := by
  obtain ⟨lo, l1, l2⟩ := top_min X hv hne
  obtain ⟨hi, h1, h2⟩ := top_max X hv hne
  have nn : ∀ x ∈ amounts ls, x ≠ .nan := fun x hx e => hn (e ▸ hx)
  refine ⟨⟨hi, h1, ⟨fun h x hx => F64.fle_trans (h2.2 x hx (nn x hx)) h, fun h => h _ h2.1⟩, ⟨fun h x hx => ?_, fun h => h _ h2.1⟩⟩,
    ⟨lo, l1, ⟨fun h x hx => F64.fle_trans h (l2.2 x hx (nn x hx)), fun h => h _ l2.1⟩, ⟨fun h x hx => ?_, fun h => h _ l2.1⟩⟩⟩
  · have k := h2.2 x hx (nn x hx)
    rw [F64.fle_iff] at k
    rw [F64.flt_iff] at h ⊢
    exact ⟨k.1, h.2.1, lt_of_le_of_lt k.2.2 h.2.2⟩
  · have k := l2.2 x hx (nn x hx)
    rw [F64.fle_iff] at k
    rw [F64.flt_iff] at h ⊢
    exact ⟨h.1, k.2.1, lt_of_lt_of_le h.2.2 k.2.2⟩

theorem two_min (X : Ext) (a b : F64) : mn X (.ok (.num a)) (.ok (.num b)) = .ok (.num (F64.fmin a b)) := by
  show fn X c!"MIN" _ = _; rw [fn_eq X _ _ (by decide)]; rfl
theorem two_max (X : Ext) (a b : F64) : mx X (.ok (.num a)) (.ok (.num b)) = .ok (.num (F64.fmax a b)) := by
  show fn X c!"MAX" _ = _; rw [fn_eq X _ _ (by decide)]; rfl

theorem key_min {a b : F64} (ha : a ≠ .nan) (hb : b ≠ .nan) : F64.fmin a b ≠ .nan ∧ (F64.fmin a b).key = min a.key b.key := by
  have h1 := (fmin_le a b).1 ha
  have h2 := (fmin_le a b).2 hb
  rw [F64.fle_iff] at h1 h2
  refine ⟨h1.1, le_antisymm (le_min h1.2.2 h2.2.2) ?_⟩
  rcases fmin_or a b with e | e <;> rw [e]
  · exact min_le_left ..
  · exact min_le_right ..

theorem key_max {a b : F64} (ha : a ≠ .nan) (hb : b ≠ .nan) : F64.fmax a b ≠ .nan ∧ (F64.fmax a b).key = max a.key b.key := by
  have h1 := (le_fmax a b).1 ha
  have h2 := (le_fmax a b).2 hb
  rw [F64.fle_iff] at h1 h2
  refine ⟨h1.2.1, le_antisymm ?_ (max_le h1.2.2 h2.2.2)⟩
  rcases fmax_or a b with e | e <;> rw [e]
  · exact le_max_left ..
  · exact le_max_right ..

theorem same_of_key {x y : F64} (hx : x ≠ .nan) (hy : y ≠ .nan) (h : x.key = y.key) : Same (.ok (.num x)) (.ok (.num y)) :=
  ⟨x, y, rfl, rfl, .inl ((F64.feq_iff ..).2 ⟨hx, hy, h⟩)⟩

/-- **C157.** `MIN` and `MAX` of numbers other than NaN are a distributive lattice, so that nested calls can be rearranged, and limiting a number to an interval does not depend on
which end is looked at first. -/
theorem C157_lattice (X : Ext) (x y z : F64) (hx : x ≠ .nan) (hy : y ≠ .nan) (hz : z ≠ .nan) :
    let a : Res Value := .ok (.num x); let b : Res Value := .ok (.num y); let c : Res Value := .ok (.num z)
    Same (mn X a b) (mn X b a) ∧ Same (mx X a b) (mx X b a) ∧
    Same (mn X a (mn X b c)) (mn X (mn X a b) c) ∧ Same (mx X a (mx X b c)) (mx X (mx X a b) c) ∧
    Same (mn X a (mx X a b)) a ∧ Same (mx X a (mn X a b)) a ∧
    Same (mn X a (mx X b c)) (mx X (mn X a b) (mn X a c)) ∧ Same (mx X a (mn X b c)) (mn X (mx X a b) (mx X a c)) ∧
    (F64.fle x y = true → Same (mx X a (mn X c b)) (mn X (mx X a c) b)) := by
  intro a b c
  have n1 := @key_min
  have m1 := @key_max
  simp only [a, b, c, two_min, two_max]
  refine ⟨?_, ?_, ?_, ?_, ?_, ?_, ?_, ?_, fun h => ?_⟩
  · exact same_of_key (n1 hx hy).1 (n1 hy hx).1 (by rw [(n1 hx hy).2, (n1 hy hx).2, min_comm])
  · exact same_of_key (m1 hx hy).1 (m1 hy hx).1 (by rw [(m1 hx hy).2, (m1 hy hx).2, max_comm])
  · have k := n1 hx (n1 hy hz).1; have l := n1 (n1 hx hy).1 hz
    exact same_of_key k.1 l.1 (by rw [k.2, l.2, (n1 hx hy).2, (n1 hy hz).2, min_assoc])
  · have k := m1 hx (m1 hy hz).1; have l := m1 (m1 hx hy).1 hz
    exact same_of_key k.1 l.1 (by rw [k.2, l.2, (m1 hx hy).2, (m1 hy hz).2, max_assoc])
  · have k := n1 hx (m1 hx hy).1
    exact same_of_key k.1 hx (by rw [k.2, (m1 hx hy).2, min_eq_left (le_max_left ..)])
  · have k := m1 hx (n1 hx hy).1
    exact same_of_key k.1 hx (by rw [k.2, (n1 hx hy).2, max_eq_left (min_le_left ..)])
  · have k := n1 hx (m1 hy hz).1; have l := m1 (n1 hx hy).1 (n1 hx hz).1
    exact same_of_key k.1 l.1 (by rw [k.2, l.2, (n1 hx hy).2, (n1 hx hz).2, (m1 hy hz).2, min_max_distrib_left])
  · have k := m1 hx (n1 hy hz).1; have l := n1 (m1 hx hy).1 (m1 hx hz).1
    exact same_of_key k.1 l.1 (by rw [k.2, l.2, (m1 hx hy).2, (m1 hx hz).2, (n1 hy hz).2, max_min_distrib_left])
  · have k := m1 hx (n1 hz hy).1; have l := n1 (m1 hx hz).1 hy
    rw [F64.fle_iff] at h
    exact same_of_key k.1 l.1 (by rw [k.2, l.2, (m1 hx hz).2, (n1 hz hy).2, max_min_distrib_left, max_eq_right h.2.2])

theorem values_append {xs ys : List F64} {ps qs : List ℚ} (h : Values xs ps) (k : Values ys qs) : Values (xs ++ ys) (ps ++ qs) := by
  induction h with
  | nil => exact k
  | cons h1 h2 _ ih => exact .cons h1 h2 ih

/-- **C157.** The sum of the sums of two parts is the sum of all, for integers whose magnitudes add up to at most `2^53`. -/
theorem C157_sums (X : Ext) (vs ws ls ms : List Value) (hv : LeavesOf vs ls) (hw : LeavesOf ws ms) (ns ks : List ℤ) (h : Integers (amounts ls) ns) (k : Integers (amounts ms) ks)
    (hb : absTotal (ns ++ ks) ≤ 2 ^ 53) : Same (two X c!"SUM" (fn X c!"SUM" vs) (fn X c!"SUM" ws)) (fn X c!"SUM" (vs ++ ws)) := by
  have hsum : absTotal (ns ++ ks) = absTotal ns + absTotal ks := by simp [absTotal]
  have p1 := absTotal_nonneg ns
  have p2 := absTotal_nonneg ks
  have f1 := F64.fold_integers h (.zero false) 0 trivial rfl (by simp; omega)
  have f2 := F64.fold_integers k (.zero false) 0 trivial rfl (by simp; omega)
  rw [zero_add] at f1 f2
  have e1 := (C38_aggregates X vs ls hv).1
  have e2 := (C38_aggregates X ws ms hw).1
  have hall : Integers (amounts (ls ++ ms)) (ns ++ ks) := by rw [amounts_append, Integers, List.map_append]; exact values_append h k
  obtain ⟨t, t1, t2⟩ := C98_integers X (vs ++ ws) (ls ++ ms) (leaves_append hv hw) (ns ++ ks) hall hb
  have q : ∀ l : List ℤ, |l.sum| ≤ absTotal l := fun l => by
    induction l with
    | nil => simp [absTotal]
    | cons a l ih => have := abs_add_le a l.sum; simp only [absTotal, List.sum_cons, List.map_cons] at ih ⊢; omega
  have q1 := q ns
  have q2 := q ks
  have i2 : Integers [total (amounts ls), total (amounts ms)] [ns.sum, ks.sum] := .cons f1.2 f1.1 (.cons f2.2 f2.1 .nil)
  obtain ⟨s, s1, s2⟩ := C98_integers X [.num (total (amounts ls)), .num (total (amounts ms))] _ (leaves_nums [_, _]) [ns.sum, ks.sum] i2 (by simp [absTotal]; omega)
  refine ⟨s, t, by rw [e1, e2]; exact s1, t1, .inl ?_⟩
  have e : (([ns.sum, ks.sum].sum : ℤ) : ℚ) = ((ns ++ ks).sum : ℤ) := by simp
  rw [e] at s2
  exact F64.fle_antisymm ((F64.fle_atMost ..).2 ⟨by rintro rfl; exact s2, by rintro rfl; exact t2, .inr (.inr ⟨_, _, s2, t2, le_refl _⟩)⟩)
    ((F64.fle_atMost ..).2 ⟨by rintro rfl; exact t2, by rintro rfl; exact s2, .inr (.inr ⟨_, _, t2, s2, le_refl _⟩)⟩)

theorem values_mem {xs : List F64} {qs : List ℚ} (h : Values xs qs) {x : F64} (hx : x ∈ xs) : ∃ q ∈ qs, IsDouble x ∧ HasValue x q := by
  induction h with
  | nil => simp at hx
  | cons h1 h2 _ ih =>
    rcases List.mem_cons.1 hx with rfl | hx
    · exact ⟨_, by simp, h1, h2⟩
    · obtain ⟨q, q1, q2⟩ := ih hx
      exact ⟨q, by simp [q1], q2⟩

theorem values_mem' {xs : List F64} {qs : List ℚ} (h : Values xs qs) {q : ℚ} (hq : q ∈ qs) : ∃ x ∈ xs, HasValue x q := by
  induction h with
  | nil => simp at hq
  | cons h1 h2 _ ih =>
    rcases List.mem_cons.1 hq with rfl | hq
    · exact ⟨_, by simp, h2⟩
    · obtain ⟨x, x1, x2⟩ := ih hq
      exact ⟨x, by simp [x1], x2⟩

theorem rounds_self {x : F64} {q : ℚ} (hd : IsDouble x) (h : HasValue x q) : RoundsTo q x := by
  cases x with
  | fin p => cases h; exact F64.roundsTo_fin hd
  | zero s => cases h; exact F64.roundsTo_zero s
  | nan => exact h.elim
  | inf s => exact h.elim

theorem le_of_fle {x y : F64} {p q : ℚ} (hx : HasValue x p) (hy : HasValue y q) (h : F64.fle x y = true) : p ≤ q := by
  cases x <;> cases y <;> simp [HasValue] at hx hy <;> subst hx hy <;> exact of_decide_eq_true h

theorem sum_le (ns : List ℤ) (m : ℚ) (h : ∀ n ∈ ns, (n : ℚ) ≤ m) : ((ns.sum : ℤ) : ℚ) ≤ ns.length * m := by
  induction ns with
  | nil => simp
  | cons n ns ih =>
    have h1 := ih fun k hk => h k (by simp [hk])
    have h2 := h n (by simp)
    rw [List.sum_cons, List.length_cons]
    push_cast
    linarith

theorem le_sum (ns : List ℤ) (m : ℚ) (h : ∀ n ∈ ns, m ≤ (n : ℚ)) : (ns.length * m : ℚ) ≤ (ns.sum : ℤ) := by
  induction ns with
  | nil => simp
  | cons n ns ih =>
    have h1 := ih fun k hk => h k (by simp [hk])
    have h2 := h n (by simp)
    rw [List.sum_cons, List.length_cons]
    push_cast
    linarith

/-- **C157.** For such integers, the average is between the least and the greatest. -/
theorem C157_average (X : Ext) (vs ls : List Value) (hv : LeavesOf vs ls) (ns : List ℤ) (h : Integers (amounts ls) ns) (hb : absTotal ns ≤ 2 ^ 53) (hn : ns ≠ [])
    (hc : ns.length ≤ 2 ^ 53) :
    ∃ lo s hi, fn X c!"MIN" vs = .ok (.num lo) ∧ fn X c!"AVG" vs = .ok (.num s) ∧ fn X c!"MAX" vs = .ok (.num hi) ∧ LeTrue X lo s ∧ LeTrue X s hi := by
  have hne : amounts ls ≠ [] := by intro e; rw [e, Integers] at h; cases ns with | nil => exact hn rfl | cons n ns => cases h
  obtain ⟨lo, l1, l2⟩ := top_min X hv hne
  obtain ⟨hi, h1, h2⟩ := top_max X hv hne
  obtain ⟨s, s1, s2⟩ := C98_average X vs ls hv ns h hb hn hc
  obtain ⟨p, -, pd, pv⟩ := values_mem h l2.1
  obtain ⟨q, -, qd, qv⟩ := values_mem h h2.1
  have pos : (0 : ℚ) < ns.length := by exact_mod_cast List.length_pos_iff.2 hn
  have bounds : ∀ n ∈ ns, p ≤ (n : ℚ) ∧ (n : ℚ) ≤ q := by
    intro n hn
    obtain ⟨x, x1, x2⟩ := values_mem' h (List.mem_map_of_mem hn)
    have xn : x ≠ .nan := by rintro rfl; exact x2
    exact ⟨le_of_fle pv x2 (l2.2 x x1 xn), le_of_fle x2 qv (h2.2 x x1 xn)⟩
  refine ⟨lo, s, hi, l1, s1, h1, (leTrue_iff ..).2 (F64.roundsTo_mono (rounds_self pd pv) s2 ?_), (leTrue_iff ..).2 (F64.roundsTo_mono s2 (rounds_self qd qv) ?_)⟩
  · rw [le_div_iff₀ pos, mul_comm]; exact le_sum ns p fun n hn => (bounds n hn).1
  · rw [div_le_iff₀ pos, mul_comm]; exact sum_le ns q fun n hn => (bounds n hn).2

/-- **C157.** What does not hold: a part without numbers counts as zero, the average of fractions can be greater than all of them, and sums of parts of fractions differ from the
sum of all. -/
theorem C157_not_laws (X : Ext) : evaluate X c!"MAX(MAX([]), MAX([-1]))" = .ok (.num (.zero false)) ∧ evaluate X c!"MAX([], [-1])" = .ok (.num (.fin (-1))) ∧
    evaluate X c!"AVG(0.1, 0.1, 0.1) > MAX(0.1, 0.1, 0.1)" = .ok (.bool true) ∧
    evaluate X c!"SUM(SUM(0.1), SUM(0.2, 0.3)) = SUM(0.1, 0.2, 0.3)" = .ok (.bool false) := by
  refine ⟨?_, ?_, ?_, ?_⟩ <;> kernel_rfl

/-- The hypotheses are met: two parts with their greatest numbers. -/
example (X : Ext) : List.Forall₂ (Part X c!"MAX") [[.num (.fin 3), .str c!"a"], [.arr [.num (.fin 5)], .num (.fin 4)]] [.fin 3, .fin 5] :=
  .cons ⟨by kernel_rfl, _, .leaf (by simp) (.leaf (by simp) .nil), by simp [amounts]⟩
    (.cons ⟨by kernel_rfl, _, .nested (.leaf (by simp) .nil) (.leaf (by simp) .nil), by simp [amounts]⟩ .nil)

end ExtremeLaws
