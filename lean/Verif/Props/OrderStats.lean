import Verif.Props.Aggregates
import Mathlib.Data.List.Sort
/-! C40 and C41: medians, percentiles, quartiles and modes. -/

open Lib Spec

namespace Spec

/-- The same number, up to the sign of zero. -/
def Alike (x y : F64) : Prop := x = y ∨ ∃ s t, x = .zero s ∧ y = .zero t

/-- The same outcome, up to the sign of zero. -/
def AlikeRes (r s : Res Value) : Prop := r = s ∨ ∃ x y, r = .ok (.num x) ∧ s = .ok (.num y) ∧ Alike x y

end Spec

/-! ### Where the property fails -/

/-- The largest finite number. -/
def Spec.largest : F64 := .fin (2 ^ 1024 - 2 ^ 971)

/-- C40 fails: the dotted names that are documented cannot be written (the shorter ones can); NaN makes all three functions panic; the median of two large numbers is infinite, hence beyond `MAX`,
and differs from the second quartile; and a percentile of two equal numbers may exceed them. -/
theorem C40_wrong (X : Ext) :
    evaluate X c!"PERCENTILE.INC([1, 2], 0.5)" = .error (.err "Unexpected identifier (expected function call)" [] (some 10)) ∧
    (∀ name ∈ [c!"MEDIAN(\"nan\"::Float, 1)", c!"PERCENTILE_INC(\"nan\"::Float, 1, 0.5)", c!"QUARTILE_INC(\"nan\"::Float, 1, 2)"],
      evaluate X name = panics "called `Option::unwrap()` on a `None` value") ∧
    fn X c!"MEDIAN" [.num largest, .num largest] = .ok (.num (.inf false)) ∧
    fn X c!"MAX" [.num largest, .num largest] = .ok (.num largest) ∧
    fn X c!"QUARTILE_INC" [.num largest, .num largest, .num (.fin 2)] = .ok (.num largest) ∧
    evaluate X c!"PERCENTILE_INC([0.1, 0.1], 0.2) > MAX([0.1, 0.1])" = .ok (.bool true) := by
  refine ⟨by kernel_rfl, ?_, by kernel_rfl, by kernel_rfl, by kernel_rfl, by kernel_rfl⟩
  intro name h
  simp only [List.mem_cons, List.not_mem_nil, or_false] at h
  rcases h with rfl | rfl | rfl <;> kernel_rfl

/-! ### Sorting -/

theorem key_le_of {a b : F64} (h : F64.fle a b = true) : F64.key a ≤ F64.key b := ((F64.fle_iff a b).1 h).2.2

/-- Sorting permutations of the same numbers gives the same numbers in the same places. -/
theorem sorted_keys {xs ys : List F64} (h : xs.Perm ys) (hn : F64.nan ∉ xs) :
    (Arr.sortBy F64.fle xs).map F64.key = (Arr.sortBy F64.fle ys).map F64.key := by
  have hn' : F64.nan ∉ ys := fun hm => hn (h.mem_iff.2 hm)
  have s1 : ((Arr.sortBy F64.fle xs).map F64.key).Pairwise (· ≤ ·) :=
    List.pairwise_map.2 ((sortNums_asc xs hn).imp key_le_of)
  have s2 : ((Arr.sortBy F64.fle ys).map F64.key).Pairwise (· ≤ ·) :=
    List.pairwise_map.2 ((sortNums_asc ys hn').imp key_le_of)
  refine List.Perm.eq_of_pairwise ?_ s1 s2 ?_
  · intro a b _ _ h1 h2; exact le_antisymm h1 h2
  · exact ((sortBy_perm xs).trans (h.trans (sortBy_perm ys).symm)).map _

theorem alike_of_key {x y : F64} (hx : IsDouble x) (hy : IsDouble y) (hnx : x ≠ .nan) (hny : y ≠ .nan) (h : F64.key x = F64.key y) : Alike x y := by
  have h1 : F64.rank x = F64.rank y ∧ x.toRat = y.toRat := by
    unfold F64.key at h
    simpa using h
  cases x <;> cases y <;> simp_all [Alike, F64.rank, F64.toRat, IsDouble]
  all_goals rename_i s t
  all_goals cases s <;> cases t <;> simp_all

/-! ### Arithmetic up to the sign of zero -/

theorem Spec.Alike.refl (x : F64) : Alike x x := .inl rfl

theorem Spec.Alike.symm {x y : F64} (h : Alike x y) : Alike y x := by
  rcases h with rfl | ⟨s, t, rfl, rfl⟩
  · exact .inl rfl
  · exact .inr ⟨t, s, rfl, rfl⟩

theorem Spec.Alike.trans {x y z : F64} (h1 : Alike x y) (h2 : Alike y z) : Alike x z := by
  rcases h1 with rfl | ⟨s, t, rfl, rfl⟩
  · exact h2
  · rcases h2 with rfl | ⟨s', t', h, rfl⟩
    · exact .inr ⟨_, _, rfl, rfl⟩
    · exact .inr ⟨_, _, rfl, rfl⟩

theorem alike_add {a a' b b' : F64} (ha : Alike a a') (hb : Alike b b') : Alike (F64.add a b) (F64.add a' b') := by
  have left : ∀ s t b, Alike (F64.add (.zero s) b) (F64.add (.zero t) b) := by
    intro s t b; cases b <;> first | exact .inl rfl | exact .inr ⟨_, _, rfl, rfl⟩
  have right : ∀ s t a, Alike (F64.add a (.zero s)) (F64.add a (.zero t)) := by
    intro s t a; cases a <;> first | exact .inl rfl | exact .inr ⟨_, _, rfl, rfl⟩
  rcases ha with rfl | ⟨s, t, rfl, rfl⟩ <;> rcases hb with rfl | ⟨s', t', rfl, rfl⟩
  · exact .refl _
  · exact right ..
  · exact left ..
  · exact .inr ⟨_, _, rfl, rfl⟩

theorem alike_mul {a a' : F64} (ha : Alike a a') (b : F64) : Alike (F64.mul a b) (F64.mul a' b) := by
  rcases ha with rfl | ⟨s, t, rfl, rfl⟩
  · exact .refl _
  · cases b <;> first | exact .inl rfl | exact .inr ⟨_, _, rfl, rfl⟩

theorem alike_div_fin {a a' : F64} (ha : Alike a a') (q : ℚ) : Alike (F64.div a (.fin q)) (F64.div a' (.fin q)) := by
  rcases ha with rfl | ⟨s, t, rfl, rfl⟩
  · exact .refl _
  · exact .inr ⟨_, _, rfl, rfl⟩

/-! ### Invariance under permutation -/

/-- Two lists of the same length with the same numbers in each place. -/
def AlikeLists (xs ys : List F64) : Prop := List.Forall₂ Alike xs ys

theorem sorted_alike {xs ys : List F64} (h : xs.Perm ys) (hx : ∀ x ∈ xs, IsDouble x ∧ x ≠ .nan) :
    AlikeLists (Arr.sortBy F64.fle xs) (Arr.sortBy F64.fle ys) := by
  have hk := sorted_keys h (fun hm => (hx _ hm).2 rfl)
  have h1 : ∀ x ∈ Arr.sortBy F64.fle xs, IsDouble x ∧ x ≠ .nan := fun x hm => hx x ((sortBy_perm xs).mem_iff.1 hm)
  have h2 : ∀ x ∈ Arr.sortBy F64.fle ys, IsDouble x ∧ x ≠ .nan := fun x hm =>
    hx x (h.mem_iff.2 ((sortBy_perm ys).mem_iff.1 hm))
  revert hk h1 h2
  generalize Arr.sortBy F64.fle xs = as
  generalize Arr.sortBy F64.fle ys = bs
  intro hk h1 h2
  induction as generalizing bs with
  | nil => cases bs with
    | nil => exact .nil
    | cons b bs => simp at hk
  | cons a as ih => cases bs with
    | nil => simp at hk
    | cons b bs =>
      rw [List.map_cons, List.map_cons, List.cons.injEq] at hk
      have ha := h1 a (by simp)
      have hb := h2 b (by simp)
      exact .cons (alike_of_key ha.1 hb.1 ha.2 hb.2 hk.1) (ih bs hk.2 (fun x hm => h1 x (by simp [hm])) fun x hm => h2 x (by simp [hm]))

theorem at_alike {xs ys : List F64} (h : AlikeLists xs ys) (i : Nat) (hi : i < xs.length) :
    ∃ a b, Stat.at' xs i = .ok a ∧ Stat.at' ys i = .ok b ∧ Alike a b := by
  induction h generalizing i with
  | nil => simp at hi
  | cons hab _ ih =>
    cases i with
    | zero => exact ⟨_, _, rfl, rfl, hab⟩
    | succ i => exact ih i (by simpa using hi)

theorem at_ok (xs : List F64) (i : Nat) (hi : i < xs.length) : Stat.at' xs i = .ok xs[i] := by
  simp [Stat.at', hi]

theorem sortBy_length (xs : List F64) : (Arr.sortBy F64.fle xs).length = xs.length := (sortBy_perm xs).length_eq

/-- The median of a list in order. -/
theorem median_ok (vs : List Value) (hne : Stat.collects vs ≠ []) (hn : F64.nan ∉ Stat.collects vs) :
    let s := Arr.sortBy F64.fle (Stat.collects vs)
    ∃ h1 : s.length / 2 - 1 < s.length, ∃ h2 : s.length / 2 < s.length,
    Stat.median vs = .ok (.num (if s.length % 2 = 0 then F64.div (F64.add s[s.length / 2 - 1] s[s.length / 2]) (.fin 2) else s[s.length / 2])) := by
  intro s
  have hlen : 0 < s.length := by
    rw [sortBy_length]; exact List.length_pos_iff.2 hne
  refine ⟨by omega, by omega, ?_⟩
  unfold Stat.median
  have he : (Stat.collects vs).isEmpty = false := by simpa using hne
  simp only [he, sortNums_ok _ hn, bind, Except.bind, Bool.false_eq_true, if_false]
  change (if s.length % 2 = 0 then _ else _) = _
  split
  · rw [at_ok (Arr.sortBy F64.fle (Stat.collects vs)) _ (by change s.length / 2 - 1 < s.length; omega),
      at_ok (Arr.sortBy F64.fle (Stat.collects vs)) _ (by change s.length / 2 < s.length; omega)]; rfl
  · rw [at_ok (Arr.sortBy F64.fle (Stat.collects vs)) _ (by change s.length / 2 < s.length; omega)]; rfl

theorem Spec.AlikeRes.of {x y : F64} (h : Alike x y) : AlikeRes (.ok (.num x)) (.ok (.num y)) := .inr ⟨x, y, rfl, rfl, h⟩

theorem floor_le_ceil (x : F64) : x.floor.toUsize ≤ x.ceil.toUsize := by
  cases x with
  | fin q =>
    have hfc : q.floor ≤ q.ceil := by
      have h1 : (q.floor : ℚ) ≤ q := Rat.floor_le q
      have h2 : q ≤ (q.ceil : ℚ) := Rat.le_ceil
      exact_mod_cast h1.trans h2
    have e : F64.u64Max = 2 ^ 64 - 1 := rfl
    have hu : ∀ s (i : ℤ), (F64.ofRounded s i).toUsize = (min (max i 0) (2 ^ 64 - 1)).toNat := by
      intro s i
      unfold F64.ofRounded
      split
      · rename_i h; subst h; simp [F64.toUsize, F64.toIntSat]
      · simp only [F64.toUsize, F64.toIntSat, truncRat_int]
        split_ifs <;> omega
    simp only [F64.floor, F64.ceil, hu]
    omega
  | _ => exact le_refl _

theorem interpolate_alike {xs ys : List F64} (h : xs.Perm ys) (hne : xs ≠ []) (hx : ∀ x ∈ xs, IsDouble x ∧ x ≠ .nan) (p : F64) :
    AlikeRes (Stat.interpolate xs p) (Stat.interpolate ys p) := by
  have hn : F64.nan ∉ xs := fun hm => (hx _ hm).2 rfl
  have hn' : F64.nan ∉ ys := fun hm => hn (h.mem_iff.2 hm)
  have hs := sorted_alike h hx
  have hpos : 0 < xs.length := List.length_pos_iff.2 hne
  have hl1 := sortBy_length xs
  have hl2 := sortBy_length ys
  have hl := h.length_eq
  unfold Stat.interpolate
  simp only [sortNums_ok _ hn, sortNums_ok _ hn', bind, Except.bind, hl1, hl2, ← hl]
  have hfc := floor_le_ceil (p.mul ((F64.ofNat xs.length).sub (.fin 1)))
  split
  · obtain ⟨a, b, e1, e2, hab⟩ := at_alike hs (min ((p.mul ((F64.ofNat xs.length).sub (.fin 1))).floor.toUsize) (xs.length - 1)) (by omega)
    rw [e1, e2]; exact .of hab
  · rename_i hc
    rw [not_or] at hc
    obtain ⟨a, b, e1, e2, hab⟩ := at_alike hs ((p.mul ((F64.ofNat xs.length).sub (.fin 1))).floor.toUsize) (by omega)
    obtain ⟨c, d, e3, e4, hcd⟩ := at_alike hs ((p.mul ((F64.ofNat xs.length).sub (.fin 1))).ceil.toUsize) (by omega)
    rw [e1, e2, e3, e4]
    exact .of (alike_add (alike_mul hab _) (alike_mul hcd _))

theorem fn_median (X : Ext) (vs : List Value) : fn X c!"MEDIAN" vs = Stat.median vs := by rw [fn_eq X _ _ (by decide)]; rfl
theorem fn_percentile (X : Ext) (vs : List Value) : fn X c!"PERCENTILE_INC" vs = Stat.percentile vs := by rw [fn_eq X _ _ (by decide)]; rfl
theorem fn_quartile (X : Ext) (vs : List Value) : fn X c!"QUARTILE_INC" vs = Stat.quartile vs := by rw [fn_eq X _ _ (by decide)]; rfl

theorem percentile_eq (vs : List Value) (hv : vs ≠ []) (p : Value) : Stat.percentile (vs ++ [p]) =
    match p with
    | .num p =>
      if (Stat.collects vs).isEmpty then .ok (.num (.zero false))
      else if F64.flt p (.zero false) || F64.fgt p (.fin 1) then fail "Percentile must be between 0 and 1"
      else Stat.interpolate (Stat.collects vs) p
    | _ => fail "Percentile must be a number" := by
  have : 0 < vs.length := List.length_pos_iff.2 hv
  unfold Stat.percentile
  rw [if_neg (by simp; omega), List.getLast?_concat, List.dropLast_concat]
  cases p <;> rfl

theorem quartile_eq (vs : List Value) (hv : vs ≠ []) (q : Value) : Stat.quartile (vs ++ [q]) =
    match q with
    | .num q =>
      if (Stat.collects vs).isEmpty then .ok (.num (.zero false))
      else if q.toI32 < 0 ∨ q.toI32 > 4 then fail "Quartile must be 0-4"
      else Stat.interpolate (Stat.collects vs) (F64.div (F64.ofInt q.toI32) (.fin 4))
    | _ => fail "Quartile must be a number" := by
  have : 0 < vs.length := List.length_pos_iff.2 hv
  unfold Stat.quartile
  rw [if_neg (by simp; omega), List.getLast?_concat, List.dropLast_concat]
  cases q <;> rfl

/-- C40, partial: rearranging the amounts of the input changes none of the three functions (up to the sign of a zero).
Missing: inputs with NaN, on which they panic. -/
theorem C40_permutation_partial (X : Ext) (vs ws ls ms : List Value) (p : Value) (hv : LeavesOf vs ls) (hw : LeavesOf ws ms)
    (hperm : (amounts ls).Perm (amounts ms)) (hx : ∀ x ∈ amounts ls, IsDouble x ∧ x ≠ .nan) (hvs : vs ≠ []) (hws : ws ≠ []) :
    AlikeRes (fn X c!"MEDIAN" vs) (fn X c!"MEDIAN" ws) ∧
    AlikeRes (fn X c!"PERCENTILE_INC" (vs ++ [p])) (fn X c!"PERCENTILE_INC" (ws ++ [p])) ∧
    AlikeRes (fn X c!"QUARTILE_INC" (vs ++ [p])) (fn X c!"QUARTILE_INC" (ws ++ [p])) := by
  rw [fn_median, fn_median, fn_percentile, fn_percentile, fn_quartile, fn_quartile, percentile_eq _ hvs, percentile_eq _ hws,
    quartile_eq _ hvs, quartile_eq _ hws]
  have c1 := collects_leaves hv
  have c2 := collects_leaves hw
  rw [← c1, ← c2] at hperm
  rw [← c1] at hx
  by_cases hne : Stat.collects vs = []
  · have hne' : Stat.collects ws = [] := by rw [hne] at hperm; exact List.perm_nil.1 hperm.symm
    simp only [Stat.median, hne, hne']
    exact ⟨.inl rfl, .inl rfl, .inl rfl⟩
  have hne' : Stat.collects ws ≠ [] := fun h => hne (by rw [h] at hperm; exact List.perm_nil.1 hperm)
  have e1 : (Stat.collects vs).isEmpty = false := by simpa using hne
  have e2 : (Stat.collects ws).isEmpty = false := by simpa using hne'
  have hn : F64.nan ∉ Stat.collects vs := fun hm => (hx _ hm).2 rfl
  have hn' : F64.nan ∉ Stat.collects ws := fun hm => hn (hperm.mem_iff.2 hm)
  refine ⟨?_, ?_, ?_⟩
  · obtain ⟨h1, h2, h⟩ := median_ok vs hne hn
    obtain ⟨h1', h2', h'⟩ := median_ok ws hne' hn'
    rw [h, h']
    have hs := sorted_alike hperm hx
    have hl : (Arr.sortBy F64.fle (Stat.collects vs)).length = (Arr.sortBy F64.fle (Stat.collects ws)).length := by
      rw [sortBy_length, sortBy_length, hperm.length_eq]
    have pt : ∀ i (h1 : i < (Arr.sortBy F64.fle (Stat.collects vs)).length) (h2 : i < (Arr.sortBy F64.fle (Stat.collects ws)).length),
        Alike (Arr.sortBy F64.fle (Stat.collects vs))[i] (Arr.sortBy F64.fle (Stat.collects ws))[i] := by
      intro i h1 h2
      obtain ⟨a, b, e1, e2, hab⟩ := at_alike hs i h1
      rw [at_ok _ _ h1] at e1; rw [at_ok _ _ h2] at e2
      cases e1; cases e2; exact hab
    simp only [hl]
    refine .of ?_
    split
    · exact alike_div_fin (alike_add (pt _ (by omega) (by omega)) (pt _ (by omega) (by omega))) 2
    · exact pt _ (by omega) (by omega)
  · cases p <;> simp only [e1, e2] <;> try exact .inl rfl
    split
    · exact .inl rfl
    · split
      · exact .inl rfl
      · exact interpolate_alike hperm hne hx _
  · cases p <;> simp only [e1, e2] <;> try exact .inl rfl
    split
    · exact .inl rfl
    · split
      · exact .inl rfl
      · exact interpolate_alike hperm hne hx _

/-- C40, partial: none of the three functions panics on an input without NaN. Missing: inputs with NaN, on which
they do. -/
theorem C40_no_panic_partial (X : Ext) (vs ls : List Value) (p : Value) (hv : LeavesOf vs ls) (hn : F64.nan ∉ amounts ls) (hvs : vs ≠ []) (w : String) :
    fn X c!"MEDIAN" vs ≠ panics w ∧ fn X c!"PERCENTILE_INC" (vs ++ [p]) ≠ panics w ∧ fn X c!"QUARTILE_INC" (vs ++ [p]) ≠ panics w := by
  rw [fn_median, fn_percentile, fn_quartile, percentile_eq _ hvs, quartile_eq _ hvs]
  rw [← collects_leaves hv] at hn
  have inter : ∀ q, Stat.collects vs ≠ [] → Stat.interpolate (Stat.collects vs) q ≠ panics w := by
    intro q hne
    have hpos : 0 < (Stat.collects vs).length := List.length_pos_iff.2 hne
    have hl := sortBy_length (Stat.collects vs)
    unfold Stat.interpolate
    simp only [sortNums_ok _ hn, bind, Except.bind, hl]
    have hfc := floor_le_ceil (q.mul ((F64.ofNat (Stat.collects vs).length).sub (.fin 1)))
    split
    · rw [at_ok _ _ (by omega)]; intro h; cases h
    · rename_i hc
      rw [not_or] at hc
      rw [at_ok _ _ (by omega), at_ok _ _ (by omega)]; intro h; cases h
  by_cases hne : Stat.collects vs = []
  · simp only [Stat.median, hne]
    refine ⟨?_, ?_, ?_⟩
    · intro h; cases h
    · cases p <;> · intro h; cases h
    · cases p <;> · intro h; cases h
  have e1 : (Stat.collects vs).isEmpty = false := by simpa using hne
  refine ⟨?_, ?_, ?_⟩
  · obtain ⟨h1, h2, h⟩ := median_ok vs hne hn
    rw [h]; intro h; cases h
  · cases p <;> simp only [e1] <;> first | (intro h; cases h; done) | skip
    split
    · intro h; cases h
    · split
      · intro h; cases h
      · exact inter _ hne
  · cases p <;> simp only [e1] <;> first | (intro h; cases h; done) | skip
    split
    · intro h; cases h
    · split
      · intro h; cases h
      · exact inter _ hne

/-! ### Bounds -/

/-- Doubling a moderate double is exact. -/
theorem isBin64_double {a : ℚ} (h : IsBin64 a) (ha : |a| < 2 ^ 1023) : IsBin64 (2 * a) := by
  obtain ⟨m, e, h1, h2, h3, rfl⟩ := h
  by_cases hm : |2 * m| < 2 ^ 53
  · exact ⟨2 * m, e, hm, h2, h3, by push_cast; ring⟩
  · refine ⟨m, e + 1, h1, by omega, ?_, by rw [zpow_add₀ (by norm_num)]; ring⟩
    by_contra hc
    have he : e = 971 := by omega
    subst he
    have hm' : (2 : ℤ) ^ 52 ≤ |m| := by rw [abs_mul] at hm; norm_num at hm ⊢; omega
    have hq : (2 : ℚ) ^ 52 ≤ |(m : ℚ)| := by exact_mod_cast hm'
    rw [abs_mul, abs_of_pos (F64.pow2_pos 971)] at ha
    have h971 : (2 : ℚ) ^ (971 : ℤ) = 2 ^ (971 : ℕ) := by rw [← zpow_natCast]; rfl
    rw [h971] at ha
    have : (2 : ℚ) ^ 52 * 2 ^ (971 : ℕ) ≤ |(m : ℚ)| * 2 ^ (971 : ℕ) := mul_le_mul_of_nonneg_right hq (by positivity)
    rw [← pow_add] at this
    exact absurd (this.trans_lt ha) (lt_irrefl _)

theorem isBin64_toRat {x : F64} (h : IsDouble x) : IsBin64 x.toRat := by
  cases x with
  | fin q => exact h.2
  | _ => exact F64.isBin64_zero

theorem key_finite {x : F64} (h : x.isFinite = true) : F64.key x = toLex (0, x.toRat) := by
  cases x <;> simp_all [F64.key, F64.rank, F64.isFinite]

theorem add_key {a b : F64} (ha : IsDouble a) (hb : IsDouble b) (fa : a.isFinite = true) (fb : b.isFinite = true) :
    Alike (F64.add a b) (F64.round (a.toRat + b.toRat)) := by
  cases a <;> cases b <;> simp [F64.isFinite] at fa fb <;> simp only [F64.add, F64.toRat, zero_add, add_zero]
  · exact .inr ⟨_, false, rfl, by simp [F64.round]⟩
  · rw [F64.round_exact hb.2 hb.1]; exact .refl _
  · rw [F64.round_exact ha.2 ha.1]; exact .refl _
  · exact .refl _

theorem halve_key {a : F64} (fa : a.isFinite = true) : Alike (F64.div a (.fin 2)) (F64.round (a.toRat / 2)) := by
  cases a <;> simp [F64.isFinite] at fa <;> simp only [F64.div, F64.toRat]
  · exact .inr ⟨_, false, rfl, by simp [F64.round]⟩
  · exact .refl _

theorem alike_key {x y : F64} (h : Alike x y) : F64.key x = F64.key y := by
  rcases h with rfl | ⟨s, t, rfl, rfl⟩ <;> rfl

theorem finite_of_key {x : F64} {a b : ℚ} (hn : x ≠ .nan) (h1 : toLex ((0 : ℤ), a) ≤ F64.key x) (h2 : F64.key x ≤ toLex ((0 : ℤ), b)) : x.isFinite = true := by
  cases x with
  | nan => exact absurd rfl hn
  | inf s =>
    unfold F64.key at h1 h2
    rw [Prod.Lex.toLex_le_toLex] at h1 h2
    cases s <;> simp [F64.rank] at h1 h2
  | _ => rfl

/-- The average of two ordered doubles of moderate size lies between them. -/
theorem average_between {a b : F64} (ha : IsDouble a) (hb : IsDouble b) (fa : a.isFinite = true) (fb : b.isFinite = true)
    (h : F64.fle a b = true) (la : |a.toRat| < 2 ^ 1023) (lb : |b.toRat| < 2 ^ 1023) :
    F64.fle a (F64.div (F64.add a b) (.fin 2)) = true ∧ F64.fle (F64.div (F64.add a b) (.fin 2)) b = true := by
  have hab : a.toRat ≤ b.toRat := by
    have := key_le_of h
    rw [key_finite fa, key_finite fb, Prod.Lex.toLex_le_toLex] at this
    simpa using this
  have hs := alike_key (add_key ha hb fa fb)
  have lo : toLex ((0 : ℤ), 2 * a.toRat) ≤ F64.key (F64.add a b) := by
    rw [hs]; exact F64.le_key_round (isBin64_double (isBin64_toRat ha) la) (by linarith) _
  have hi : F64.key (F64.add a b) ≤ toLex ((0 : ℤ), 2 * b.toRat) := by
    rw [hs]; exact F64.key_round_le (isBin64_double (isBin64_toRat hb) lb) (by linarith) _
  have hnan : F64.add a b ≠ .nan := by
    rcases add_key ha hb fa fb with h | ⟨s, t, h, -⟩
    · rw [h]; exact F64.round_ne_nan _ _
    · rw [h]; simp
  have fs := finite_of_key hnan lo hi
  rw [key_finite fs, Prod.Lex.toLex_le_toLex] at lo hi
  have lo' : 2 * a.toRat ≤ (F64.add a b).toRat := by simpa using lo
  have hi' : (F64.add a b).toRat ≤ 2 * b.toRat := by simpa using hi
  have hd := alike_key (halve_key fs)
  have hnan2 : F64.div (F64.add a b) (.fin 2) ≠ .nan := by
    rcases halve_key fs with h | ⟨s, t, h, -⟩
    · rw [h]; exact F64.round_ne_nan _ _
    · rw [h]; simp
  have na : a ≠ .nan := by rintro rfl; simp [F64.isFinite] at fa
  have nb : b ≠ .nan := by rintro rfl; simp [F64.isFinite] at fb
  rw [F64.fle_iff, F64.fle_iff]
  refine ⟨⟨na, hnan2, ?_⟩, hnan2, nb, ?_⟩
  · rw [hd, key_finite fa]; exact F64.le_key_round (isBin64_toRat ha) (by linarith) _
  · rw [hd, key_finite fb]; exact F64.key_round_le (isBin64_toRat hb) (by linarith) _

/-- C40, partial: the median of finite numbers below 2^1023 lies between `MIN` and `MAX`. Missing: larger numbers, whose
sum may overflow, and NaN. -/
theorem C40_median_bounds_partial (X : Ext) (vs ls : List Value) (hv : LeavesOf vs ls) (hne : amounts ls ≠ [])
    (hx : ∀ x ∈ amounts ls, IsDouble x ∧ x.isFinite = true ∧ |x.toRat| < 2 ^ 1023) :
    ∃ lo m hi, fn X c!"MIN" vs = .ok (.num lo) ∧ fn X c!"MEDIAN" vs = .ok (.num m) ∧ fn X c!"MAX" vs = .ok (.num hi) ∧
      F64.fle lo m = true ∧ F64.fle m hi = true := by
  obtain ⟨lo, hi, h1, h2, hb, -⟩ := C39_min_max X vs ls hv
  have hc := collects_leaves hv
  have nn : ∀ x ∈ amounts ls, x ≠ .nan := by
    intro x hm hx'; have := (hx x hm).2.1; rw [hx'] at this; simp [F64.isFinite] at this
  have hn : F64.nan ∉ Stat.collects vs := by rw [hc]; exact fun hm => nn _ hm rfl
  obtain ⟨i1, i2, hm⟩ := median_ok vs (by rw [hc]; exact hne) hn
  refine ⟨lo, _, hi, h1, (fn_median X vs).trans hm, h2, ?_⟩
  have mem : ∀ i (hi : i < (Arr.sortBy F64.fle (Stat.collects vs)).length), (Arr.sortBy F64.fle (Stat.collects vs))[i] ∈ amounts ls := by
    intro i hi
    rw [← hc]; exact (sortBy_perm _).mem_iff.1 (List.getElem_mem hi)
  have hsorted := sortNums_asc _ hn
  split
  · rename_i heven
    have hle : F64.fle (Arr.sortBy F64.fle (Stat.collects vs))[(Arr.sortBy F64.fle (Stat.collects vs)).length / 2 - 1]
        (Arr.sortBy F64.fle (Stat.collects vs))[(Arr.sortBy F64.fle (Stat.collects vs)).length / 2] = true :=
      List.pairwise_iff_getElem.1 hsorted _ _ i1 i2 (by omega)
    have m1 := mem _ i1
    have m2 := mem _ i2
    obtain ⟨d1, f1, l1⟩ := hx _ m1
    obtain ⟨d2, f2, l2⟩ := hx _ m2
    obtain ⟨ha, hb'⟩ := average_between d1 d2 f1 f2 hle l1 l2
    exact ⟨F64.fle_trans (hb _ m1 (nn _ m1)).1 ha, F64.fle_trans hb' (hb _ m2 (nn _ m2)).2⟩
  · exact hb _ (mem _ i2) (nn _ (mem _ i2))

/-! ### Agreement -/

/-- C40: the quartile `k` is the percentile `k / 4`. -/
theorem C40_quartile (X : Ext) (vs : List Value) :
    ∀ kp ∈ [(F64.zero false, F64.zero false), (.fin 1, .fin (1 / 4)), (.fin 2, .fin (1 / 2)), (.fin 3, .fin (3 / 4)), (.fin 4, .fin 1)],
      vs ≠ [] → fn X c!"QUARTILE_INC" (vs ++ [.num kp.1]) = fn X c!"PERCENTILE_INC" (vs ++ [.num kp.2]) := by
  intro kp hk hvs
  rw [fn_percentile, fn_quartile, percentile_eq _ hvs, quartile_eq _ hvs]
  simp only [List.mem_cons, List.not_mem_nil, or_false] at hk
  rcases hk with rfl | rfl | rfl | rfl | rfl <;> kernel_rfl

/-- The rank of a percentile, when it is a whole number, is the place of the answer. -/
theorem interpolate_at (xs : List F64) (hn : F64.nan ∉ xs) (p : F64) (k : Nat) (hk : k < (Arr.sortBy F64.fle xs).length)
    (hr : F64.mul p (F64.sub (F64.ofNat xs.length) (.fin 1)) = F64.ofIntExact k) (hb : k < 2 ^ 53) :
    Stat.interpolate xs p = .ok (.num (Arr.sortBy F64.fle xs)[k]) := by
  have hl := sortBy_length xs
  have e : F64.u64Max = 18446744073709551615 := rfl
  have hf : (F64.ofIntExact k).floor.toUsize = k ∧ (F64.ofIntExact k).ceil.toUsize = k := by
    unfold F64.ofIntExact
    by_cases h0 : (k : ℤ) = 0
    · have : k = 0 := by omega
      subst this; simp [F64.floor, F64.ceil, F64.toUsize, F64.toIntSat]
    · rw [if_neg h0]
      have hfl : ((k : ℤ) : ℚ).floor = k := Rat.floor_intCast _
      have hce : ((k : ℤ) : ℚ).ceil = k := Rat.ceil_intCast _
      simp only [F64.floor, F64.ceil, hfl, hce, F64.ofRounded, if_neg h0, F64.toUsize, F64.toIntSat, truncRat_int]
      constructor <;> (split_ifs <;> omega)
  unfold Stat.interpolate
  simp only [sortNums_ok _ hn, bind, Except.bind, hl, hr, hf.1, hf.2, true_or, if_true]
  rw [show min k (xs.length - 1) = k by omega, at_ok _ _ hk]; rfl

theorem len_sub_one (n : Nat) (h1 : 1 ≤ n) (h : n ≤ 2 ^ 53) : F64.sub (F64.ofNat n) (.fin 1) = F64.ofIntExact ((n : ℤ) - 1) := by
  unfold F64.ofNat
  rw [F64.ofInt_exact _ (by rw [abs_of_nonneg (by omega)]; exact_mod_cast h)]
  unfold F64.ofIntExact
  rw [if_neg (by omega)]
  have : F64.sub (.fin ((n : ℤ) : ℚ)) (.fin 1) = F64.round (((n : ℤ) : ℚ) + -1) := rfl
  rw [this, show ((n : ℤ) : ℚ) + -1 = (((n : ℤ) - 1 : ℤ) : ℚ) by push_cast; ring]
  have := F64.ofInt_exact ((n : ℤ) - 1) (by rw [abs_of_nonneg (by omega)]; have : (n : ℤ) ≤ 2 ^ 53 := by exact_mod_cast h
                                            omega)
  unfold F64.ofInt F64.ofIntExact at this
  exact this

theorem mul_half (n : Nat) (h : 2 * n < 2 ^ 53) : F64.mul (.fin (1 / 2)) (F64.ofIntExact (2 * n : ℤ)) = F64.ofIntExact n := by
  unfold F64.ofIntExact
  by_cases h0 : n = 0
  · subst h0; decide +kernel
  · rw [if_neg (by omega), if_neg (by omega)]
    have : F64.mul (.fin (1 / 2)) (.fin ((2 * n : ℤ) : ℚ)) = F64.round (1 / 2 * ((2 * n : ℤ) : ℚ)) := rfl
    rw [this, show (1 / 2 : ℚ) * ((2 * n : ℤ) : ℚ) = ((n : ℤ) : ℚ) by push_cast; ring]
    have := F64.ofInt_exact (n : ℤ) (by rw [abs_of_nonneg (by omega)]; have : (n : ℤ) < 2 ^ 53 := by exact_mod_cast (by omega : n < 2 ^ 53)
                                        omega)
    unfold F64.ofInt F64.ofIntExact at this
    rw [if_neg (by omega)] at this
    exact this

/-- C40, partial: for an odd number of amounts, the median, the 50th percentile and the second quartile are the same.
Missing: an even number, where they may differ. -/
theorem C40_median_odd_partial (X : Ext) (vs ls : List Value) (hv : LeavesOf vs ls) (hn : F64.nan ∉ amounts ls)
    (hodd : (amounts ls).length % 2 = 1) (hfit : (amounts ls).length < 2 ^ 53) :
    fn X c!"MEDIAN" vs = fn X c!"PERCENTILE_INC" (vs ++ [.num (.fin (1 / 2))]) ∧
    fn X c!"MEDIAN" vs = fn X c!"QUARTILE_INC" (vs ++ [.num (.fin 2)]) := by
  have hvs : vs ≠ [] := by rintro rfl; cases hv; simp [amounts] at hodd
  have hq := C40_quartile X vs (.fin 2, .fin (1 / 2)) (by simp) hvs
  simp only at hq
  rw [hq, and_self, fn_median, fn_percentile, percentile_eq _ hvs]
  have hc := collects_leaves hv
  rw [← hc] at hn hodd hfit
  have hne : Stat.collects vs ≠ [] := by intro h; rw [h] at hodd; simp at hodd
  have e1 : (Stat.collects vs).isEmpty = false := by simpa using hne
  have e2 : (F64.flt (.fin (1 / 2)) (.zero false) || F64.fgt (.fin (1 / 2)) (.fin 1)) = false := by decide +kernel
  obtain ⟨i1, i2, hm⟩ := median_ok vs hne hn
  have hl := sortBy_length (Stat.collects vs)
  simp only [e1, e2, Bool.false_eq_true, if_false]
  rw [hm, if_neg (by omega)]
  rw [interpolate_at _ hn (.fin (1 / 2)) ((Arr.sortBy F64.fle (Stat.collects vs)).length / 2) i2 ?_ (by omega)]
  rw [len_sub_one _ (by omega) (by omega)]
  rw [show (((Stat.collects vs).length : ℤ) - 1) = 2 * (((Stat.collects vs).length / 2 : ℕ) : ℤ) by omega, mul_half _ (by omega), hl]

theorem mul_one_left (n : Nat) (h : n < 2 ^ 53) : F64.mul (.fin 1) (F64.ofIntExact n) = F64.ofIntExact n := by
  unfold F64.ofIntExact
  by_cases h0 : n = 0
  · subst h0; decide +kernel
  · rw [if_neg (by omega)]
    have : F64.mul (.fin 1) (.fin ((n : ℤ) : ℚ)) = F64.round (1 * ((n : ℤ) : ℚ)) := rfl
    rw [this, one_mul]
    have := F64.ofInt_exact (n : ℤ) (by rw [abs_of_nonneg (by omega)]; have : (n : ℤ) < 2 ^ 53 := by exact_mod_cast h
                                        omega)
    unfold F64.ofInt F64.ofIntExact at this
    rw [if_neg (by omega)] at this
    exact this

/-- C40, partial: the percentiles 0 and 1 are the least and the greatest amount. Missing: NaN. -/
theorem C40_ends_partial (X : Ext) (vs ls : List Value) (hv : LeavesOf vs ls) (hne : amounts ls ≠ []) (hn : F64.nan ∉ amounts ls)
    (hfit : (amounts ls).length < 2 ^ 53) :
    ∃ lo lo' hi hi', fn X c!"MIN" vs = .ok (.num lo) ∧ fn X c!"PERCENTILE_INC" (vs ++ [.num (.zero false)]) = .ok (.num lo') ∧
      fn X c!"MAX" vs = .ok (.num hi) ∧ fn X c!"PERCENTILE_INC" (vs ++ [.num (.fin 1)]) = .ok (.num hi') ∧
      F64.feq lo lo' = true ∧ F64.feq hi hi' = true := by
  have hvs : vs ≠ [] := by rintro rfl; cases hv; simp [amounts] at hne
  obtain ⟨lo, hi, h1, h2, hb, hm⟩ := C39_min_max X vs ls hv
  have hc := collects_leaves hv
  obtain ⟨ml, mh⟩ := hm hne
  rw [fn_percentile, percentile_eq _ hvs, fn_percentile, percentile_eq _ hvs, h1, h2]
  rw [← hc] at hn hfit hne ml mh hb
  have e1 : (Stat.collects vs).isEmpty = false := by simpa using hne
  have hl := sortBy_length (Stat.collects vs)
  have hpos : 0 < (Stat.collects vs).length := List.length_pos_iff.2 hne
  have e2 : (F64.flt (.zero false) (.zero false) || F64.fgt (.zero false) (.fin 1)) = false := by decide +kernel
  have e3 : (F64.flt (.fin 1) (.zero false) || F64.fgt (.fin 1) (.fin 1)) = false := by decide +kernel
  have hsorted := sortNums_asc _ hn
  have nn : ∀ x ∈ Stat.collects vs, x ≠ .nan := fun x hx h => hn (h ▸ hx)
  have mem : ∀ i (hi : i < (Arr.sortBy F64.fle (Stat.collects vs)).length), (Arr.sortBy F64.fle (Stat.collects vs))[i] ∈ Stat.collects vs :=
    fun i hi => (sortBy_perm _).mem_iff.1 (List.getElem_mem hi)
  simp only [e1, e2, e3, Bool.false_eq_true, if_false]
  have r0 : F64.mul (.zero false) (F64.sub (F64.ofNat (Stat.collects vs).length) (.fin 1)) = F64.ofIntExact (0 : ℕ) := by
    rw [len_sub_one _ hpos (by omega)]
    unfold F64.ofIntExact
    by_cases h0 : ((Stat.collects vs).length : ℤ) - 1 = 0
    · rw [if_pos h0]; rfl
    · rw [if_neg h0]
      have hp : (0 : ℚ) ≤ ((((Stat.collects vs).length : ℤ) - 1 : ℤ) : ℚ) := by exact_mod_cast (by omega : (0 : ℤ) ≤ ((Stat.collects vs).length : ℤ) - 1)
      simp only [F64.mul, F64.signBit, not_lt.2 hp]
      rfl
  have r1 : F64.mul (.fin 1) (F64.sub (F64.ofNat (Stat.collects vs).length) (.fin 1)) = F64.ofIntExact (((Stat.collects vs).length - 1 : ℕ) : ℤ) := by
    rw [len_sub_one _ hpos (by omega), show (((Stat.collects vs).length : ℤ) - 1) = (((Stat.collects vs).length - 1 : ℕ) : ℤ) by omega, mul_one_left _ (by omega)]
  rw [interpolate_at _ hn _ 0 (by omega) r0 (by norm_num), interpolate_at _ hn _ _ (by omega) r1 (by omega)]
  refine ⟨lo, _, hi, _, rfl, rfl, rfl, rfl, ?_, ?_⟩
  · refine F64.fle_antisymm (hb _ (mem _ _) (nn _ (mem _ _))).1 ?_
    obtain ⟨i, hi, he⟩ := List.getElem_of_mem ((sortBy_perm (le := F64.fle) _).mem_iff.2 ml)
    rw [← he]
    by_cases h0 : i = 0
    · subst h0; exact F64.fle_refl (nn _ (mem _ _))
    · exact List.pairwise_iff_getElem.1 hsorted _ _ _ hi (by omega)
  · refine F64.fle_antisymm ?_ (hb _ (mem _ _) (nn _ (mem _ _))).2
    obtain ⟨i, hi, he⟩ := List.getElem_of_mem ((sortBy_perm (le := F64.fle) _).mem_iff.2 mh)
    rw [← he]
    by_cases h0 : i = (Stat.collects vs).length - 1
    · subst h0; exact F64.fle_refl (nn _ (mem _ _))
    · exact List.pairwise_iff_getElem.1 hsorted _ _ hi _ (by omega)

/-- The number at a rank in a list in order: the one at that place, or the mean of the two beside it, weighted by their nearness, computed in doubles. -/
def Spec.AtRank (s : List F64) (rank : ℚ) (x : F64) : Prop :=
  ∃ k : ℕ, (rank = k ∧ s[k]? = some x) ∨
    ((k : ℚ) < rank ∧ rank < k + 1 ∧ ∃ a b, s[k]? = some a ∧ s[k + 1]? = some b ∧
      x = F64.add (F64.mul a (F64.sub (.fin 1) (F64.round (rank - k)))) (F64.mul b (F64.round (rank - k))))

theorem toUsize_rounded (s : Bool) (k : ℕ) (h : k < 2 ^ 53) : (F64.ofRounded s (k : ℤ)).toUsize = k := by
  have e : F64.u64Max = 18446744073709551615 := rfl
  unfold F64.ofRounded
  split
  · simp only [F64.toUsize, F64.toIntSat]; omega
  · simp only [F64.toUsize, F64.toIntSat, truncRat_int]; split_ifs <;> omega

/-- The rank computed for a percentile. -/
theorem rank_range (p : F64) (m : ℕ) (hm : m < 2 ^ 53) (h0 : F64.fle (.zero false) p = true) (h1 : F64.fle p (.fin 1) = true) :
    ∃ R : ℚ, 0 ≤ R ∧ R ≤ m ∧ (F64.mul p (F64.ofIntExact m)).toRat = R ∧
      ((∃ s, F64.mul p (F64.ofIntExact m) = .zero s) ∨ F64.mul p (F64.ofIntExact m) = .fin R) := by
  have zero : ∀ s, F64.mul p (F64.ofIntExact m) = .zero s → ∃ R : ℚ, 0 ≤ R ∧ R ≤ m ∧ (F64.mul p (F64.ofIntExact m)).toRat = R ∧
      ((∃ s, F64.mul p (F64.ofIntExact m) = .zero s) ∨ F64.mul p (F64.ofIntExact m) = .fin R) :=
    fun s h => ⟨0, le_refl _, by positivity, by rw [h]; rfl, .inl ⟨s, h⟩⟩
  cases p with
  | nan => simp [F64.fle] at h0
  | inf s => cases s <;> simp [F64.fle] at h0 h1
  | zero s =>
    refine zero (s != F64.signBit (F64.ofIntExact m)) ?_
    unfold F64.ofIntExact; split <;> rfl
  | fin q =>
    have hq0 : 0 ≤ q := of_decide_eq_true h0
    have hq1 : q ≤ 1 := of_decide_eq_true h1
    by_cases hm0 : (m : ℤ) = 0
    · refine zero (decide (q < 0) != false) ?_
      unfold F64.ofIntExact; rw [if_pos hm0]; rfl
    have e : F64.mul (.fin q) (F64.ofIntExact m) = F64.round (q * ((m : ℤ) : ℚ)) := by
      unfold F64.ofIntExact; rw [if_neg hm0]; rfl
    have hmq : (0 : ℚ) ≤ ((m : ℤ) : ℚ) := by exact_mod_cast Nat.zero_le m
    have up := F64.key_round_le (w := ((m : ℤ) : ℚ)) (q := q * ((m : ℤ) : ℚ))
      (F64.isBin64_int _ (by rw [abs_of_nonneg (by omega)]; exact_mod_cast hm.le)) (by nlinarith) false
    have lo := F64.le_key_round (w := 0) (q := q * ((m : ℤ) : ℚ)) F64.isBin64_zero (by positivity) false
    rw [← e] at up lo
    rw [e] at zero up lo ⊢
    have hnn := F64.round_ne_nan (q * ((m : ℤ) : ℚ)) false
    generalize F64.round (q * ((m : ℤ) : ℚ)) = r at *
    cases r with
    | nan => exact absurd rfl hnn
    | zero s => exact zero s rfl
    | inf s => cases s <;> simp [F64.key, F64.rank, Prod.Lex.toLex_le_toLex] at up lo
    | fin R =>
      simp only [F64.key, F64.rank, F64.toRat, Prod.Lex.toLex_le_toLex, lt_irrefl, true_and, false_or] at up lo
      exact ⟨R, lo, by exact_mod_cast up, rfl, .inr rfl⟩

/-- C40, partial: a percentile is the number at its rank, the rank of `p` among `n` numbers being `p · (n - 1)` rounded.
Missing: NaN among the numbers, on which the function panics. -/
theorem C40_percentile_partial (X : Ext) (vs ls : List Value) (p : F64) (hv : LeavesOf vs ls) (hne : amounts ls ≠ []) (hn : F64.nan ∉ amounts ls)
    (hfit : (amounts ls).length < 2 ^ 53) (h0 : F64.fle (.zero false) p = true) (h1 : F64.fle p (.fin 1) = true) :
    ∃ s x, s.Perm (amounts ls) ∧ s.Pairwise (fun a b => F64.fle a b = true) ∧
      fn X c!"PERCENTILE_INC" (vs ++ [.num p]) = .ok (.num x) ∧
      AtRank s (F64.mul p (F64.ofNat ((amounts ls).length - 1))).toRat x := by
  have hvs : vs ≠ [] := by rintro rfl; cases hv; simp [amounts] at hne
  have hc := collects_leaves hv
  rw [fn_percentile, percentile_eq _ hvs]
  rw [← hc] at hn hfit hne ⊢
  have hpos : 0 < (Stat.collects vs).length := List.length_pos_iff.2 hne
  have hl := sortBy_length (Stat.collects vs)
  have e1 : (Stat.collects vs).isEmpty = false := by simpa using hne
  have hp : p ≠ .nan := by rintro rfl; simp [F64.fle] at h0
  have e2 : F64.flt p (.zero false) = false := (F64.not_flt hp (by simp)).2 h0
  have e3 : F64.fgt p (.fin 1) = false := (F64.not_flt (by simp) hp).2 h1
  simp only [e1, e2, e3, Bool.or_self, Bool.false_eq_true, if_false]
  refine ⟨Arr.sortBy F64.fle (Stat.collects vs), ?_⟩
  have el : F64.ofNat ((Stat.collects vs).length - 1) = F64.ofIntExact (((Stat.collects vs).length - 1 : ℕ) : ℤ) := by
    unfold F64.ofNat
    exact F64.ofInt_exact _ (by rw [abs_of_nonneg (by omega)]; exact_mod_cast (by omega : (Stat.collects vs).length - 1 ≤ 2 ^ 53))
  have er : F64.sub (F64.ofNat (Stat.collects vs).length) (.fin 1) = F64.ofIntExact (((Stat.collects vs).length - 1 : ℕ) : ℤ) := by
    rw [len_sub_one _ hpos hfit.le]; congr 1; omega
  rw [el]
  obtain ⟨R, hR0, hRm, hRe, hcase⟩ := rank_range p ((Stat.collects vs).length - 1) (by omega) h0 h1
  suffices h : ∃ x, Stat.interpolate (Stat.collects vs) p = .ok (.num x) ∧ AtRank (Arr.sortBy F64.fle (Stat.collects vs)) R x by
    obtain ⟨x, hx, ha⟩ := h
    exact ⟨x, sortBy_perm _, sortNums_asc _ hn, hx, by rw [hRe]; exact ha⟩
  rcases hcase with ⟨s, hz⟩ | hf
  · rw [hz] at hRe
    simp only [F64.toRat] at hRe
    refine ⟨(Arr.sortBy F64.fle (Stat.collects vs))[0]'(by omega), ?_, 0, .inl ⟨by rw [← hRe]; rfl, List.getElem?_eq_getElem _⟩⟩
    unfold Stat.interpolate
    have z0 : ∀ s, (F64.zero s).toUsize = 0 := fun _ => rfl
    simp only [sortNums_ok _ hn, bind, Except.bind, hl, er, hz, F64.floor, F64.ceil, z0, true_or, if_true]
    rw [show min 0 ((Stat.collects vs).length - 1) = 0 by omega, at_ok _ _ (by omega)]; rfl
  · obtain ⟨k, hk⟩ : ∃ k : ℕ, R.floor = (k : ℤ) := ⟨R.floor.toNat, by
      have : 0 ≤ R.floor := Rat.le_floor_iff.2 (by exact_mod_cast hR0)
      omega⟩
    have hkR : (k : ℚ) ≤ R := by
      have := Rat.floor_le R
      rw [hk] at this; exact_mod_cast this
    have hRk : R < k + 1 := by
      have := Rat.lt_floor_add_one R
      rw [hk] at this; exact_mod_cast this
    have hkm : k ≤ (Stat.collects vs).length - 1 := by exact_mod_cast hkR.trans hRm
    have hneg : decide (R < 0) = false := decide_eq_false (not_lt.2 hR0)
    by_cases hint : R = k
    · refine ⟨(Arr.sortBy F64.fle (Stat.collects vs))[k]'(by omega), ?_, k, .inl ⟨hint, List.getElem?_eq_getElem _⟩⟩
      refine interpolate_at _ hn p k (by omega) ?_ (by omega)
      rw [er, hf, hint]
      unfold F64.ofIntExact
      split
      · rename_i h0
        have hk0 : k = 0 := by omega
        have hd := F64.mul_isDouble p (F64.ofIntExact (((Stat.collects vs).length - 1 : ℕ) : ℤ))
        rw [hf, hint, hk0] at hd
        exact absurd rfl hd.1
      · rfl
    · have hce : R.ceil = ((k + 1 : ℕ) : ℤ) := by
        have hlt : (k : ℚ) < R := lt_of_le_of_ne hkR (Ne.symm hint)
        have h1 : R.ceil ≤ ((k + 1 : ℕ) : ℤ) := Rat.ceil_le_iff.2 (by push_cast; exact hRk.le)
        have h2 : ((k : ℕ) : ℤ) < R.ceil := Rat.lt_ceil_iff.2 (by exact_mod_cast hlt)
        omega
      have hk1 : k + 1 ≤ (Stat.collects vs).length - 1 := by
        have : R.ceil ≤ (((Stat.collects vs).length - 1 : ℕ) : ℤ) := Rat.ceil_le_iff.2 (by exact_mod_cast hRm)
        omega
      refine ⟨_, ?_, k, .inr ⟨lt_of_le_of_ne hkR (Ne.symm hint), hRk, (Arr.sortBy F64.fle (Stat.collects vs))[k]'(by omega),
        (Arr.sortBy F64.fle (Stat.collects vs))[k + 1]'(by omega), List.getElem?_eq_getElem _, List.getElem?_eq_getElem _, rfl⟩⟩
      unfold Stat.interpolate
      simp only [sortNums_ok _ hn, bind, Except.bind, hl, er, hf, F64.floor, F64.ceil, hk, hce]
      rw [toUsize_rounded _ _ (by omega), toUsize_rounded _ _ (by omega), if_neg (by omega)]
      have ek : F64.sub (.fin R) (F64.ofNat k) = F64.round (R - k) := by
        have : F64.ofNat k = F64.ofIntExact (k : ℤ) := F64.ofInt_exact _ (by rw [abs_of_nonneg (by omega)]; exact_mod_cast (by omega : k ≤ 2 ^ 53))
        rw [this]
        unfold F64.ofIntExact
        split
        · rename_i h0
          have hk0 : k = 0 := by omega
          have hd := F64.mul_isDouble p (F64.ofIntExact (((Stat.collects vs).length - 1 : ℕ) : ℤ))
          rw [hf] at hd
          rw [hk0, Nat.cast_zero, sub_zero, F64.round_exact hd.2 hd.1]
          rfl
        · have : F64.sub (.fin R) (.fin ((k : ℤ) : ℚ)) = F64.round (R + -((k : ℤ) : ℚ)) := rfl
          rw [this, Int.cast_natCast, sub_eq_add_neg]
      rw [ek, at_ok _ _ (by omega), at_ok _ _ (by omega)]
      rfl

/-- A NaN percentile is not refused but taken for zero. -/
theorem C40_nan_percentile (X : Ext) : evaluate X c!"PERCENTILE_INC([3, 1, 2], \"nan\"::Float)" = .ok (.num (.fin 1)) ∧
    evaluate X c!"PERCENTILE_INC([3, 1, 2], 1.1)" = fail "Percentile must be between 0 and 1" := ⟨by kernel_rfl, by kernel_rfl⟩

example (X : Ext) : evaluate X c!"[MEDIAN(3, 1, 2), QUARTILE_INC([4, 1, 3, 2], 1), PERCENTILE_INC([4, 1, 3, 2], 0)]" =
    .ok (.arr [.num (.fin 2), .num (.fin (7 / 4)), .num (.fin 1)]) := by kernel_rfl
example : ∀ x ∈ amounts [.num (.fin 3), .num (.fin 1), .cur (.fin 2)], IsDouble x ∧ x.isFinite = true ∧ |x.toRat| < 2 ^ 1023 := by
  intro x hx
  simp only [amounts, List.mem_cons, List.not_mem_nil, or_false] at hx
  have big : (4 : ℚ) ≤ 2 ^ 1023 := by
    calc (4 : ℚ) = 2 ^ 2 := by norm_num
      _ ≤ 2 ^ 1023 := pow_le_pow_right₀ (by norm_num) (by norm_num)
  rcases hx with rfl | rfl | rfl
  · exact ⟨⟨by norm_num, 3, 0, by norm_num, by norm_num, by norm_num, by norm_num⟩, rfl, by simp only [F64.toRat]; rw [abs_of_pos (by norm_num)]; exact lt_of_lt_of_le (by norm_num) big⟩
  · exact ⟨⟨by norm_num, 1, 0, by norm_num, by norm_num, by norm_num, by norm_num⟩, rfl, by simp only [F64.toRat]; rw [abs_of_pos (by norm_num)]; exact lt_of_lt_of_le (by norm_num) big⟩
  · exact ⟨⟨by norm_num, 2, 0, by norm_num, by norm_num, by norm_num, by norm_num⟩, rfl, by simp only [F64.toRat]; rw [abs_of_pos (by norm_num)]; exact lt_of_lt_of_le (by norm_num) big⟩

example : F64.fle (.zero false) (.fin (1 / 4)) = true ∧ F64.fle (.fin (1 / 4)) (.fin 1) = true := by decide +kernel
example : AtRank [.fin 1, .fin 2, .fin 3, .fin 4] (3 / 4) (.fin (7 / 4)) :=
  ⟨0, .inr ⟨by norm_num, by norm_num, .fin 1, .fin 2, rfl, rfl, by decide +kernel⟩⟩

/-! ### C41 -/

/-- C41 fails for numbers: the two zeros are equal but counted apart, so 1 wins over four zeros. -/
theorem C41_mode_zeros (X : Ext) : evaluate X c!"MODE_SNGL([0, 0, -0, -0, 1, 1, 1])" = .ok (.num (.fin 1)) ∧
    evaluate X c!"0 = -0" = .ok (.bool true) ∧
    evaluate X c!"MODE.SNGL([1, 2])" = .error (.err "Unexpected identifier (expected function call)" [] (some 4)) :=
  ⟨by kernel_rfl, by kernel_rfl, by kernel_rfl⟩

theorem occurrences_eq (nums : List F64) (x : F64) : Stat.occurrences nums x = nums.count x := by
  unfold Stat.occurrences
  rw [List.count_eq_length_filter]
  congr 2

theorem foldl_max (f : F64 → Nat) (xs : List F64) (m : Nat) :
    m ≤ xs.foldl (fun m x => max m (f x)) m ∧ (∀ x ∈ xs, f x ≤ xs.foldl (fun m x => max m (f x)) m) ∧
    (xs.foldl (fun m x => max m (f x)) m = m ∨ ∃ x ∈ xs, f x = xs.foldl (fun m x => max m (f x)) m) := by
  induction xs generalizing m with
  | nil => simp
  | cons y ys ih =>
    obtain ⟨h1, h2, h3⟩ := ih (max m (f y))
    rw [List.foldl_cons]
    refine ⟨by omega, ?_, ?_⟩
    · intro x hx
      rcases List.mem_cons.1 hx with rfl | hx
      · omega
      · exact h2 x hx
    · rcases h3 with h3 | ⟨x, hx, h3⟩
      · rw [h3]
        by_cases hm : f y ≤ m
        · exact .inl (by omega)
        · exact .inr ⟨y, by simp, by omega⟩
      · exact .inr ⟨x, by simp [hx], h3⟩

/-- C41, partial: telling the two zeros apart, the mode occurs in the input, nothing occurs more often, and whatever
occurs as often appears no earlier. Missing: the zeros taken as one number. -/
theorem C41_mode_partial (X : Ext) (vs ls : List Value) (hv : LeavesOf vs ls) (hne : amounts ls ≠ []) :
    ∃ m pre post, fn X c!"MODE_SNGL" vs = .ok (.num m) ∧ amounts ls = pre ++ m :: post ∧
      (∀ x, (amounts ls).count x ≤ (amounts ls).count m) ∧ ∀ x ∈ pre, (amounts ls).count x < (amounts ls).count m := by
  rw [fn_eq X _ _ (by decide)]
  change ∃ m pre post, Stat.mode vs = _ ∧ _
  simp only [Stat.mode, collects_leaves hv]
  have he : (amounts ls).isEmpty = false := by simpa using hne
  simp only [he, Bool.false_eq_true, if_false]
  obtain ⟨h1, h2, h3⟩ := foldl_max (Stat.occurrences (amounts ls)) (amounts ls) 0
  change 0 ≤ Stat.maxCount (amounts ls) at h1
  change ∀ x ∈ amounts ls, _ ≤ Stat.maxCount (amounts ls) at h2
  change Stat.maxCount (amounts ls) = 0 ∨ ∃ x ∈ amounts ls, _ = Stat.maxCount (amounts ls) at h3
  have hex : ∃ x ∈ amounts ls, Stat.occurrences (amounts ls) x = Stat.maxCount (amounts ls) := by
    rcases h3 with h3 | h3
    · obtain ⟨x, hx⟩ := List.exists_mem_of_ne_nil _ hne
      have := h2 x hx
      have hp : 0 < (amounts ls).count x := List.count_pos_iff.2 hx
      rw [occurrences_eq] at this
      omega
    · exact h3
  cases hf : (amounts ls).find? (fun x => Stat.occurrences (amounts ls) x == Stat.maxCount (amounts ls)) with
  | none =>
    rw [List.find?_eq_none] at hf
    obtain ⟨x, hx, h⟩ := hex
    exact absurd (by simpa using h) (hf x hx)
  | some m =>
    obtain ⟨hm, pre, post, hsplit, hpre⟩ := List.find?_eq_some_iff_append.1 hf
    have hm' : (amounts ls).count m = Stat.maxCount (amounts ls) := by rw [← occurrences_eq]; simpa using hm
    refine ⟨m, pre, post, rfl, hsplit, ?_, ?_⟩
    · intro x
      rw [hm']
      by_cases hx : x ∈ amounts ls
      · rw [← occurrences_eq]; exact h2 x hx
      · rw [List.count_eq_zero_of_not_mem hx]; omega
    · intro x hx
      have h4 := h2 x (by rw [hsplit]; simp [hx])
      have h5 := hpre x hx
      rw [occurrences_eq] at h4 h5
      rw [hm']
      have : (amounts ls).count x ≠ Stat.maxCount (amounts ls) := by simpa using h5
      omega

example (X : Ext) : evaluate X c!"MODE_SNGL(3, [1, 2, 1], 3)" = .ok (.num (.fin 3)) := by kernel_rfl
