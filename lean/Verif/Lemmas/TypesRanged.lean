import Verif.Lemmas.TypesSig
/-! The functions that can fail for some data (C111). -/

namespace Types

open Spec

theorem unwrap_fine {α : Type} {P : α → Prop} : Fine false P (panics "called `Option::unwrap()` on a `None` value" : Res α) := .inr ⟨rfl, _, rfl, .unwrapped⟩

theorem sortNums_fine (xs : List F64) : Fine false (fun ys => ys.length = xs.length) (Arr.sortNums xs) := by
  unfold Arr.sortNums
  split
  · exact unwrap_fine
  · exact Fine.ok (sortBy_length xs)

theorem allNums_ok (err : String) : ∀ {vs : List Value}, (∀ v ∈ vs, IsOf .num v) → ∃ xs, Arr.allNums err vs = .ok xs := by
  intro vs
  induction vs with
  | nil => intro _; exact ⟨_, rfl⟩
  | cons v vs ih =>
    intro h
    rw [List.forall_mem_cons] at h
    obtain ⟨n, rfl⟩ := isOf_num h.1
    obtain ⟨xs, hx⟩ := ih h.2
    exact ⟨n :: xs, by rw [Arr.allNums, hx]; rfl⟩

theorem at_fine (xs : List F64) (i : Nat) (h : i < xs.length) : Fine false (fun _ => True) (Stat.at' xs i) := by rw [at_ok xs i h]; exact Fine.ok trivial

theorem median_fine (vs : List Value) : Fine false (IsOf .num) (Stat.median vs) := by
  unfold Stat.median
  extract_lets nums
  split
  · exact Fine.ok trivial
  · rename_i hne
    have hne : nums ≠ [] := by simpa using hne
    refine (sortNums_fine nums).bind fun ys hl => ?_
    have hpos : 0 < ys.length := by rw [hl]; exact List.length_pos_iff.2 hne
    extract_lets len
    split
    · exact (at_fine _ _ (by omega)).bind fun _ _ => (at_fine _ _ (by omega)).bind fun _ _ => Fine.ok trivial
    · exact (at_fine _ _ (by omega)).bind fun _ _ => Fine.ok trivial

theorem interpolate_fine (xs : List F64) (p : F64) (hne : xs ≠ []) : Fine false (IsOf .num) (Stat.interpolate xs p) := by
  unfold Stat.interpolate
  refine (sortNums_fine xs).bind fun ys hl => ?_
  have hpos : 0 < ys.length := by rw [hl]; exact List.length_pos_iff.2 hne
  extract_lets len rank lo hi
  have hfc : lo ≤ hi := floor_le_ceil rank
  split
  · exact (at_fine _ _ (by omega)).bind fun _ _ => Fine.ok trivial
  · exact (at_fine _ _ (by omega)).bind fun _ _ => (at_fine _ _ (by omega)).bind fun _ _ => Fine.ok trivial

theorem percentile_fine (v : Value) (p : F64) : Fine false (IsOf .num) (Stat.percentile [v, .num p]) := by
  have : Stat.percentile [v, .num p] = if (Stat.collects [v]).isEmpty then .ok (.num (.zero false))
    else if F64.flt p (.zero false) || F64.fgt p (.fin 1) then fail "Percentile must be between 0 and 1" else Stat.interpolate (Stat.collects [v]) p := rfl
  rw [this]
  split
  · exact Fine.ok trivial
  · rename_i hne
    split
    · exact .inr ⟨rfl, _, rfl, .percentile⟩
    · exact interpolate_fine _ _ (by simpa using hne)

theorem quartile_fine (v : Value) (p : F64) : Fine false (IsOf .num) (Stat.quartile [v, .num p]) := by
  have : Stat.quartile [v, .num p] = if (Stat.collects [v]).isEmpty then .ok (.num (.zero false))
    else if p.toI32 < 0 ∨ p.toI32 > 4 then fail "Quartile must be 0-4" else Stat.interpolate (Stat.collects [v]) (F64.div (F64.ofInt p.toI32) (.fin 4)) := rfl
  rw [this]
  split
  · exact Fine.ok trivial
  · rename_i hne
    split
    · exact .inr ⟨rfl, _, rfl, .quartile⟩
    · exact interpolate_fine _ _ (by simpa using hne)

theorem sort_fine {vs : List Value} (h : ∀ v ∈ vs, IsOf .num v) (rest : List Value) : Fine false (IsOf (.arr .num)) (Arr.sort (.arr vs :: rest)) := by
  obtain ⟨xs, hx⟩ := allNums_ok "SORT expects numeric array" h
  simp only [Arr.sort, argAt, List.getElem?_cons_zero, hx]
  refine (sortNums_fine xs).bind fun ys _ => Fine.ok ?_
  intro w hw
  obtain ⟨n, _, rfl⟩ := List.mem_map.1 hw
  trivial

/-- Numbers as arguments. -/
theorem areOf_nums {vs : List Value} {k : Nat} (h : AreOf (List.replicate k .num) vs) : ∃ xs : List F64, vs = xs.map .num ∧ xs.length = k := by
  induction k generalizing vs with
  | zero => exact ⟨[], areOf_nil h, rfl⟩
  | succ k ih =>
    rw [List.replicate_succ] at h
    obtain ⟨v, ws, rfl, hv, h'⟩ := areOf_cons h
    obtain ⟨x, rfl⟩ := isOf_num hv
    obtain ⟨xs, rfl, hl⟩ := ih h'
    exact ⟨x :: xs, rfl, by simp [hl]⟩

theorem need_ok (xs : List F64) (i : Nat) (err : String) (h : i < xs.length) : Fin'.need (xs.map .num) i err = .ok xs[i] := by
  simp [Fin'.need, argAt, h, Value.asNumber]

theorem pmt_fine (X : Ext) (xs : List F64) (h1 : 3 ≤ xs.length) (h2 : xs.length ≤ 5) : Fine false (IsOf .num) (Fin'.pmt X (xs.map .num)) := by
  unfold Fin'.pmt
  rw [if_neg (by simp; omega), need_ok _ 0 _ (by omega), need_ok _ 1 _ (by omega), need_ok _ 2 _ (by omega)]
  refine Fine.ok (P := fun _ => True) trivial |>.bind fun a _ => Fine.ok (P := fun _ => True) trivial |>.bind fun b _ => Fine.ok (P := fun _ => True) trivial |>.bind fun c _ => ?_
  simp only
  split
  · exact .inr ⟨rfl, _, rfl, .pmt⟩
  · exact Fine.ok trivial

theorem fv_fine (X : Ext) (xs : List F64) (h1 : 3 ≤ xs.length) (h2 : xs.length ≤ 5) : Fine false (IsOf .num) (Fin'.fv X (xs.map .num)) := by
  unfold Fin'.fv
  rw [if_neg (by simp; omega), need_ok _ 0 _ (by omega), need_ok _ 1 _ (by omega), need_ok _ 2 _ (by omega)]
  refine Fine.ok (P := fun _ => True) trivial |>.bind fun a _ => Fine.ok (P := fun _ => True) trivial |>.bind fun b _ => Fine.ok (P := fun _ => True) trivial |>.bind fun c _ => ?_
  simp only
  split
  · exact .inr ⟨rfl, _, rfl, .fv⟩
  · exact Fine.ok trivial

theorem db_fine (X : Ext) (xs : List F64) (h1 : 4 ≤ xs.length) (h2 : xs.length ≤ 5) : Fine false (IsOf .num) (Fin'.db X (xs.map .num)) := by
  unfold Fin'.db
  rw [if_neg (by simp; omega), need_ok _ 0 _ (by omega), need_ok _ 1 _ (by omega), need_ok _ 2 _ (by omega), need_ok _ 3 _ (by omega)]
  refine Fine.ok (P := fun _ => True) trivial |>.bind fun a _ => Fine.ok (P := fun _ => True) trivial |>.bind fun b _ => Fine.ok (P := fun _ => True) trivial |>.bind fun c _ =>
    Fine.ok (P := fun _ => True) trivial |>.bind fun d _ => ?_
  simp only
  split
  · exact .inr ⟨rfl, _, rfl, .db⟩
  · split <;> exact Fine.ok trivial

theorem ipmt_fine (X : Ext) (xs : List F64) (h1 : 4 ≤ xs.length) (h2 : xs.length ≤ 6) : Fine false (IsOf .num) (Fin'.ipmt X (xs.map .num)) := by
  unfold Fin'.ipmt
  rw [if_neg (by simp; omega), need_ok _ 0 _ (by omega), need_ok _ 1 _ (by omega), need_ok _ 2 _ (by omega), need_ok _ 3 _ (by omega)]
  refine Fine.ok (P := fun _ => True) trivial |>.bind fun a _ => Fine.ok (P := fun _ => True) trivial |>.bind fun b _ => Fine.ok (P := fun _ => True) trivial |>.bind fun c _ =>
    Fine.ok (P := fun _ => True) trivial |>.bind fun d _ => ?_
  simp only
  split
  · exact .inr ⟨rfl, _, rfl, .ipmt⟩
  · exact Fine.ok trivial

/-- The days `from_ymd` finds are in the calendar. -/
theorem fromYmd_range {y : ℤ} {m d : ℕ} {z sec : ℤ} (h : Cal.fromYmd y m d = some z) (h0 : 0 ≤ sec) (h1 : sec < 86400) : IsOf .date (.dt (z * 86400 + sec)) := by
  unfold Cal.fromYmd at h
  split at h
  · rename_i hc
    cases h
    obtain ⟨a, b, c, e, f, g⟩ := hc
    have hr := (dayNumber_range c e f g).1 ⟨a, b⟩
    exact (inRange_iff _).1 ((fromTimestamp_iff _).2 (by
      rw [fromTimestamp_of h0 h1 hr]
      congr 2 <;> omega))
  · cases h

theorem date_fine (X : Ext) (a b c : F64) : Fine false (IsOf .date) (DT.date X [.num a, .num b, .num c]) := by
  simp only [DT.date]
  split
  · rename_i day h
    have := fromYmd_range h (sec := 0) (by omega) (by omega)
    rw [add_zero] at this
    exact Fine.ok this
  · exact .inr ⟨rfl, _, rfl, .noDate⟩

theorem addDuration_fine (t i u : ℤ) : Fine false (fun w => IsOf .date (.dt w)) (Cal.addDuration t i u) := by
  unfold Cal.addDuration
  simp only
  split
  · exact .inr ⟨rfl, _, rfl, .longPeriod⟩
  · split
    · rename_i p h
      refine Fine.ok ((inRange_iff _).1 ?_)
      by_contra hn
      rw [fromTimestamp_none _ hn] at h
      cases h
    · exact .inr ⟨rfl, _, rfl, .farDate⟩

theorem addI32_fine (a b : ℤ) : Fine false (fun _ => True) (DT.addI32 a b) := by
  unfold DT.addI32
  split
  · exact Fine.ok trivial
  · exact .inr ⟨rfl, _, rfl, .farMonth⟩

theorem dateOr28_fine (y : ℤ) (m d : ℕ) (sec : ℤ) (h0 : 0 ≤ sec) (h1 : sec < 86400) : Fine false (fun w => IsOf .date (.dt w)) (DT.dateOr28 y m d sec) := by
  unfold DT.dateOr28
  split
  · rename_i n h; exact Fine.ok (fromYmd_range h h0 h1)
  · split
    · rename_i n h; exact Fine.ok (fromYmd_range h h0 h1)
    · exact unwrap_fine

theorem dateaddCore_fine (t i : ℤ) (u : Option DT.Unit') (h : firstSecond ≤ t ∧ t ≤ lastSecond) : Fine false (IsOf .date) (DT.dateaddCore t i u) := by
  rw [← inRange_iff, fromTimestamp_iff] at h
  simp only [DT.dateaddCore, h]
  have h0 : 0 ≤ t % 86400 := by omega
  have h1 : t % 86400 < 86400 := by omega
  have months : Fine false (fun w => IsOf .date (.dt w)) (DT.addMonths (t / 86400) (t % 86400) i) := by
    unfold DT.addMonths
    exact (addI32_fine _ _).bind fun _ _ => dateOr28_fine _ _ _ _ h0 h1
  have years : Fine false (fun w => IsOf .date (.dt w)) (DT.addYears (t / 86400) (t % 86400) i) := by
    unfold DT.addYears
    exact (addI32_fine _ _).bind fun _ _ => dateOr28_fine _ _ _ _ h0 h1
  rcases u with _ | u
  · exact .inr ⟨rfl, _, rfl, .addUnit⟩
  · cases u
    case months => exact months.bind fun w hw => Fine.ok (a := Value.dt w) hw
    case years => exact years.bind fun w hw => Fine.ok (a := Value.dt w) hw
    all_goals exact (addDuration_fine _ _ _).bind fun w hw => Fine.ok (a := Value.dt w) hw

theorem datediffCore_fine (t1 t2 : ℤ) (u : Option DT.Unit') (h1 : firstSecond ≤ t1 ∧ t1 ≤ lastSecond) (h2 : firstSecond ≤ t2 ∧ t2 ≤ lastSecond) :
    Fine false (IsOf .num) (DT.datediffCore t1 t2 u) := by
  rw [← inRange_iff, fromTimestamp_iff] at h1 h2
  simp only [DT.datediffCore, h1, h2]
  rcases u with _ | u
  · exact .inr ⟨rfl, _, rfl, .diffUnit⟩
  · cases u <;> exact Fine.ok trivial

theorem ranged_fine (X : Ext) {n : Str} {ts : List Ty} {τ : Ty} {vs : List Value} (h : RangedSig n ts τ) (hv : AreOf ts vs) : Fine false (IsOf τ) (execFast X n vs) := by
  cases h with
  | sort1 =>
    obtain ⟨x, rfl, hx⟩ := areOf_1 hv
    obtain ⟨xs, rfl, hx⟩ := isOf_arr hx
    exact sort_fine hx []
  | sort2 =>
    obtain ⟨x, y, rfl, hx, _⟩ := areOf_2 hv
    obtain ⟨xs, rfl, hx⟩ := isOf_arr hx
    exact sort_fine hx [y]
  | median => exact median_fine vs
  | percentile hn =>
    obtain ⟨x, y, rfl, _, hy⟩ := areOf_2 hv
    obtain ⟨p, rfl⟩ := isOf_num hy
    simp only [List.mem_cons, List.not_mem_nil, or_false] at hn
    rcases hn with rfl | rfl | rfl | rfl
    · exact percentile_fine x p
    · exact percentile_fine x p
    · exact quartile_fine x p
    · exact quartile_fine x p
  | loan3 hn =>
    obtain ⟨xs, rfl, hl⟩ := areOf_nums (k := 3) hv
    simp only [List.mem_cons, List.not_mem_nil, or_false] at hn
    rcases hn with rfl | rfl
    · exact pmt_fine X xs (by omega) (by omega)
    · exact fv_fine X xs (by omega) (by omega)
  | loan4 hn =>
    obtain ⟨xs, rfl, hl⟩ := areOf_nums (k := 4) hv
    simp only [List.mem_cons, List.not_mem_nil, or_false] at hn
    rcases hn with rfl | rfl | rfl | rfl
    · exact pmt_fine X xs (by omega) (by omega)
    · exact fv_fine X xs (by omega) (by omega)
    · exact db_fine X xs (by omega) (by omega)
    · exact ipmt_fine X xs (by omega) (by omega)
  | loan5 hn =>
    obtain ⟨xs, rfl, hl⟩ := areOf_nums (k := 5) hv
    simp only [List.mem_cons, List.not_mem_nil, or_false] at hn
    rcases hn with rfl | rfl | rfl | rfl
    · exact pmt_fine X xs (by omega) (by omega)
    · exact fv_fine X xs (by omega) (by omega)
    · exact db_fine X xs (by omega) (by omega)
    · exact ipmt_fine X xs (by omega) (by omega)
  | loan6 =>
    obtain ⟨xs, rfl, hl⟩ := areOf_nums (k := 6) hv
    exact ipmt_fine X xs (by omega) (by omega)
  | date =>
    obtain ⟨x, y, z, rfl, hx, hy, hz⟩ := areOf_3 hv
    obtain ⟨x, rfl⟩ := isOf_num hx
    obtain ⟨y, rfl⟩ := isOf_num hy
    obtain ⟨z, rfl⟩ := isOf_num hz
    exact date_fine X x y z
  | dateadd =>
    obtain ⟨x, y, z, rfl, hx, hy, hz⟩ := areOf_3 hv
    obtain ⟨t, rfl, ht⟩ := isOf_date hx
    obtain ⟨y, rfl⟩ := isOf_num hy
    obtain ⟨u, rfl⟩ := isOf_text hz
    exact dateaddCore_fine t y.toI64 (DT.unitOf (X.lower u)) ht
  | datediff =>
    obtain ⟨x, y, z, rfl, hx, hy, hz⟩ := areOf_3 hv
    obtain ⟨t1, rfl, h1⟩ := isOf_date hx
    obtain ⟨t2, rfl, h2⟩ := isOf_date hy
    obtain ⟨u, rfl⟩ := isOf_text hz
    exact datediffCore_fine t1 t2 (DT.unitOf (X.lower u)) h1 h2

end Types
