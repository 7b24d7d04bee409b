import Verif.Props.Calendar
/-! C152: adding times, taking differences and reading dates fit together. -/

namespace DateLaws

open _root_.Spec

namespace Spec

/-- Intervals added one after the other: `later X [(n, u), (m, v)] d` is `DATEADD(DATEADD(d, n, u), m, v)`. -/
def later (X : Ext) (steps : List (ℤ × Str)) (d : Value) : Res Value :=
  steps.foldlM (fun v s => fn X c!"DATEADD" [v, int s.1, .str s.2]) d

/-- The number of units from one time to the other: `DATEDIFF(a, b, u)` is `n`. -/
def Apart (X : Ext) (u : Str) (a b n : ℤ) : Prop := fn X c!"DATEDIFF" [.dt a, .dt b, .str u] = .ok (int n)

/-- The names of months. -/
def isMonths (X : Ext) (u : Str) : Prop := X.lower u ∈ [c!"months", c!"month"]
/-- The names of years. -/
def isYears (X : Ext) (u : Str) : Prop := X.lower u ∈ [c!"years", c!"year", c!"y"]

/-- A unit of time. -/
def isUnit (X : Ext) (u : Str) : Prop := (∃ k, Lasts (X.lower u) k) ∨ isMonths X u ∨ isYears X u

end Spec

open Spec

theorem step_fixed (X : Ext) {t n k : ℤ} {u : Str} (hu : Lasts (X.lower u) k) (ht : InRange t) (hw : InRange (t + n * k)) :
    fn X c!"DATEADD" [.dt t, int n, .str u] = .ok (.dt (t + n * k)) := by
  obtain ⟨x, hx, hx'⟩ := truncatesTo_int n
  rw [hx]
  exact C64_fixed_units_no_panic_partial X t x n hx' u k hu ht hw

theorem later2 {X : Ext} {s s' : ℤ × Str} {d d' : Value} (h : fn X c!"DATEADD" [d, int s.1, .str s.2] = .ok d') :
    later X [s, s'] d = fn X c!"DATEADD" [d', int s'.1, .str s'.2] := by
  simp only [later, List.foldlM_cons, List.foldlM_nil, h, bind, Except.bind]
  cases fn X c!"DATEADD" [d', int s'.1, .str s'.2] <;> rfl

/-- **C152.** Weeks, days, hours, minutes and seconds can be added in any order, twice the same unit is their sum at once, and what was added can be taken away. -/
theorem C152_fixed (X : Ext) (t n m k l : ℤ) (u v : Str) (hu : Lasts (X.lower u) k) (hv : Lasts (X.lower v) l) (ht : InRange t) (h1 : InRange (t + n * k))
    (h2 : InRange (t + m * l)) (h3 : InRange (t + n * k + m * l)) :
    later X [(n, u), (m, v)] (.dt t) = later X [(m, v), (n, u)] (.dt t) ∧
    (k = l → later X [(n, u), (m, v)] (.dt t) = fn X c!"DATEADD" [.dt t, int (n + m), .str u]) ∧
    later X [(n, u), (-n, u)] (.dt t) = .ok (.dt t) ∧
    fn X c!"DATEADD" [.dt t, int 0, .str u] = .ok (.dt t) := by
  have e1 := step_fixed X hu ht h1
  have e2 := step_fixed X hv ht h2
  refine ⟨?_, ?_, ?_, ?_⟩
  · rw [later2 e1, later2 e2, step_fixed X hv h1 h3, step_fixed X hu h2 (by rw [show t + m * l + n * k = t + n * k + m * l by ring]; exact h3)]
    rw [show t + m * l + n * k = t + n * k + m * l by ring]
  · rintro rfl
    have e : t + (n + m) * k = t + n * k + m * k := by ring
    rw [later2 e1, step_fixed X hv h1 h3, step_fixed X hu ht (by rw [e]; exact h3), e]
  · have e : t + n * k + -n * k = t := by ring
    rw [later2 e1, step_fixed X hu h1 (by rw [e]; exact ht), e]
  · have e : t + 0 * k = t := by ring
    rw [step_fixed X hu ht (by rw [e]; exact ht), e]

theorem month_step (y : ℤ) (m : ℕ) (h1 : 1 ≤ m) (h2 : m < 12) : Cal.dayNumber y (m + 1) 1 = Cal.dayNumber y m 1 + Cal.daysInMonth y m := by
  interval_cases m <;> simp only [Cal.dayNumber, Cal.daysInMonth, Cal.isLeap] <;> norm_num <;> (try split) <;> omega

theorem day_step (y : ℤ) (m d : ℕ) : Cal.dayNumber y m d = Cal.dayNumber y m 1 + d - 1 := by
  simp only [Cal.dayNumber]; split <;> omega

theorem month_mono (y : ℤ) (m j : ℕ) (h1 : 1 ≤ m) (h2 : m + 1 + j ≤ 12) : Cal.dayNumber y m 1 + Cal.daysInMonth y m ≤ Cal.dayNumber y (m + 1 + j) 1 := by
  induction j with
  | zero => rw [← month_step y m h1 (by omega)]
  | succ j ih =>
    have := ih (by omega)
    rw [show m + 1 + (j + 1) = (m + 1 + j) + 1 by omega, month_step y (m + 1 + j) (by omega) (by omega)]
    omega

/-- Later months are later days. -/
theorem earlier {y y' : ℤ} {m d m' d' : ℕ} (h : IsDate y m d) (h' : IsDate y' m' d') (hl : 12 * y + m < 12 * y' + m') : Cal.dayNumber y m d < Cal.dayNumber y' m' d' := by
  obtain ⟨a1, a2, a3, a4⟩ := (isDate_iff _ _ _).1 h
  obtain ⟨b1, b2, b3, b4⟩ := (isDate_iff _ _ _).1 h'
  rw [Int.toNat_natCast] at a4 b4
  by_cases hy : y < y'
  · have w := dayNumber_within (y := y) (m := m) (d := d) (by omega) (by omega) (by omega) (by omega)
    have w' := dayNumber_within (y := y') (m := m') (d := d') (by omega) (by omega) (by omega) (by omega)
    have e := year_end y
    have g := (dayNumber_year_mono (show y + 1 ≤ y' by omega)).1
    omega
  · have : y = y' := by omega
    subst this
    have g := month_mono y m (m' - m - 1) (by omega) (by omega)
    rw [show m + 1 + (m' - m - 1) = m' by omega] at g
    rw [day_step y m d, day_step y m' d']
    omega

theorem diff_months (X : Ext) {u : Str} (hu : isMonths X u) {a b : ℤ} (ha : InRange a) (hb : InRange b) {y m d y' m' d' : ℤ} (ra : ReadsAs X (.dt a) y m d)
    (rb : ReadsAs X (.dt b) y' m' d') : Apart X u a b (12 * (y' - y) + (m' - m)) := by
  obtain ⟨y0, m0, d0, c0, s0, i0, -, r0⟩ := civil_of_inRange X ha
  obtain ⟨y1, m1, d1, c1, s1, i1, -, r1⟩ := civil_of_inRange X hb
  obtain ⟨rfl, rfl, rfl⟩ := ra.unique r0
  obtain ⟨rfl, rfl, rfl⟩ := rb.unique r1
  obtain ⟨a1, a2, -⟩ := i0
  obtain ⟨b1, b2, -⟩ := i1
  unfold Supported at s0 s1
  unfold Apart
  rw [datediff_eq]
  have hun : DT.unitOf (X.lower u) = some .months := by
    simp only [isMonths, List.mem_cons, List.not_mem_nil, or_false] at hu
    rcases hu with h | h <;> rw [h] <;> rfl
  unfold DT.datediffCore
  rw [(fromTimestamp_iff a).1 ha, (fromTimestamp_iff b).1 hb, hun]
  show Except.ok (Value.num (F64.ofInt _)) = _
  rw [c0, c1]
  show Except.ok (Value.num (F64.ofInt _)) = _
  rw [show (y' - y) * 12 + ((m1 : ℤ) - m0) = 12 * (y' - y) + ((m1 : ℤ) - m0) by ring, int_of (by rw [abs_le]; omega)]

theorem diff_years (X : Ext) {u : Str} (hu : isYears X u) {a b : ℤ} (ha : InRange a) (hb : InRange b) {y m d y' m' d' : ℤ} (ra : ReadsAs X (.dt a) y m d)
    (rb : ReadsAs X (.dt b) y' m' d') : Apart X u a b (y' - y) := by
  obtain ⟨y0, m0, d0, c0, s0, i0, -, r0⟩ := civil_of_inRange X ha
  obtain ⟨y1, m1, d1, c1, s1, i1, -, r1⟩ := civil_of_inRange X hb
  obtain ⟨rfl, rfl, rfl⟩ := ra.unique r0
  obtain ⟨rfl, rfl, rfl⟩ := rb.unique r1
  unfold Supported at s0 s1
  unfold Apart
  rw [datediff_eq]
  have hun : DT.unitOf (X.lower u) = some .years := by
    simp only [isYears, List.mem_cons, List.not_mem_nil, or_false] at hu
    rcases hu with h | h | h <;> rw [h] <;> rfl
  unfold DT.datediffCore
  rw [(fromTimestamp_iff a).1 ha, (fromTimestamp_iff b).1 hb, hun]
  show Except.ok (Value.num (F64.ofInt _)) = _
  rw [c0, c1]
  show Except.ok (Value.num (F64.ofInt _)) = _
  rw [int_of (by rw [abs_le]; omega)]

theorem tdiv_week (a : ℤ) : (a.tdiv 86400).tdiv 7 = a.tdiv 604800 := by
  have pos : ∀ b : ℤ, 0 ≤ b → (b.tdiv 86400).tdiv 7 = b.tdiv 604800 := by
    intro b h
    rw [Int.tdiv_eq_ediv_of_nonneg h, Int.tdiv_eq_ediv_of_nonneg h, Int.tdiv_eq_ediv_of_nonneg (by omega)]
    omega
  by_cases h : 0 ≤ a
  · exact pos a h
  · have := pos (-a) (by omega)
    rw [Int.neg_tdiv, Int.neg_tdiv, Int.neg_tdiv] at this
    omega

theorem diff_fixed (X : Ext) {u : Str} {k : ℤ} (hu : Lasts (X.lower u) k) {a b : ℤ} (ha : InRange a) (hb : InRange b) : Apart X u a b ((b - a).tdiv k) := by
  have hc := inRange_close ha hb
  have hk := hu.pos
  have hb' : |(b - a).tdiv k| ≤ 2 ^ 53 := by
    have : |(b - a).tdiv k| ≤ |b - a| := by
      rw [Int.abs_eq_natAbs, Int.abs_eq_natAbs, Int.natAbs_tdiv]
      exact_mod_cast Nat.div_le_self _ _
    omega
  unfold Apart
  rw [← int_of hb', datediff_eq]
  unfold DT.datediffCore
  rw [(fromTimestamp_iff a).1 ha, (fromTimestamp_iff b).1 hb]
  simp only [Lasts, List.mem_cons, List.not_mem_nil, or_false] at hu
  rcases hu with ⟨h | h | h, hk⟩ | ⟨h | h | h, hk⟩ | ⟨h | h | h, hk⟩ | ⟨h | h | h, hk⟩ | ⟨h | h | h, hk⟩ <;> rw [h] <;> subst hk <;>
    (change Except.ok (Value.num (F64.ofInt _)) = _) <;> congr 3
  all_goals first | rfl | (simp; done) | exact tdiv_week _

theorem tdiv_split (x k : ℤ) (hk : 0 < k) : ∃ r, x = k * x.tdiv k + r ∧ |r| < k ∧ (0 ≤ x → 0 ≤ r) ∧ (x ≤ 0 → r ≤ 0) := by
  refine ⟨x.tmod k, (Int.mul_tdiv_add_tmod x k).symm, ?_, fun h => Int.tmod_nonneg k h, fun h => ?_⟩
  · rw [Int.abs_eq_natAbs, Int.natAbs_tmod]
    have : x.natAbs % k.natAbs < k.natAbs := Nat.mod_lt _ (by omega)
    omega
  · have := Int.tmod_nonneg k (show 0 ≤ -x by omega)
    rw [Int.neg_tmod] at this
    omega

theorem month_le (X : Ext) {a b : ℤ} (ha : InRange a) (hb : InRange b) (h : a ≤ b) {y m d y' m' d' : ℤ} (ra : ReadsAs X (.dt a) y m d) (rb : ReadsAs X (.dt b) y' m' d') :
    12 * y + m ≤ 12 * y' + m' ∧ 1 ≤ m ∧ m ≤ 12 ∧ 1 ≤ m' ∧ m' ≤ 12 := by
  obtain ⟨y0, m0, d0, -, -, i0, e0, r0⟩ := civil_of_inRange X ha
  obtain ⟨y1, m1, d1, -, -, i1, e1, r1⟩ := civil_of_inRange X hb
  obtain ⟨rfl, rfl, rfl⟩ := ra.unique r0
  obtain ⟨rfl, rfl, rfl⟩ := rb.unique r1
  refine ⟨?_, i0.1, i0.2.1, i1.1, i1.2.1⟩
  by_contra hc
  have := earlier i1 i0 (by omega)
  omega

/-- **C152.** Differences: the other way round they have the other sign, they are not negative into the future, grow with it, and add up (exactly for seconds, months and years,
otherwise but for one unit, as each is cut to whole units). -/
theorem C152_differences (X : Ext) (u : Str) (hu : isUnit X u) (a b c : ℤ) (ha : InRange a) (hb : InRange b) (hc : InRange c) :
    ∃ n m l : ℤ, Apart X u a b n ∧ Apart X u b a (-n) ∧ Apart X u b c m ∧ Apart X u a c l ∧
      (a = b → n = 0) ∧ (a ≤ b → 0 ≤ n) ∧ (a ≤ b → b ≤ c → n ≤ l) ∧ |n + m - l| ≤ 1 ∧
      (Lasts (X.lower u) 1 ∨ isMonths X u ∨ isYears X u → n + m = l) := by
  obtain ⟨ya, ma, da, -, -, -, -, ra⟩ := civil_of_inRange X ha
  obtain ⟨yb, mb, db, -, -, -, -, rb⟩ := civil_of_inRange X hb
  obtain ⟨yc, mc, dc, -, -, -, -, rc⟩ := civil_of_inRange X hc
  rcases hu with ⟨k, hk⟩ | hm | hy
  · refine ⟨_, _, _, diff_fixed X hk ha hb, ?_, diff_fixed X hk hb hc, diff_fixed X hk ha hc, ?_⟩
    · have := diff_fixed X hk hb ha
      rwa [show a - b = -(b - a) by ring, Int.neg_tdiv] at this
    · have hp := hk.pos
      obtain ⟨r1, e1, f1, g1, i1⟩ := tdiv_split (b - a) k (by omega)
      obtain ⟨r2, e2, f2, g2, i2⟩ := tdiv_split (c - b) k (by omega)
      obtain ⟨r3, e3, f3, g3, i3⟩ := tdiv_split (c - a) k (by omega)
      rw [abs_lt] at f1 f2 f3
      rw [abs_le]
      generalize (b - a).tdiv k = n at *
      generalize (c - b).tdiv k = m at *
      generalize (c - a).tdiv k = l at *
      have hkk : k = 1 ∨ k = 60 ∨ k = 3600 ∨ k = 86400 ∨ k = 604800 := by rcases hk with h | h | h | h | h <;> omega
      refine ⟨?_, ?_, ?_, ?_, ?_⟩
      · intro h; rcases hkk with rfl | rfl | rfl | rfl | rfl <;> omega
      · intro h; rcases hkk with rfl | rfl | rfl | rfl | rfl <;> omega
      · intro h h'; rcases hkk with rfl | rfl | rfl | rfl | rfl <;> omega
      · rcases hkk with rfl | rfl | rfl | rfl | rfl <;> omega
      · intro h
        have : k = 1 := by
          have e : ∀ j, Lasts (X.lower u) j → j = k := by
            intro j hj
            simp only [Lasts, List.mem_cons, List.not_mem_nil, or_false] at hj hk
            rcases hk with ⟨h | h | h, hk⟩ | ⟨h | h | h, hk⟩ | ⟨h | h | h, hk⟩ | ⟨h | h | h, hk⟩ | ⟨h | h | h, hk⟩ <;> rw [h] at hj <;> simp at hj <;> omega
          rcases h with h | h | h
          · exact (e 1 h).symm
          · exfalso
            simp only [isMonths, Lasts, List.mem_cons, List.not_mem_nil, or_false] at h hk
            rcases h with h | h <;> rw [h] at hk <;> simp at hk
          · exfalso
            simp only [isYears, Lasts, List.mem_cons, List.not_mem_nil, or_false] at h hk
            rcases h with h | h | h <;> rw [h] at hk <;> simp at hk
        subst this; omega
  · refine ⟨_, _, _, diff_months X hm ha hb ra rb, ?_, diff_months X hm hb hc rb rc, diff_months X hm ha hc ra rc, ?_, ?_, ?_, ?_, ?_⟩
    · have := diff_months X hm hb ha rb ra
      rwa [show 12 * (ya - yb) + ((ma : ℤ) - mb) = -(12 * (yb - ya) + ((mb : ℤ) - ma)) by ring] at this
    · rintro rfl
      obtain ⟨h1, h2, -⟩ := ra.unique rb
      omega
    · intro h
      have := month_le X ha hb h ra rb
      omega
    · intro h h'
      have := month_le X hb hc h' rb rc
      omega
    · rw [abs_le]; omega
    · intro _; omega
  · refine ⟨_, _, _, diff_years X hy ha hb ra rb, ?_, diff_years X hy hb hc rb rc, diff_years X hy ha hc ra rc, ?_, ?_, ?_, ?_, ?_⟩
    · have := diff_years X hy hb ha rb ra
      rwa [show ya - yb = -(yb - ya) by ring] at this
    · rintro rfl
      obtain ⟨h1, h2, -⟩ := ra.unique rb
      omega
    · intro h
      have := month_le X ha hb h ra rb
      omega
    · intro h h'
      have := month_le X hb hc h' rb rc
      omega
    · rw [abs_le]; omega
    · intro _; omega

/-- **C152.** The difference in years and months is that of what `YEAR` and `MONTH` read. -/
theorem C152_reads (X : Ext) (u v : Str) (hu : isMonths X u) (hv : isYears X v) (a b : ℤ) (ha : InRange a) (hb : InRange b) (y m d y' m' d' : ℤ)
    (ra : ReadsAs X (.dt a) y m d) (rb : ReadsAs X (.dt b) y' m' d') : Apart X u a b (12 * (y' - y) + (m' - m)) ∧ Apart X v a b (y' - y) :=
  ⟨diff_months X hu ha hb ra rb, diff_years X hv ha hb ra rb⟩

theorem inRange_reads (X : Ext) {t y m d : ℤ} (h : ReadsAs X (.dt t) y m d) : InRange t := by
  by_contra hc
  have h1 := h.1
  have e : fn X c!"YEAR" [.dt t] = match Cal.fromTimestamp t with
    | some (day, _) => .ok (.num (F64.ofInt (Cal.civil day).1))
    | none => fail "Invalid timestamp" := by rw [fn_eq X _ _ (by decide)]; rfl
  rw [e, fromTimestamp_none t hc] at h1
  simp [fail] at h1

theorem same_time (X : Ext) {w w' y m d : ℤ} (h : ReadsAs X (.dt w) y m d) (h' : ReadsAs X (.dt w') y m d) (hs : w % 86400 = w' % 86400) : w = w' := by
  obtain ⟨y0, m0, d0, -, -, -, e0, r0⟩ := civil_of_inRange X (inRange_reads X h)
  obtain ⟨y1, m1, d1, -, -, -, e1, r1⟩ := civil_of_inRange X (inRange_reads X h')
  obtain ⟨rfl, e2, e3⟩ := h.unique r0
  obtain ⟨rfl, e4, e5⟩ := h'.unique r1
  have : m0 = m1 := by omega
  have : d0 = d1 := by omega
  subst_vars
  omega

theorem isDate_28 {y m d : ℤ} (h1 : 1 ≤ m) (h2 : m ≤ 12) (h3 : 1 ≤ d) (h4 : d ≤ 28) : IsDate y m d := by
  rw [isDate_iff]
  refine ⟨h1, h2, h3, ?_⟩
  have : 28 ≤ Cal.daysInMonth y m.toNat := by
    have : m.toNat = 1 ∨ m.toNat = 2 ∨ m.toNat = 3 ∨ m.toNat = 4 ∨ m.toNat = 5 ∨ m.toNat = 6 ∨ m.toNat = 7 ∨ m.toNat = 8 ∨ m.toNat = 9 ∨ m.toNat = 10 ∨ m.toNat = 11 ∨ m.toNat = 12 := by omega
    rcases this with h | h | h | h | h | h | h | h | h | h | h | h <;> rw [h] <;> simp [Cal.daysInMonth]
    split <;> omega
  omega

theorem supported_reads (X : Ext) {t y m d : ℤ} (h : ReadsAs X (.dt t) y m d) : Supported y ∧ IsDate y m d := by
  obtain ⟨y0, m0, d0, -, s0, i0, -, r0⟩ := civil_of_inRange X (inRange_reads X h)
  obtain ⟨rfl, rfl, rfl⟩ := h.unique r0
  exact ⟨s0, i0⟩

/-- Months added to a time that reads as given. -/
theorem months_step (X : Ext) {t y m d n : ℤ} {u : Str} (hu : isMonths X u) (h : ReadsAs X (.dt t) y m d) (hs : Supported ((12 * y + m - 1 + n) / 12)) :
    ∃ w d', fn X c!"DATEADD" [.dt t, int n, .str u] = .ok (.dt w) ∧ ReadsAs X (.dt w) ((12 * y + m - 1 + n) / 12) ((12 * y + m - 1 + n) % 12 + 1) d' ∧
      w % 86400 = t % 86400 ∧ (IsDate ((12 * y + m - 1 + n) / 12) ((12 * y + m - 1 + n) % 12 + 1) d → d' = d) ∧
      (¬ IsDate ((12 * y + m - 1 + n) / 12) ((12 * y + m - 1 + n) % 12 + 1) d → d' = 28) := by
  obtain ⟨sy, iy, iy', -⟩ := supported_reads X h
  obtain ⟨x, hx, hx'⟩ := truncatesTo_int n
  unfold Supported at sy
  have hs' := hs
  unfold Supported at hs'
  obtain ⟨w, d', e, -, r, s, i, j⟩ := C64_months_partial X t (inRange_reads X h) y m d h x n hx' (by omega) (by omega) u hu ((12 * y + m - 1 + n) / 12)
    ((12 * y + m - 1 + n) % 12 + 1) (by omega) (by omega) hs
  exact ⟨w, d', by rw [hx]; exact e, r, s, i, j⟩

/-- **C152.** From a day that every month has, months can be added one after the other or at once, and taken away again. -/
theorem C152_months (X : Ext) (t y m d n j : ℤ) (u : Str) (hu : isMonths X u) (h : ReadsAs X (.dt t) y m d) (hd : d ≤ 28) (h1 : Supported ((12 * y + m - 1 + n) / 12))
    (h2 : Supported ((12 * y + m - 1 + (n + j)) / 12)) :
    later X [(n, u), (j, u)] (.dt t) = fn X c!"DATEADD" [.dt t, int (n + j), .str u] ∧ later X [(n, u), (-n, u)] (.dt t) = .ok (.dt t) := by
  obtain ⟨sy, iy, iy', id1, -⟩ := supported_reads X h
  obtain ⟨w, d', e, r, s, i, -⟩ := months_step X hu h h1
  have hd' := i (isDate_28 (by omega) (by omega) id1 hd)
  subst hd'
  have e1 : ∀ k, (12 * ((12 * y + m - 1 + n) / 12) + ((12 * y + m - 1 + n) % 12 + 1) - 1 + k) = 12 * y + m - 1 + (n + k) := by intro k; omega
  constructor
  · rw [later2 e]
    obtain ⟨w2, d2, f, r2, s2, i2, -⟩ := months_step X (n := j) hu r (by rw [e1]; exact h2)
    obtain ⟨w3, d3, g, r3, s3, i3, -⟩ := months_step X hu h h2
    rw [e1] at r2 i2
    have a := i2 (isDate_28 (by omega) (by omega) id1 hd)
    have b := i3 (isDate_28 (by omega) (by omega) id1 hd)
    subst a b
    rw [f, g, same_time X r2 r3 (by omega)]
  · rw [later2 e]
    obtain ⟨w2, d2, f, r2, s2, i2, -⟩ := months_step X (n := -n) hu r (by rw [e1, show (12 * y + m - 1 + (n + -n)) / 12 = y by omega]; exact sy)
    rw [e1, show (12 * y + m - 1 + (n + -n)) / 12 = y by omega, show (12 * y + m - 1 + (n + -n)) % 12 + 1 = m by omega] at r2 i2
    have a := i2 (isDate_28 (by omega) (by omega) id1 hd)
    subst a
    rw [f, same_time X r2 h (by omega)]

/-- **C152.** A year is twelve months. -/
theorem C152_years (X : Ext) (t y m d n : ℤ) (u v : Str) (hu : isMonths X u) (hv : isYears X v) (h : ReadsAs X (.dt t) y m d) (hs : Supported (y + n)) :
    fn X c!"DATEADD" [.dt t, int n, .str v] = fn X c!"DATEADD" [.dt t, int (12 * n), .str u] := by
  obtain ⟨sy, iy, iy', id1, -⟩ := supported_reads X h
  have e1 : (12 * y + m - 1 + 12 * n) / 12 = y + n := by omega
  have e2 : (12 * y + m - 1 + 12 * n) % 12 + 1 = m := by omega
  obtain ⟨w, d', e, r, s, i, k⟩ := months_step X (n := 12 * n) hu h (by rw [e1]; exact hs)
  obtain ⟨x, hx, hx'⟩ := truncatesTo_int n
  obtain ⟨w2, d2, f, -, r2, s2, i2, k2⟩ := C64_years_partial X t (inRange_reads X h) y m d h x n hx' hs v hv
  rw [e1, e2] at r i k
  have : d' = d2 := by
    by_cases hd : IsDate (y + n) m d
    · rw [i hd, i2 hd]
    · rw [k hd, k2 hd]
  subst this
  rw [hx, f, e, same_time X r2 r (by omega)]

/-- **C152.** `DATEDIFF` finds the months that were added, whatever the day. -/
theorem C152_found (X : Ext) (t y m d n : ℤ) (u : Str) (hu : isMonths X u) (h : ReadsAs X (.dt t) y m d) (hs : Supported ((12 * y + m - 1 + n) / 12)) :
    ∃ w, fn X c!"DATEADD" [.dt t, int n, .str u] = .ok (.dt w) ∧ Apart X u t w n := by
  obtain ⟨w, d', e, r, -⟩ := months_step X hu h hs
  have := diff_months X hu (inRange_reads X h) (inRange_reads X r) h r
  rw [show 12 * ((12 * y + m - 1 + n) / 12 - y) + ((12 * y + m - 1 + n) % 12 + 1 - m) = n by omega] at this
  exact ⟨w, e, this⟩

/-- **C152.** What does not hold: from the 31st of January, two months one after the other lead to the 28th of March, at once to the 31st, and a month back
from where a month led is the 28th of January; and a difference of hours is not always the sum of those to and from a time between. -/
theorem C152_not_laws (X : Ext) :
    later X [(1, c!"month"), (1, c!"month")] (.dt 1706659200) = .ok (.dt 1711584000) ∧
    fn X c!"DATEADD" [.dt 1706659200, int 2, .str c!"month"] = .ok (.dt 1711843200) ∧
    later X [(1, c!"month"), (-1, c!"month")] (.dt 1706659200) = .ok (.dt 1706400000) ∧
    Apart X c!"hours" 0 1800 0 ∧ Apart X c!"hours" 1800 3600 0 ∧ Apart X c!"hours" 0 3600 1 := by
  have h1 : fn X c!"DATEADD" [.dt 1706659200, int 1, .str c!"month"] = .ok (.dt 1709078400) := by simp only [int, dateadd_eq]; kernel_rfl
  refine ⟨?_, ?_, ?_, ?_, ?_, ?_⟩
  · rw [later2 h1]; simp only [int, dateadd_eq]; kernel_rfl
  · simp only [int, dateadd_eq]; kernel_rfl
  · rw [later2 h1]; simp only [int, dateadd_eq]; kernel_rfl
  all_goals unfold Apart; kernel_rfl

/-- The hypotheses are met: the 31st of January and the 15th of March 2024. -/
example (X : Ext) (h : X.lower c!"month" = c!"month") (h' : X.lower c!"Y" = c!"y") (h'' : X.lower c!"weeks" = c!"weeks") : isMonths X c!"month" ∧ isYears X c!"Y" ∧
    isUnit X c!"weeks" ∧ InRange 1706659200 ∧ InRange 1710460800 ∧ ReadsAs X (.dt 1706659200) 2024 1 31 ∧ ReadsAs X (.dt 1710460800) 2024 3 15 ∧ (15 : ℤ) ≤ 28 ∧
    Supported ((12 * 2024 + 3 - 1 + -30) / 12) ∧ Supported ((12 * 2024 + 3 - 1 + (-30 + 500)) / 12) ∧ Supported (2024 + -100) := by
  refine ⟨by simp [isMonths, h], by simp [isYears, h'], .inl ⟨604800, ?_⟩, ?_, ?_, ⟨by kernel_rfl, by kernel_rfl, by kernel_rfl⟩, ⟨by kernel_rfl, by kernel_rfl, by kernel_rfl⟩, by omega,
    by unfold Supported; omega, by unfold Supported; omega, by unfold Supported; omega⟩
  · rw [h'']; exact .inr (.inr (.inr (.inr ⟨by simp, rfl⟩)))
  all_goals unfold InRange; decide +kernel

end DateLaws
