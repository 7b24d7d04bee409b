import Verif.Lemmas.Calendar
import Verif.Props.Casts
/-! C63, C64: the calendar, `DATEADD` and `DATEDIFF`. -/

open Lib

namespace Spec

/-- Gregorian leap years. -/
def Leap (y : ℤ) : Prop := 4 ∣ y ∧ (¬ 100 ∣ y ∨ 400 ∣ y)

/-- The length of a month, numbered from 1. -/
noncomputable def monthLength (y m : ℤ) : ℤ :=
  open Classical in
  if m = 2 then (if Leap y then 29 else 28) else if m = 4 ∨ m = 6 ∨ m = 9 ∨ m = 11 then 30 else 31

/-- Year `y`, month `m`, day `d` is a date of the Gregorian calendar. -/
def IsDate (y m d : ℤ) : Prop := 1 ≤ m ∧ m ≤ 12 ∧ 1 ≤ d ∧ d ≤ monthLength y m

/-- The day after a date. -/
noncomputable def dayAfter (y m d : ℤ) : ℤ × ℤ × ℤ :=
  if d < monthLength y m then (y, m, d + 1) else if m < 12 then (y, m + 1, 1) else (y + 1, 1, 1)

/-- The years the calendar library supports. -/
def Supported (y : ℤ) : Prop := -262143 ≤ y ∧ y ≤ 262142

/-- An integer as a value. -/
def int (i : ℤ) : Value := .num (if i = 0 then .zero false else .fin i)

/-- `YEAR`, `MONTH` and `DAY` of `v` are `y`, `m` and `d`. -/
def ReadsAs (X : Ext) (v : Value) (y m d : ℤ) : Prop :=
  fn X c!"YEAR" [v] = .ok (int y) ∧ fn X c!"MONTH" [v] = .ok (int m) ∧ fn X c!"DAY" [v] = .ok (int d)

end Spec

open Spec

theorem isDate_iff (y m d : ℤ) : IsDate y m d ↔ 1 ≤ m ∧ m ≤ 12 ∧ 1 ≤ d ∧ d ≤ Cal.daysInMonth y m.toNat := by
  have hl : Leap y ↔ Cal.isLeap y = true := by
    rw [Cal.isLeap_iff]; unfold Leap; omega
  unfold IsDate
  constructor
  · rintro ⟨h1, h2, h3, h4⟩
    refine ⟨h1, h2, h3, ?_⟩
    have : m = 1 ∨ m = 2 ∨ m = 3 ∨ m = 4 ∨ m = 5 ∨ m = 6 ∨ m = 7 ∨ m = 8 ∨ m = 9 ∨ m = 10 ∨ m = 11 ∨ m = 12 := by omega
    rcases this with h | h | h | h | h | h | h | h | h | h | h | h <;> subst h <;> simp [monthLength, Cal.daysInMonth, hl] at h4 ⊢ <;> exact h4
  · rintro ⟨h1, h2, h3, h4⟩
    refine ⟨h1, h2, h3, ?_⟩
    have : m = 1 ∨ m = 2 ∨ m = 3 ∨ m = 4 ∨ m = 5 ∨ m = 6 ∨ m = 7 ∨ m = 8 ∨ m = 9 ∨ m = 10 ∨ m = 11 ∨ m = 12 := by omega
    rcases this with h | h | h | h | h | h | h | h | h | h | h | h <;> subst h <;> simp [monthLength, Cal.daysInMonth, hl] at h4 ⊢ <;> exact h4

theorem toIntSat_of {n : F64} {t : ℤ} (lo hi : ℤ) (h0 : lo ≤ 0) (h1 : 0 ≤ hi) (h : TruncatesTo n t) :
    F64.toIntSat lo hi n = max lo (min hi t) := by
  cases n with
  | nan => exact h.elim
  | inf s => exact h.elim
  | zero s => simp only [TruncatesTo] at h; subst h; simp only [F64.toIntSat]; omega
  | fin q =>
    have := isTrunc_unique h
    simp only [F64.toIntSat, this]
    split
    · omega
    · split <;> omega

theorem int_of {i : ℤ} (h : |i| ≤ 2 ^ 53) : Value.num (F64.ofInt i) = int i := by
  rw [F64.ofInt_exact i h]; rfl

theorem date_eq (X : Ext) (a b c : F64) : fn X c!"DATE" [.num a, .num b, .num c] =
    match Cal.fromYmd a.toI32 (DT.toU32 b) (DT.toU32 c) with
    | some day => .ok (.dt (day * 86400))
    | none => fail "Invalid date" := by
  rw [fn_eq X _ _ (by decide)]; rfl

theorem daysInMonth_le (y : ℤ) (m : ℕ) : Cal.daysInMonth y m ≤ 31 := by
  unfold Cal.daysInMonth
  split <;> try omega
  split <;> omega

/-- Whether the library accepts the date, in terms of the truncated arguments. -/
theorem fromYmd_of {a b c : F64} {y m d : ℤ} (ha : TruncatesTo a y) (hb : TruncatesTo b m) (hc : TruncatesTo c d) :
    (Supported y ∧ IsDate y m d → Cal.fromYmd a.toI32 (DT.toU32 b) (DT.toU32 c) = some (Cal.dayNumber y m.toNat d.toNat)) ∧
    (¬ (Supported y ∧ IsDate y m d) → Cal.fromYmd a.toI32 (DT.toU32 b) (DT.toU32 c) = none) := by
  have e1 := toIntSat_of F64.i32Min F64.i32Max (by decide) (by decide) ha
  have e2 := toIntSat_of 0 4294967295 (by decide) (by decide) hb
  have e3 := toIntSat_of 0 4294967295 (by decide) (by decide) hc
  simp only [F64.toI32, DT.toU32, e1, e2, e3]
  simp only [F64.i32Min, F64.i32Max]
  rw [isDate_iff]
  unfold Cal.fromYmd Cal.minYear Cal.maxYear Supported
  constructor
  · rintro ⟨⟨h1, h2⟩, h3, h4, h5, h6⟩
    have := daysInMonth_le y m.toNat
    rw [show max (-2147483648) (min 2147483647 y) = y by omega, show max 0 (min 4294967295 m) = m by omega,
      show max 0 (min 4294967295 d) = d by omega, if_pos (by omega)]
  · intro hn
    rw [if_neg]
    rintro ⟨h1, h2, h3, h4, h5, h6⟩
    apply hn
    rw [show max (-2147483648) (min 2147483647 y) = y by omega] at h1 h2 h6
    rw [show max 0 (min 4294967295 m) = m by omega] at h3 h4 h6
    have := daysInMonth_le y m.toNat
    rw [show max 0 (min 4294967295 d) = d by omega] at h5 h6
    omega

theorem dayNumber_year_mono {y y' : ℤ} (h : y ≤ y') : Cal.dayNumber y 1 1 ≤ Cal.dayNumber y' 1 1 ∧ Cal.dayNumber y 12 31 ≤ Cal.dayNumber y' 12 31 := by
  unfold Cal.dayNumber; simp; omega

theorem dayNumber_within {y : ℤ} {m d : ℕ} (hm1 : 1 ≤ m) (hm2 : m ≤ 12) (hd1 : 1 ≤ d) (hd2 : d ≤ Cal.daysInMonth y m) :
    Cal.dayNumber y 1 1 ≤ Cal.dayNumber y m d ∧ Cal.dayNumber y m d ≤ Cal.dayNumber y 12 31 := by
  have hl := Cal.isLeap_iff y
  have : m = 1 ∨ m = 2 ∨ m = 3 ∨ m = 4 ∨ m = 5 ∨ m = 6 ∨ m = 7 ∨ m = 8 ∨ m = 9 ∨ m = 10 ∨ m = 11 ∨ m = 12 := by omega
  rcases this with h | h | h | h | h | h | h | h | h | h | h | h <;> subst h <;> simp [Cal.daysInMonth] at hd2 <;>
    unfold Cal.dayNumber <;> simp <;> (try split at hd2) <;> omega

theorem year_end (y : ℤ) : Cal.dayNumber y 12 31 + 1 = Cal.dayNumber (y + 1) 1 1 := by
  unfold Cal.dayNumber; simp; omega

theorem dayNumber_range {y : ℤ} {m d : ℕ} (hm1 : 1 ≤ m) (hm2 : m ≤ 12) (hd1 : 1 ≤ d) (hd2 : d ≤ Cal.daysInMonth y m) :
    Supported y ↔ Cal.minDay ≤ Cal.dayNumber y m d ∧ Cal.dayNumber y m d ≤ Cal.maxDay := by
  have hw := dayNumber_within hm1 hm2 hd1 hd2
  unfold Cal.minDay Cal.maxDay Cal.minYear Cal.maxYear Supported
  constructor
  · rintro ⟨h1, h2⟩
    have a1 := (dayNumber_year_mono h1).1
    have a2 := (dayNumber_year_mono h2).2
    omega
  · rintro ⟨h1, h2⟩
    constructor
    · by_contra hc
      have a1 := (dayNumber_year_mono (show y + 1 ≤ -262143 by omega)).1
      have a2 := year_end y
      omega
    · by_contra hc
      have a1 := (dayNumber_year_mono (show 262142 + 1 ≤ y by omega)).1
      have a2 := year_end 262142
      omega

/-- The civil date of a supported day. -/
theorem civil_supported {z : ℤ} (h1 : Cal.minDay ≤ z) (h2 : z ≤ Cal.maxDay) :
    ∃ (y : ℤ) (m d : ℕ), Cal.civil z = (y, m, d) ∧ Supported y ∧ IsDate y m d ∧ Cal.dayNumber y m d = z := by
  obtain ⟨y, m, d, hc, a, b, c, e, f⟩ := Cal.civil_valid z
  refine ⟨y, m, d, hc, (dayNumber_range a b c e).2 (by rw [f]; exact ⟨h1, h2⟩), (isDate_iff _ _ _).2 ⟨by omega, by omega, by omega, ?_⟩, f⟩
  rw [Int.toNat_natCast]; exact_mod_cast e

theorem readsAs_iff (X : Ext) (ts day sec : ℤ) (h : Cal.fromTimestamp ts = some (day, sec)) (y : ℤ) (m d : ℕ)
    (hc : Cal.civil day = (y, m, d)) (hs : Supported y) (hd : IsDate y m d) : ReadsAs X (.dt ts) y m d := by
  obtain ⟨a, b, c, e⟩ := (isDate_iff _ _ _).1 hd
  have h31 := daysInMonth_le y (m : ℤ).toNat
  unfold Supported at hs
  have k1 : |y| ≤ 2 ^ 53 := by rw [abs_le]; omega
  have k2 : |(m : ℤ)| ≤ 2 ^ 53 := by rw [abs_le]; omega
  have k3 : |(d : ℤ)| ≤ 2 ^ 53 := by rw [abs_le]; omega
  refine ⟨?_, ?_, ?_⟩
  · rw [fn_eq X _ _ (by decide), ← int_of k1]
    change DT.year [.dt ts] = _
    simp only [DT.year, DT.field, argAt, h, hc, List.getElem?_cons_zero]
  · rw [fn_eq X _ _ (by decide), ← int_of k2]
    change DT.month [.dt ts] = _
    simp only [DT.month, DT.field, argAt, h, hc, List.getElem?_cons_zero]
  · rw [fn_eq X _ _ (by decide), ← int_of k3]
    change DT.day [.dt ts] = _
    simp only [DT.day, DT.field, argAt, h, hc, List.getElem?_cons_zero]

theorem fromTimestamp_of {day sec : ℤ} (h0 : 0 ≤ sec) (h1 : sec < 86400) (h : Cal.minDay ≤ day ∧ day ≤ Cal.maxDay) :
    Cal.fromTimestamp (day * 86400 + sec) = some (day, sec) := by
  unfold Cal.fromTimestamp
  rw [show (day * 86400 + sec) / 86400 = day by omega, show (day * 86400 + sec) % 86400 = sec by omega, if_pos h]

theorem date_ok (X : Ext) {a b c : F64} {y m d : ℤ} (ha : TruncatesTo a y) (hb : TruncatesTo b m) (hc : TruncatesTo c d)
    (hs : Supported y) (hd : IsDate y m d) :
    fn X c!"DATE" [.num a, .num b, .num c] = .ok (.dt (Cal.dayNumber y m.toNat d.toNat * 86400)) := by
  rw [date_eq, (fromYmd_of ha hb hc).1 ⟨hs, hd⟩]

/-- **C63.** `DATE` of a valid date (fractions being cut off) is a datetime whose `YEAR`, `MONTH` and `DAY` are the ones given. -/
theorem C63_round_trip (X : Ext) {a b c : F64} {y m d : ℤ} (ha : TruncatesTo a y) (hb : TruncatesTo b m) (hc : TruncatesTo c d)
    (hs : Supported y) (hd : IsDate y m d) :
    ∃ v, fn X c!"DATE" [.num a, .num b, .num c] = .ok v ∧ ReadsAs X v y m d := by
  refine ⟨_, date_ok X ha hb hc hs hd, ?_⟩
  obtain ⟨i1, i2, i3, i4⟩ := (isDate_iff _ _ _).1 hd
  have hr := (dayNumber_range (m := m.toNat) (d := d.toNat) (by omega) (by omega) (by omega) (by omega)).1 hs
  have := fromTimestamp_of (sec := 0) (le_refl _) (by omega) hr
  rw [Int.add_zero] at this
  have hm : (m.toNat : ℤ) = m := by omega
  have hd' : (d.toNat : ℤ) = d := by omega
  have := readsAs_iff X _ _ _ this y m.toNat d.toNat (Cal.civil_dayNumber (by omega) (by omega) (by omega) (by omega)) hs (by rw [hm, hd']; exact hd)
  rwa [hm, hd'] at this

/-- **C63.** `DATE` rejects what is not a date, or not in a supported year. -/
theorem C63_rejects (X : Ext) {a b c : F64} {y m d : ℤ} (ha : TruncatesTo a y) (hb : TruncatesTo b m) (hc : TruncatesTo c d)
    (hn : ¬ (Supported y ∧ IsDate y m d)) : fn X c!"DATE" [.num a, .num b, .num c] = fail "Invalid date" := by
  rw [date_eq, (fromYmd_of ha hb hc).2 hn]

/-- **C63.** ... and every date with an infinite component. -/
theorem C63_rejects_infinite (X : Ext) (a b c : F64) (h : ∃ s, a = .inf s ∨ b = .inf s ∨ c = .inf s) :
    fn X c!"DATE" [.num a, .num b, .num c] = fail "Invalid date" := by
  rw [date_eq]
  suffices h : Cal.fromYmd a.toI32 (DT.toU32 b) (DT.toU32 c) = none by rw [h]
  unfold Cal.fromYmd
  rw [if_neg]
  rintro ⟨h1, h2, h3, h4, h5, h6⟩
  have h31 := daysInMonth_le a.toI32 (DT.toU32 b)
  unfold Cal.minYear at h1
  unfold Cal.maxYear at h2
  have e1 : F64.toI32 (.inf true) = -2147483648 := rfl
  have e2 : F64.toI32 (.inf false) = 2147483647 := rfl
  have e3 : DT.toU32 (.inf true) = 0 := rfl
  have e4 : DT.toU32 (.inf false) = 4294967295 := rfl
  obtain ⟨s, h | h | h⟩ := h <;> subst h <;> cases s <;> omega

/-- **C63.** Day 0 is 1 January 1970. -/
theorem C63_epoch (X : Ext) : fn X c!"DATE" [int 1970, int 1, int 1] = .ok (.dt 0) := by kernel_rfl


namespace Spec

/-- The names of the units of fixed length, with their lengths in seconds. -/
def Lasts (u : Str) (k : ℤ) : Prop :=
  (u ∈ [c!"seconds", c!"second", c!"s"] ∧ k = 1) ∨ (u ∈ [c!"minutes", c!"minute", c!"m"] ∧ k = 60) ∨
  (u ∈ [c!"hours", c!"hour", c!"h"] ∧ k = 60 * 60) ∨ (u ∈ [c!"days", c!"day", c!"d"] ∧ k = 24 * 60 * 60) ∨
  (u ∈ [c!"weeks", c!"week", c!"w"] ∧ k = 7 * 24 * 60 * 60)

/-- The datetimes in supported years. -/
def InRange (t : ℤ) : Prop := Cal.minDay * 86400 ≤ t ∧ t < (Cal.maxDay + 1) * 86400

end Spec

theorem fromTimestamp_iff (t : ℤ) : InRange t ↔ Cal.fromTimestamp t = some (t / 86400, t % 86400) := by
  unfold InRange Cal.fromTimestamp
  generalize Cal.minDay = a
  generalize Cal.maxDay = b
  constructor
  · intro h; rw [if_pos (by omega)]
  · intro h
    split at h
    · omega
    · simp at h

theorem fromTimestamp_none (t : ℤ) (h : ¬ InRange t) : Cal.fromTimestamp t = none := by
  rw [fromTimestamp_iff] at h
  unfold Cal.fromTimestamp at *
  split
  · rename_i hc; rw [if_pos hc] at h; simp at h
  · rfl

theorem dateadd_eq (X : Ext) (t : ℤ) (x : F64) (u : Str) :
    fn X c!"DATEADD" [.dt t, .num x, .str u] = DT.dateaddCore t x.toI64 (DT.unitOf (X.lower u)) := by
  rw [fn_eq X _ _ (by decide)]; rfl

theorem datediff_eq (X : Ext) (t1 t2 : ℤ) (u : Str) :
    fn X c!"DATEDIFF" [.dt t1, .dt t2, .str u] = DT.datediffCore t1 t2 (DT.unitOf (X.lower u)) := by
  rw [fn_eq X _ _ (by decide)]; rfl

/-- Adding a unit of fixed length. -/
theorem dateadd_fixed (X : Ext) (t : ℤ) (x : F64) (u : Str) (k : ℤ) (hu : Lasts (X.lower u) k) (ht : InRange t) :
    fn X c!"DATEADD" [.dt t, .num x, .str u] = (Cal.addDuration t x.toI64 k).map Value.dt := by
  rw [dateadd_eq]
  unfold DT.dateaddCore
  rw [(fromTimestamp_iff t).1 ht]
  simp only [Lasts, List.mem_cons, List.not_mem_nil, or_false] at hu
  rcases hu with ⟨h | h | h, hk⟩ | ⟨h | h | h, hk⟩ | ⟨h | h | h, hk⟩ | ⟨h | h | h, hk⟩ | ⟨h | h | h, hk⟩ <;> rw [h] <;> subst hk <;>
    (change (do return Value.dt (← _)) = _; norm_num) <;> (generalize Cal.addDuration _ _ _ = r; cases r <;> rfl)

theorem datediff_fixed (X : Ext) (t1 t2 : ℤ) (u : Str) (k n : ℤ) (hu : Lasts (X.lower u) k) (h1 : InRange t1) (h2 : InRange t2)
    (hn : t2 - t1 = n * k) : fn X c!"DATEDIFF" [.dt t1, .dt t2, .str u] = .ok (.num (F64.ofInt n)) := by
  rw [datediff_eq]
  unfold DT.datediffCore
  rw [(fromTimestamp_iff t1).1 h1, (fromTimestamp_iff t2).1 h2]
  simp only [Lasts, List.mem_cons, List.not_mem_nil, or_false] at hu
  rcases hu with ⟨h | h | h, hk⟩ | ⟨h | h | h, hk⟩ | ⟨h | h | h, hk⟩ | ⟨h | h | h, hk⟩ | ⟨h | h | h, hk⟩ <;> rw [h] <;> subst hk <;>
    rw [hn] <;> (change Except.ok (Value.num (F64.ofInt _)) = _) <;> congr 3
  all_goals try (rw [show n * 1 = n by omega])
  all_goals try exact Int.mul_tdiv_cancel n (by norm_num)
  all_goals
    rw [show n * (7 * 24 * 60 * 60) = n * 7 * 86400 by ring, Int.mul_tdiv_cancel _ (by norm_num), Int.mul_tdiv_cancel _ (by norm_num)]

theorem Spec.Lasts.pos {u : Str} {k : ℤ} (h : Lasts u k) : 1 ≤ k := by
  rcases h with h | h | h | h | h <;> omega

/-- No interval within the supported years is near the limit of a double's integers. -/
theorem inRange_close {t1 t2 : ℤ} (h1 : InRange t1) (h2 : InRange t2) : |t2 - t1| ≤ 2 ^ 45 := by
  have e1 : Cal.minDay = -96465292 := by decide +kernel
  have e2 : Cal.maxDay = 95026236 := by decide +kernel
  unfold InRange at h1 h2
  rw [e1, e2] at h1 h2
  rw [abs_le]; omega

theorem addDuration_ok {t i k w : ℤ} (hk : 1 ≤ k) (h : Cal.addDuration t i k = .ok w) : w = t + i * k ∧ InRange w ∧ F64.i64Min < i ∧ i < F64.i64Max := by
  unfold Cal.addDuration at h
  simp only at h
  split at h
  · simp [panics] at h
  · rename_i hb
    cases hf : Cal.fromTimestamp (t + i * k) with
    | none => rw [hf] at h; simp [panics] at h
    | some p =>
      rw [hf] at h
      cases h
      refine ⟨rfl, ?_, ?_⟩
      · by_contra hc
        rw [fromTimestamp_none _ hc] at hf; simp at hf
      · unfold F64.i64Min F64.i64Max
        unfold Cal.maxDeltaSecs at hb
        push Not at hb
        constructor <;> nlinarith

theorem addDuration_of {t i k : ℤ} (ht : InRange t) (hw : InRange (t + i * k)) : Cal.addDuration t i k = .ok (t + i * k) := by
  have h := inRange_close ht hw
  rw [abs_le] at h
  unfold Cal.addDuration
  simp only
  rw [if_neg (by unfold Cal.maxDeltaSecs; omega), (fromTimestamp_iff _).1 hw]

theorem toI64_of_lt {x : F64} {n : ℤ} (h : TruncatesTo x n) (h1 : F64.i64Min < x.toI64) (h2 : x.toI64 < F64.i64Max) : x.toI64 = n := by
  have := toIntSat_of F64.i64Min F64.i64Max (by decide) (by decide) h
  unfold F64.toI64 at *
  omega

/-- **C64.** Neither half holds: `DATEADD` panics when the result is outside the supported years or an intermediate sum outside 32 bits, and
intervals in months are silently reduced to 32 bits, so that `DATEDIFF` does not find them. -/
theorem C64_wrong (X : Ext) :
    (∃ w, fn X c!"DATEADD" [.dt 0, int 100000000, .str c!"days"] = .error (.panic w)) ∧
    (∃ w, fn X c!"DATEADD" [.dt 0, int 2147483647, .str c!"months"] = .error (.panic w)) ∧
    fn X c!"DATEADD" [.dt 0, int 4294967297, .str c!"months"] = .ok (.dt (31 * 86400)) ∧
    fn X c!"DATEDIFF" [.dt 0, .dt (31 * 86400), .str c!"months"] = .ok (int 1) := by
  simp only [int, dateadd_eq, datediff_eq]
  refine ⟨⟨"`DateTime + TimeDelta` overflowed", by kernel_rfl⟩, ⟨"attempt to add with overflow", by kernel_rfl⟩, by kernel_rfl, by kernel_rfl⟩

/-- **C64 (partial).** Seconds, minutes, hours, days and weeks: when `DATEADD` returns, it has added exactly that much time, and `DATEDIFF` finds
the interval again. -/
theorem C64_fixed_units_partial (X : Ext) (t : ℤ) (x : F64) (n : ℤ) (hx : TruncatesTo x n) (u : Str) (k : ℤ) (hu : Lasts (X.lower u) k) (w : Value)
    (h : fn X c!"DATEADD" [.dt t, .num x, .str u] = .ok w) :
    w = .dt (t + n * k) ∧ fn X c!"DATEDIFF" [.dt t, w, .str u] = .ok (int n) := by
  have ht : InRange t := by
    by_contra hc
    rw [dateadd_eq] at h
    unfold DT.dateaddCore at h
    rw [fromTimestamp_none t hc] at h
    simp [fail] at h
  rw [dateadd_fixed X t x u k hu ht] at h
  cases ha : Cal.addDuration t x.toI64 k with
  | error e => rw [ha] at h; cases h
  | ok v =>
    rw [ha] at h
    cases h
    obtain ⟨e, hr, b1, b2⟩ := addDuration_ok hu.pos ha
    rw [toI64_of_lt hx b1 b2] at e
    subst e
    refine ⟨rfl, ?_⟩
    rw [datediff_fixed X t _ u k n hu ht hr (by ring)]
    have hc := inRange_close ht hr
    have hk := hu.pos
    rw [int_of]
    rw [show t + n * k - t = n * k by ring, abs_mul, abs_of_pos (show 0 < k by omega)] at hc
    have := abs_nonneg n
    nlinarith

/-- **C64 (partial).** ... and it does return whenever the result is in a supported year. -/
theorem C64_fixed_units_no_panic_partial (X : Ext) (t : ℤ) (x : F64) (n : ℤ) (hx : TruncatesTo x n) (u : Str) (k : ℤ) (hu : Lasts (X.lower u) k)
    (ht : InRange t) (hw : InRange (t + n * k)) : fn X c!"DATEADD" [.dt t, .num x, .str u] = .ok (.dt (t + n * k)) := by
  have hc := inRange_close ht hw
  have hk := hu.pos
  have hn : |n| ≤ 2 ^ 45 := by
    rw [show t + n * k - t = n * k by ring, abs_mul, abs_of_pos (show 0 < k by omega)] at hc
    have := abs_nonneg n
    nlinarith
  rw [abs_le] at hn
  rw [dateadd_fixed X t x u k hu ht, toI64_of hx (by unfold F64.i64Min; omega) (by unfold F64.i64Max; omega), addDuration_of ht hw]
  rfl

theorem truncatesTo_int (n : ℤ) : ∃ x, int n = .num x ∧ TruncatesTo x n := by
  refine ⟨_, rfl, ?_⟩
  split
  · assumption
  · exact ⟨le_refl _, by simp, mul_self_nonneg _⟩

/-- **C64.** The other way round: adding the difference in seconds leads from one datetime to the other. -/
theorem C64_add_difference (X : Ext) (t1 t2 : ℤ) (u : Str) (hu : X.lower u ∈ [c!"seconds", c!"second", c!"s"]) (h1 : InRange t1) (h2 : InRange t2) :
    ∃ n, fn X c!"DATEDIFF" [.dt t1, .dt t2, .str u] = .ok n ∧ fn X c!"DATEADD" [.dt t1, n, .str u] = .ok (.dt t2) := by
  have hl : Lasts (X.lower u) 1 := .inl ⟨hu, rfl⟩
  have hc := inRange_close h1 h2
  obtain ⟨x, hx, hx'⟩ := truncatesTo_int (t2 - t1)
  refine ⟨int (t2 - t1), ?_, ?_⟩
  · rw [datediff_fixed X t1 t2 u 1 (t2 - t1) hl h1 h2 (by ring), int_of (by omega)]
  · rw [hx, C64_fixed_units_no_panic_partial X t1 x (t2 - t1) hx' u 1 hl h1 (by rw [show t1 + (t2 - t1) * 1 = t2 by ring]; exact h2)]
    rw [show t1 + (t2 - t1) * 1 = t2 by ring]

/-! Months and years. -/

theorem normUp_spec (fuel : ℕ) : ∀ (y m : ℤ), m ≤ fuel → ∃ y' m', DT.normUp fuel (y, m) = (y', m') ∧ 12 * y' + m' = 12 * y + m ∧ m' ≤ 12 ∧ min m 1 ≤ m' := by
  induction fuel with
  | zero => intro y m h; exact ⟨y, m, rfl, rfl, by omega, by omega⟩
  | succ n ih =>
    intro y m h
    unfold DT.normUp
    split
    · obtain ⟨y', m', e, a, b, c⟩ := ih (y + 1) (m - 12) (by omega)
      exact ⟨y', m', e, by omega, b, by omega⟩
    · exact ⟨y, m, rfl, rfl, by omega, by omega⟩

theorem normDown_spec (fuel : ℕ) : ∀ (y m : ℤ), 1 - m ≤ fuel → m ≤ 12 → ∃ y' m', DT.normDown fuel (y, m) = (y', m') ∧ 12 * y' + m' = 12 * y + m ∧ 1 ≤ m' ∧ m' ≤ 12 := by
  induction fuel with
  | zero => intro y m h h2; exact ⟨y, m, rfl, rfl, by omega, h2⟩
  | succ n ih =>
    intro y m h h2
    unfold DT.normDown
    split
    · obtain ⟨y', m', e, a, b, c⟩ := ih (y - 1) (m + 12) (by omega) (by omega)
      exact ⟨y', m', e, by omega, b, c⟩
    · exact ⟨y, m, rfl, rfl, by omega, h2⟩

theorem isDate_28 {y m : ℤ} (h1 : 1 ≤ m) (h2 : m ≤ 12) : IsDate y m 28 := by
  refine ⟨h1, h2, by norm_num, ?_⟩
  unfold monthLength
  split
  · split <;> norm_num
  · split <;> norm_num

/-- `dateOr28` finds the day of the month, or day 28. -/
theorem dateOr28_spec {y : ℤ} {m d : ℕ} {sec : ℤ} (hs : Supported y) (hm1 : 1 ≤ m) (hm2 : m ≤ 12) :
    ∃ d' : ℕ, (IsDate y m d → d' = d) ∧ (¬ IsDate y m d → d' = 28) ∧ IsDate y m d' ∧
      DT.dateOr28 y m d sec = .ok (Cal.dayNumber y m d' * 86400 + sec) := by
  have hmz : ((m : ℤ)).toNat = m := by simp
  unfold Supported at hs
  by_cases h : IsDate y m d
  · refine ⟨d, fun _ => rfl, fun hn => absurd h hn, h, ?_⟩
    obtain ⟨a, b, c, e⟩ := (isDate_iff _ _ _).1 h
    rw [hmz] at e
    unfold DT.dateOr28 Cal.fromYmd Cal.minYear Cal.maxYear
    rw [if_pos (by omega)]
  · have h' : IsDate y m (28 : ℕ) := isDate_28 (by omega) (by omega)
    refine ⟨28, fun hc => absurd hc h, fun _ => rfl, h', ?_⟩
    obtain ⟨a, b, c, e⟩ := (isDate_iff _ _ _).1 h'
    rw [hmz] at e
    have hn : Cal.fromYmd y m d = none := by
      unfold Cal.fromYmd
      rw [if_neg]
      rintro ⟨_, _, _, _, k1, k2⟩
      exact h ((isDate_iff _ _ _).2 ⟨by omega, by omega, by omega, by rw [hmz]; omega⟩)
    unfold DT.dateOr28
    rw [hn]
    simp only
    unfold Cal.fromYmd Cal.minYear Cal.maxYear
    rw [if_pos (by omega)]

theorem wrapI32_of {n : ℤ} (h1 : -2 ^ 31 ≤ n) (h2 : n < 2 ^ 31) : DT.wrapI32 n = n := by
  unfold DT.wrapI32; omega

theorem unit_months {s : Str} (h : s ∈ [c!"months", c!"month"]) : DT.unitOf s = some .months := by
  simp only [List.mem_cons, List.not_mem_nil, or_false] at h
  rcases h with h | h <;> subst h <;> rfl

theorem unit_years {s : Str} (h : s ∈ [c!"years", c!"year", c!"y"]) : DT.unitOf s = some .years := by
  simp only [List.mem_cons, List.not_mem_nil, or_false] at h
  rcases h with h | h | h <;> subst h <;> rfl

theorem inRange_of_day {day sec : ℤ} (h : Cal.minDay ≤ day ∧ day ≤ Cal.maxDay) (h0 : 0 ≤ sec) (h1 : sec < 86400) : InRange (day * 86400 + sec) := by
  unfold InRange
  generalize Cal.minDay = a at *
  generalize Cal.maxDay = b at *
  omega

theorem day_of_inRange {t : ℤ} (h : InRange t) : Cal.minDay ≤ t / 86400 ∧ t / 86400 ≤ Cal.maxDay := by
  unfold InRange at h
  generalize Cal.minDay = a at *
  generalize Cal.maxDay = b at *
  omega

/-- What a datetime reads as, in the model. -/
theorem civil_of_inRange (X : Ext) {t : ℤ} (h : InRange t) : ∃ (y : ℤ) (m d : ℕ), Cal.civil (t / 86400) = (y, m, d) ∧ Supported y ∧ IsDate y m d ∧
    Cal.dayNumber y m d = t / 86400 ∧ ReadsAs X (.dt t) y m d := by
  obtain ⟨h1, h2⟩ := day_of_inRange h
  obtain ⟨y, m, d, a, b, c, e⟩ := civil_supported h1 h2
  exact ⟨y, m, d, a, b, c, e, readsAs_iff X t _ _ ((fromTimestamp_iff t).1 h) y m d a b c⟩

theorem int_inj {i j : ℤ} (h : (Except.ok (int i) : Res Value) = .ok (int j)) : i = j := by
  unfold int at h
  injection h with h
  injection h with h
  split at h <;> split at h
  · omega
  · simp at h
  · simp at h
  · injection h with h; exact_mod_cast h

/-- A datetime reads as one date only. -/
theorem Spec.ReadsAs.unique {X : Ext} {v : Value} {y m d y' m' d' : ℤ} (h : ReadsAs X v y m d) (h' : ReadsAs X v y' m' d') : y = y' ∧ m = m' ∧ d = d' :=
  ⟨int_inj (h.1.symm.trans h'.1), int_inj (h.2.1.symm.trans h'.2.1), int_inj (h.2.2.symm.trans h'.2.2)⟩

/-- A date at a time of day, in the model. -/
theorem made (X : Ext) {y : ℤ} {m d : ℕ} {sec : ℤ} (hs : Supported y) (hd : IsDate y m d) (h0 : 0 ≤ sec) (h1 : sec < 86400) :
    InRange (Cal.dayNumber y m d * 86400 + sec) ∧ ReadsAs X (.dt (Cal.dayNumber y m d * 86400 + sec)) y m d ∧
    Cal.civil ((Cal.dayNumber y m d * 86400 + sec) / 86400) = (y, m, d) := by
  obtain ⟨a, b, c, e⟩ := (isDate_iff _ _ _).1 hd
  rw [Int.toNat_natCast] at e
  have hr := (dayNumber_range (y := y) (m := m) (d := d) (by omega) (by omega) (by omega) (by omega)).1 hs
  have hcd := Cal.civil_dayNumber (y := y) (m := m) (d := d) (by omega) (by omega) (by omega) (by omega)
  refine ⟨inRange_of_day hr h0 h1, readsAs_iff X _ _ _ (fromTimestamp_of h0 h1 hr) y m d hcd hs hd, ?_⟩
  rw [show (Cal.dayNumber y m d * 86400 + sec) / 86400 = Cal.dayNumber y m d by omega, hcd]

/-- **C64 (partial).** Months: with an interval of 32 bits and a result in a supported year, `DATEADD` gives the date in the month that many months
away, on the same day of the month or, where that does not exist, on day 28, at the same time of day; and `DATEDIFF` finds the interval again. -/
theorem C64_months_partial (X : Ext) (t : ℤ) (ht : InRange t) (y m d : ℤ) (hr : ReadsAs X (.dt t) y m d) (x : F64) (n : ℤ) (hx : TruncatesTo x n)
    (hn1 : -2 ^ 31 ≤ n) (hn2 : n + 12 < 2 ^ 31) (u : Str) (hu : X.lower u ∈ [c!"months", c!"month"])
    (y' m' : ℤ) (hm' : 1 ≤ m' ∧ m' ≤ 12) (hy' : 12 * y' + m' = 12 * y + m + n) (hs : Supported y') :
    ∃ w d', fn X c!"DATEADD" [.dt t, .num x, .str u] = .ok (.dt w) ∧ fn X c!"DATEDIFF" [.dt t, .dt w, .str u] = .ok (int n) ∧
      ReadsAs X (.dt w) y' m' d' ∧ w % 86400 = t % 86400 ∧ (IsDate y' m' d → d' = d) ∧ (¬ IsDate y' m' d → d' = 28) := by
  obtain ⟨y0, m0, d0, hc, hs0, hd0, hz, hr0⟩ := civil_of_inRange X ht
  obtain ⟨rfl, rfl, rfl⟩ := hr.unique hr0
  obtain ⟨a, b, c, _⟩ := (isDate_iff _ _ _).1 hd0
  have hi : x.toI64 = n := toI64_of hx (by unfold F64.i64Min; omega) (by unfold F64.i64Max; omega)
  obtain ⟨y1, m1, e1, e2, e3, e4⟩ := normUp_spec ((m0 : ℤ) + n).toNat y ((m0 : ℤ) + n) (by omega)
  obtain ⟨y2, m2, e5, e6, e7, e8⟩ := normDown_spec (1 - m1).toNat y1 m1 (by omega) e3
  have hym : y2 = y' ∧ m2 = m' := by omega
  obtain ⟨rfl, rfl⟩ := hym
  have hmm : ((m2.toNat : ℕ) : ℤ) = m2 := by omega
  obtain ⟨d', k1, k2, k3, k4⟩ := dateOr28_spec (y := y2) (m := m2.toNat) (d := d0) (sec := t % 86400) hs (by omega) (by omega)
  rw [hmm] at k1 k2
  have hsec0 : 0 ≤ t % 86400 := by omega
  have hsec1 : t % 86400 < 86400 := by omega
  obtain ⟨p1, p2, p3⟩ := made X (y := y2) (m := m2.toNat) (d := d') hs k3 hsec0 hsec1
  have hadd : DT.addMonths (t / 86400) (t % 86400) n = .ok (Cal.dayNumber y2 m2.toNat d' * 86400 + t % 86400) := by
    unfold DT.addMonths
    rw [hc, wrapI32_of (by omega) (by omega)]
    simp only [DT.addI32]
    rw [if_pos (by unfold F64.i32Min F64.i32Max; omega)]
    change (match DT.normDown (1 - (DT.normUp ((m0 : ℤ) + n).toNat (y, (m0 : ℤ) + n)).2).toNat (DT.normUp ((m0 : ℤ) + n).toNat (y, (m0 : ℤ) + n)) with
      | (y, month) => DT.dateOr28 y month.toNat d0 (t % 86400)) = _
    rw [e1]
    change (match DT.normDown (1 - m1).toNat (y1, m1) with | (y, month) => DT.dateOr28 y month.toNat d0 (t % 86400)) = _
    rw [e5]
    exact k4
  refine ⟨Cal.dayNumber y2 m2.toNat d' * 86400 + t % 86400, d', ?_, ?_, ?_, ?_, ?_, ?_⟩
  · rw [dateadd_eq, unit_months hu, hi]
    unfold DT.dateaddCore
    rw [(fromTimestamp_iff t).1 ht]
    simp only [hadd]; rfl
  · rw [datediff_eq, unit_months hu]
    unfold DT.datediffCore
    rw [(fromTimestamp_iff t).1 ht, (fromTimestamp_iff _).1 p1]
    simp only [hc, p3]
    rw [show (y2 - y) * 12 + ((m2.toNat : ℤ) - (m0 : ℤ)) = n by omega, int_of (by rw [abs_le]; omega)]
  · rw [hmm] at p2; exact p2
  · omega
  · intro h; exact_mod_cast k1 h
  · intro h; exact_mod_cast k2 h

/-- **C64 (partial).** Years, likewise. -/
theorem C64_years_partial (X : Ext) (t : ℤ) (ht : InRange t) (y m d : ℤ) (hr : ReadsAs X (.dt t) y m d) (x : F64) (n : ℤ) (hx : TruncatesTo x n)
    (hs : Supported (y + n)) (u : Str) (hu : X.lower u ∈ [c!"years", c!"year", c!"y"]) :
    ∃ w d', fn X c!"DATEADD" [.dt t, .num x, .str u] = .ok (.dt w) ∧ fn X c!"DATEDIFF" [.dt t, .dt w, .str u] = .ok (int n) ∧
      ReadsAs X (.dt w) (y + n) m d' ∧ w % 86400 = t % 86400 ∧ (IsDate (y + n) m d → d' = d) ∧ (¬ IsDate (y + n) m d → d' = 28) := by
  obtain ⟨y0, m0, d0, hc, hs0, hd0, hz, hr0⟩ := civil_of_inRange X ht
  obtain ⟨rfl, rfl, rfl⟩ := hr.unique hr0
  obtain ⟨a, b, c, _⟩ := (isDate_iff _ _ _).1 hd0
  have hs' := hs
  unfold Supported at hs0 hs'
  have hi : x.toI64 = n := toI64_of hx (by unfold F64.i64Min; omega) (by unfold F64.i64Max; omega)
  obtain ⟨d', k1, k2, k3, k4⟩ := dateOr28_spec (y := y + n) (m := m0) (d := d0) (sec := t % 86400) hs (by omega) (by omega)
  have hsec0 : 0 ≤ t % 86400 := by omega
  have hsec1 : t % 86400 < 86400 := by omega
  obtain ⟨p1, p2, p3⟩ := made X (y := y + n) (m := m0) (d := d') hs k3 hsec0 hsec1
  have hadd : DT.addYears (t / 86400) (t % 86400) n = .ok (Cal.dayNumber (y + n) m0 d' * 86400 + t % 86400) := by
    unfold DT.addYears
    rw [hc, wrapI32_of (by omega) (by omega)]
    simp only [DT.addI32]
    rw [if_pos (by unfold F64.i32Min F64.i32Max; omega)]
    exact k4
  refine ⟨Cal.dayNumber (y + n) m0 d' * 86400 + t % 86400, d', ?_, ?_, p2, by omega, fun h => by exact_mod_cast k1 h, fun h => by exact_mod_cast k2 h⟩
  · rw [dateadd_eq, unit_years hu, hi]
    unfold DT.dateaddCore
    rw [(fromTimestamp_iff t).1 ht]
    simp only [hadd]; rfl
  · rw [datediff_eq, unit_years hu]
    unfold DT.datediffCore
    rw [(fromTimestamp_iff t).1 ht, (fromTimestamp_iff _).1 p1]
    simp only [hc, p3]
    rw [show y + n - y = n by omega, int_of (by rw [abs_le]; omega)]

/-! More about the calendar itself. -/

/-- **C63.** Every datetime in a supported year reads as a valid date, and lies within the day starting at `DATE` of it. -/
theorem C63_every_instant (X : Ext) (t : ℤ) (ht : InRange t) : ∃ y m d, Supported y ∧ IsDate y m d ∧ ReadsAs X (.dt t) y m d ∧
    ∃ t0, fn X c!"DATE" [int y, int m, int d] = .ok (.dt t0) ∧ t0 ≤ t ∧ t < t0 + 24 * 60 * 60 := by
  obtain ⟨y, m, d, hc, hs, hd, hz, hr⟩ := civil_of_inRange X ht
  obtain ⟨a, ea, ha⟩ := truncatesTo_int y
  obtain ⟨b, eb, hb⟩ := truncatesTo_int m
  obtain ⟨c, ec, hc⟩ := truncatesTo_int d
  refine ⟨y, m, d, hs, hd, hr, _, by rw [ea, eb, ec]; exact date_ok X ha hb hc hs hd, ?_⟩
  rw [Int.toNat_natCast, Int.toNat_natCast, hz]
  omega

theorem dayAfter_number {y m d : ℤ} (h : IsDate y m d) : IsDate (dayAfter y m d).1 (dayAfter y m d).2.1 (dayAfter y m d).2.2 ∧
    Cal.dayNumber (dayAfter y m d).1 (dayAfter y m d).2.1.toNat (dayAfter y m d).2.2.toNat = Cal.dayNumber y m.toNat d.toNat + 1 := by
  have hl : Leap y ↔ y % 4 = 0 ∧ (y % 100 ≠ 0 ∨ y % 400 = 0) := by unfold Leap; omega
  obtain ⟨h1, h2, h3, h4⟩ := h
  obtain ⟨mn, rfl⟩ := Int.eq_ofNat_of_zero_le (show 0 ≤ m by omega)
  obtain ⟨dn, rfl⟩ := Int.eq_ofNat_of_zero_le (show 0 ≤ d by omega)
  unfold dayAfter
  have he : ((dn : ℤ) + 1).toNat = dn + 1 := by omega
  by_cases hlt : (dn : ℤ) < monthLength y mn
  · rw [if_pos hlt]
    refine ⟨⟨h1, h2, by simp, by simp; omega⟩, ?_⟩
    simp only [Int.toNat_natCast, he]
    unfold Cal.dayNumber
    push_cast; omega
  · rw [if_neg hlt]
    have hd : (dn : ℤ) = monthLength y mn := by omega
    split
    · refine ⟨⟨by simp, by simp; omega, by simp, ?_⟩, ?_⟩
      · simp only [monthLength]; split <;> split <;> norm_num
      · have : mn = 1 ∨ mn = 2 ∨ mn = 3 ∨ mn = 4 ∨ mn = 5 ∨ mn = 6 ∨ mn = 7 ∨ mn = 8 ∨ mn = 9 ∨ mn = 10 ∨ mn = 11 := by omega
        rcases this with h | h | h | h | h | h | h | h | h | h | h <;> subst h <;> simp [monthLength] at hd ⊢ <;>
          unfold Cal.dayNumber <;> simp [hd]
        all_goals try omega
        have key : ∀ (r q : ℤ) (e : ℕ), y = 400 * q + r → 0 ≤ r → r < 400 → (e : ℤ) = (if r % 4 = 0 ∧ (r % 100 ≠ 0 ∨ r = 0) then 29 else 28) →
            y / 400 = q ∧ y % 400 = r ∧ (if r = 0 then (y - 1) / 400 = q - 1 ∧ (y - 1) % 400 = 399 else (y - 1) / 400 = q ∧ (y - 1) % 400 = r - 1) := by
          intro r q e h1 h2 h3 _
          refine ⟨by omega, by omega, ?_⟩
          split <;> omega
        have hd2 : (dn : ℤ) = (if (y % 400) % 4 = 0 ∧ ((y % 400) % 100 ≠ 0 ∨ y % 400 = 0) then 29 else 28) := by
          rw [hd]
          by_cases hleap : Leap y
          · rw [if_pos hleap, if_pos]; rw [hl] at hleap; omega
          · rw [if_neg hleap, if_neg]; rw [hl] at hleap; omega
        obtain ⟨k1, k2, k3⟩ := key (y % 400) (y / 400) dn (by omega) (by omega) (by omega) hd2
        have hr : 0 ≤ y % 400 ∧ y % 400 < 400 := by omega
        generalize y % 400 = r at *
        generalize y / 400 = q at *
        by_cases hr0 : r = 0
        · subst hr0
          rw [if_pos rfl] at k3
          rw [k3.1, k3.2]
          simp at hd2
          omega
        · rw [if_neg hr0] at k3
          rw [k3.1, k3.2]
          split at hd2 <;> omega
    · have : mn = 12 := by omega
      subst this
      refine ⟨⟨by simp, by simp, by simp, by simp [monthLength]⟩, ?_⟩
      simp [monthLength] at hd
      have : dn = 31 := by omega
      subst this
      simpa using (year_end y).symm

/-- **C63.** Consecutive dates are one day apart, so that `DATE` counts the days of the Gregorian calendar. -/
theorem C63_day_after (X : Ext) (y m d : ℤ) (hs : Supported y) (hd : IsDate y m d) (hs' : Supported (dayAfter y m d).1)
    (u : Str) (hu : X.lower u ∈ [c!"days", c!"day", c!"d"]) :
    ∃ v w, fn X c!"DATE" [int y, int m, int d] = .ok v ∧
      fn X c!"DATE" [int (dayAfter y m d).1, int (dayAfter y m d).2.1, int (dayAfter y m d).2.2] = .ok w ∧
      fn X c!"DATEDIFF" [v, w, .str u] = .ok (int 1) := by
  obtain ⟨hd', hn⟩ := dayAfter_number hd
  obtain ⟨a, ea, ha⟩ := truncatesTo_int y
  obtain ⟨b, eb, hb⟩ := truncatesTo_int m
  obtain ⟨c, ec, hc⟩ := truncatesTo_int d
  obtain ⟨a', ea', ha'⟩ := truncatesTo_int (dayAfter y m d).1
  obtain ⟨b', eb', hb'⟩ := truncatesTo_int (dayAfter y m d).2.1
  obtain ⟨c', ec', hc'⟩ := truncatesTo_int (dayAfter y m d).2.2
  refine ⟨_, _, by rw [ea, eb, ec]; exact date_ok X ha hb hc hs hd, by rw [ea', eb', ec']; exact date_ok X ha' hb' hc' hs' hd', ?_⟩
  have range : ∀ y m d : ℤ, Supported y → IsDate y m d → InRange (Cal.dayNumber y m.toNat d.toNat * 86400) := by
    intro y m d hs hd
    obtain ⟨i1, i2, i3, i4⟩ := (isDate_iff _ _ _).1 hd
    have hr := (dayNumber_range (m := m.toNat) (d := d.toNat) (by omega) (by omega) (by omega) (by omega)).1 hs
    have := inRange_of_day (sec := 0) hr (le_refl _) (by omega)
    rwa [Int.add_zero] at this
  rw [datediff_fixed X _ _ u (24 * 60 * 60) 1 (.inr (.inr (.inr (.inl ⟨hu, rfl⟩)))) (range y m d hs hd) (range _ _ _ hs' hd') (by rw [hn]; ring)]
  rw [int_of (by norm_num)]

/-! Instances. -/

/-- 29 February 2024. -/
example : Supported 2024 ∧ IsDate 2024 2 29 ∧ ¬ IsDate 2023 2 29 ∧ dayAfter 2024 2 29 = (2024, 3, 1) := by
  have l1 : Leap 2024 := by unfold Leap; omega
  have l2 : ¬ Leap 2023 := by unfold Leap; omega
  refine ⟨by unfold Supported; omega, ?_, ?_, ?_⟩ <;> simp [IsDate, monthLength, dayAfter, l1, l2]

example (X : Ext) : fn X c!"DATE" [int 2024, int 1, int 31] = .ok (.dt 1706659200) ∧
    fn X c!"DATEADD" [.dt 1706659200, int 1, .str c!"month"] = .ok (.dt 1709078400) ∧ ReadsAs X (.dt 1709078400) 2024 2 28 := by
  refine ⟨by kernel_rfl, ?_, by kernel_rfl, by kernel_rfl, by kernel_rfl⟩
  simp only [int, dateadd_eq]; kernel_rfl

example : InRange 0 ∧ InRange (0 + 1000 * (24 * 60 * 60)) ∧ Lasts c!"days" (24 * 60 * 60) := by
  refine ⟨?_, ?_, .inr (.inr (.inr (.inl ⟨by simp, rfl⟩)))⟩ <;> unfold InRange <;> decide +kernel
