import Verif.Lemmas.JsonTokens
import Mathlib.Data.List.Induction
/-! Numbers of JSON texts are read exactly as the grammar says. -/

namespace JsonText

open JsonText.Spec

/-- What may follow a number. -/
def Stop (r : Str) : Prop := ∀ c, r.head? = some c → isDigit c = false ∧ c ≠ '.' ∧ c ≠ 'e' ∧ c ≠ 'E'

theorem isDigit_iff (c : Char) : isDigit c = true ↔ '0' ≤ c ∧ c ≤ '9' := by simp [isDigit]

theorem isDigit_char (c : Char) : isDigit c = c.isDigit := by
  simp [isDigit, Char.isDigit, Char.le_def]

/-- `r` does not go on with a digit. -/
def NoDigit (r : Str) : Prop := ∀ c, r.head? = some c → isDigit c = false

theorem Stop.noDigit {r : Str} (h : Stop r) : NoDigit r := fun c hc => (h c hc).1

theorem span_digits {ds : Str} (h : ∀ c ∈ ds, '0' ≤ c ∧ c ≤ '9') {r : Str} (hr : NoDigit r) :
    (ds ++ r).takeWhile isDigit = ds ∧ (ds ++ r).dropWhile isDigit = r := by
  have h0 : r.takeWhile isDigit = [] ∧ r.dropWhile isDigit = r := by
    cases r with
    | nil => exact ⟨rfl, rfl⟩
    | cons c r => have := hr c rfl; simp [this]
  have h1 : ∀ c ∈ ds, isDigit c = true := fun c hc => (isDigit_iff c).2 (h c hc)
  rw [List.takeWhile_append_of_pos h1, List.dropWhile_append_of_pos h1, h0.1, h0.2, List.append_nil]
  exact ⟨rfl, rfl⟩

theorem digits_split (s : Str) : s = s.takeWhile isDigit ++ s.dropWhile isDigit ∧ ∀ c ∈ s.takeWhile isDigit, '0' ≤ c ∧ c ≤ '9' :=
  ⟨List.takeWhile_append_dropWhile.symm, fun c hc => (isDigit_iff c).1 (mem_takeWhile s hc)⟩

theorem noDigit_cons {c : Char} {r : Str} (h : isDigit c = false) : NoDigit (c :: r) := by
  intro d hd
  simp at hd
  rw [← hd]; exact h

/-! ### Fraction and exponent -/

theorem fraction_of {f : Str} (h : Fraction f) {r : Str} (hr : NoDigit r) (hd : f = [] → r.head? ≠ some '.') : fraction (f ++ r) = some (f, r) := by
  cases h with
  | none =>
    have := hd rfl
    rw [List.nil_append]
    unfold fraction
    split
    · exact absurd rfl this
    · rfl
  | @some ds h =>
    obtain ⟨h1, h2⟩ := span_digits h.2 hr
    rw [List.cons_append, fraction, h1, h2]
    simp [h.1]

theorem exponent_of {e : Str} (h : Exponent e) {r : Str} (hr : Stop r) : exponent (e ++ r) = some (e, r) := by
  cases h with
  | none =>
    cases r with
    | nil => rfl
    | cons c r =>
      have := hr c rfl
      rw [List.nil_append, exponent, if_neg (by simp [this.2.2.1, this.2.2.2])]
  | @some c sign ds hc hs h =>
    obtain ⟨h1, h2⟩ := span_digits h.2 hr.noDigit
    have hsign : expSign (sign ++ (ds ++ r)) = (sign, ds ++ r) := by
      rcases hs with rfl | rfl | rfl
      · obtain ⟨hne, hall⟩ := h
        cases ds with
        | nil => exact absurd rfl hne
        | cons d ds =>
          have := hall d (by simp)
          rw [List.nil_append, List.cons_append]
          unfold expSign
          split
          · rename_i heq; simp only [List.cons.injEq] at heq; rw [heq.1] at this; exact absurd this (by decide)
          · rename_i heq; simp only [List.cons.injEq] at heq; rw [heq.1] at this; exact absurd this (by decide)
          · rfl
      · rfl
      · rfl
    rw [List.cons_append, List.append_assoc, exponent, if_pos (by rcases hc with rfl | rfl <;> simp)]
    simp only [hsign, h1, h2]
    simp [h.1]

theorem of_fraction {s f r : Str} (h : fraction s = some (f, r)) : s = f ++ r ∧ Fraction f := by
  unfold fraction at h
  split at h
  · rename_i r'
    obtain ⟨h1, h2⟩ := digits_split r'
    by_cases he : (r'.takeWhile isDigit).isEmpty = true
    · simp [he] at h
    · simp only [he, Bool.false_eq_true, if_false, Option.some.injEq, Prod.mk.injEq] at h
      obtain ⟨rfl, rfl⟩ := h
      refine ⟨by rw [List.cons_append, ← h1], .some ⟨by simpa using he, h2⟩⟩
  · simp only [Option.some.injEq, Prod.mk.injEq] at h
    obtain ⟨rfl, rfl⟩ := h
    exact ⟨rfl, .none⟩

theorem expSign_split (s : Str) : s = (expSign s).1 ++ (expSign s).2 ∧ ((expSign s).1 = [] ∨ (expSign s).1 = c!"+" ∨ (expSign s).1 = c!"-") := by
  unfold expSign
  split
  · exact ⟨rfl, .inr (.inl rfl)⟩
  · exact ⟨rfl, .inr (.inr rfl)⟩
  · exact ⟨rfl, .inl rfl⟩

theorem of_exponent {s e r : Str} (h : exponent s = some (e, r)) : s = e ++ r ∧ Exponent e := by
  cases s with
  | nil =>
    simp only [exponent, Option.some.injEq, Prod.mk.injEq] at h
    obtain ⟨rfl, rfl⟩ := h
    exact ⟨rfl, .none⟩
  | cons c s =>
    rw [exponent] at h
    by_cases hc : (decide (c = 'e') || decide (c = 'E')) = true
    · rw [if_pos hc] at h
      obtain ⟨hs1, hs2⟩ := expSign_split s
      generalize (expSign s) = p at h hs1 hs2
      obtain ⟨sign, q⟩ := p
      obtain ⟨h1, h2⟩ := digits_split q
      by_cases he : (q.takeWhile isDigit).isEmpty = true
      · simp [he] at h
      · simp only [he, Bool.false_eq_true, if_false, Option.some.injEq, Prod.mk.injEq] at h
        obtain ⟨rfl, rfl⟩ := h
        refine ⟨?_, .some (by simpa using hc) hs2 ⟨by simpa using he, h2⟩⟩
        rw [List.cons_append, List.append_assoc, ← h1]
        exact congrArg _ hs1
    · rw [if_neg hc] at h
      simp only [Option.some.injEq, Prod.mk.injEq] at h
      obtain ⟨rfl, rfl⟩ := h
      exact ⟨rfl, .none⟩

/-! ### Integers -/

theorem digitsVal_eq (ds : Str) : digitsVal ds = Nat.ofDigitChars 10 ds 0 := by
  rw [Nat.ofDigitChars_eq_foldl, digitsVal]
  congr 1
  funext n c
  rw [Nat.mul_comm]; rfl

theorem digitsVal_toDigits (n : Nat) : digitsVal (Nat.toDigits 10 n) = n := by rw [digitsVal_eq, Nat.ofDigitChars_ten_toDigits]

theorem digit_char {c : Char} (h : '0' ≤ c ∧ c ≤ '9') : c.toNat - 48 < 10 ∧ Nat.digitChar (c.toNat - 48) = c := by
  have a : 48 ≤ c.toNat := h.1
  have b : c.toNat ≤ 57 := h.2
  have hc : Char.ofNat c.toNat = c := Char.ofNat_toNat c
  refine ⟨by omega, ?_⟩
  refine Eq.trans ?_ hc
  generalize c.toNat = m at *
  have : m = 48 ∨ m = 49 ∨ m = 50 ∨ m = 51 ∨ m = 52 ∨ m = 53 ∨ m = 54 ∨ m = 55 ∨ m = 56 ∨ m = 57 := by omega
  rcases this with rfl | rfl | rfl | rfl | rfl | rfl | rfl | rfl | rfl | rfl <;> rfl

/-- Digits without leading zeros are the decimal text of their value. -/
theorem toDigits_digitsVal {ds : Str} (h : IntPart ds) : Nat.toDigits 10 (digitsVal ds) = ds := by
  induction ds using List.reverseRecOn with
  | nil => exact absurd rfl h.1.1
  | append_singleton ds c ih =>
    have hc := h.1.2 c (by simp)
    obtain ⟨b, e⟩ := digit_char hc
    have hv : digitsVal (ds ++ [c]) = 10 * digitsVal ds + (c.toNat - 48) := by simp [digitsVal, Nat.mul_comm]
    cases ds with
    | nil =>
      have hv : digitsVal ([] ++ [c]) = c.toNat - 48 := by simp [digitsVal]
      rw [hv, Nat.toDigits_of_lt_base b, e]; rfl
    | cons d ds =>
      have hd : d ≠ '0' := by
        intro hd
        have := h.2 (by simp [hd])
        simp at this
      have hi : IntPart (d :: ds) := ⟨⟨by simp, fun x hx => h.1.2 x (List.mem_append_left _ hx)⟩, fun h0 => absurd (by simpa using h0) hd⟩
      have hd' := ih hi
      have hpos : 0 < digitsVal (d :: ds) := by
        rcases Nat.eq_zero_or_pos (digitsVal (d :: ds)) with h0 | h0
        · rw [h0, Nat.toDigits_zero] at hd'
          simp only [List.cons.injEq] at hd'
          exact absurd hd'.1.symm hd
        · exact h0
      rw [hv, ← Nat.toDigits_append_toDigits (by decide) hpos b, hd', Nat.toDigits_of_lt_base b, e]

theorem toDigits_digits (n : Nat) : Digits (Nat.toDigits 10 n) := by
  refine ⟨Nat.toDigits_ne_nil, fun c hc => ?_⟩
  have := Nat.isDigit_of_mem_toDigits (by decide) (by decide) hc
  rw [← isDigit_char] at this
  exact (isDigit_iff c).1 this

theorem intPart_toDigits (n : Nat) : IntPart (Nat.toDigits 10 n) := by
  refine ⟨toDigits_digits n, ?_⟩
  induction n using Nat.strongRecOn with
  | _ n ih =>
    intro h
    by_cases hn : n < 10
    · rw [Nat.toDigits_of_lt_base hn] at h ⊢
      simp only [List.head?_cons, Option.some.injEq] at h
      rw [h]
    · have e := Nat.toDigits_append_toDigits (b := 10) (by decide) (show 0 < n / 10 by omega) (show n % 10 < 10 by omega)
      rw [Nat.div_add_mod] at e
      rw [← e] at h
      have hne : Nat.toDigits 10 (n / 10) ≠ [] := Nat.toDigits_ne_nil
      rw [List.head?_append] at h
      cases hh : (Nat.toDigits 10 (n / 10)).head? with
      | none => exact absurd (List.head?_eq_none_iff.1 hh) hne
      | some x =>
      rw [hh, Option.some_or] at h
      rw [h] at hh
      have := ih (n / 10) (by omega) hh
      have hz : n / 10 = 0 := by
        rw [← digitsVal_toDigits (n / 10), this]; rfl
      omega

theorem exactInt_iff (neg : Bool) (ds : Str) (h : IntPart ds) (i : Int) :
    exactInt neg (digitsVal ds) = some i ↔ Exact i ∧ (if neg then c!"-" else []) ++ ds = Str.showInt i := by
  have hds := toDigits_digitsVal h
  have hfirst : ∀ m : Nat, '-' :: ds ≠ Nat.toDigits 10 m := fun m hm => dash_not_digit m (by rw [← hm]; simp)
  have hfirst' : ∀ m : Nat, ds ≠ '-' :: Nat.toDigits 10 m := fun m hm => by
    have := h.1.2 '-' (by rw [hm]; simp)
    exact absurd this (by decide)
  cases neg with
  | true =>
    simp only [exactInt, if_true]
    constructor
    · intro hi
      by_cases hb : (decide (0 < digitsVal ds) && decide (digitsVal ds ≤ 2 ^ 63)) = true
      · rw [if_pos hb] at hi
        simp only [Bool.and_eq_true, decide_eq_true_eq] at hb
        simp only [Option.some.injEq] at hi
        obtain ⟨m, hm⟩ : ∃ m, digitsVal ds = m + 1 := ⟨digitsVal ds - 1, by omega⟩
        subst hi
        rw [hm]
        refine ⟨⟨by omega, by omega⟩, ?_⟩
        rw [show -(((m + 1 : Nat)) : Int) = Int.negSucc m from rfl, showInt_of_neg, ← hm, hds]; rfl
      · rw [if_neg hb] at hi; exact absurd hi (by simp)
    · rintro ⟨he, hi⟩
      cases i with
      | ofNat m => rw [showInt_of_nat] at hi; exact absurd hi (hfirst m)
      | negSucc m =>
        rw [showInt_of_neg] at hi
        simp only [List.cons_append, List.nil_append, List.cons.injEq, true_and] at hi
        have hv : digitsVal ds = m + 1 := by rw [hi, digitsVal_toDigits]
        have := he.1
        rw [hv, if_pos (by simp only [Bool.and_eq_true, decide_eq_true_eq]; omega)]
        rfl
  | false =>
    simp only [exactInt, Bool.false_eq_true, if_false, List.nil_append]
    constructor
    · intro hi
      by_cases hb : digitsVal ds < 2 ^ 64
      · rw [if_pos hb] at hi
        simp only [Option.some.injEq] at hi
        subst hi
        refine ⟨⟨by omega, by omega⟩, ?_⟩
        rw [show ((digitsVal ds : Nat) : Int) = Int.ofNat (digitsVal ds) from rfl, showInt_of_nat, hds]
      · rw [if_neg hb] at hi; exact absurd hi (by simp)
    · rintro ⟨he, hi⟩
      cases i with
      | ofNat m =>
        rw [showInt_of_nat] at hi
        have hv : digitsVal ds = m := by rw [hi, digitsVal_toDigits]
        have := he.2
        rw [hv, if_pos (by simp only [Int.ofNat_eq_natCast] at this; omega)]
        rfl
      | negSucc m => rw [showInt_of_neg] at hi; exact absurd hi (hfirst' _)

/-! ### Numbers -/

theorem number_parts (N : Floats) (neg : Bool) {ds f e r : Str} (hd : IntPart ds) (hf : Fraction f) (he : Exponent e) (hr : Stop r) :
    number N ((if neg then c!"-" else []) ++ (ds ++ (f ++ (e ++ r)))) =
      match (if f.isEmpty && e.isEmpty then exactInt neg (digitsVal ds) else none) with
      | some i => some (.num (.int i), r)
      | none => (N.read ((if neg then c!"-" else []) ++ (ds ++ (f ++ e)))).map fun x => (.num (.float x), r) := by
  have hmin : minus ((if neg then c!"-" else []) ++ (ds ++ (f ++ (e ++ r)))) = (neg, ds ++ (f ++ (e ++ r))) := by
    cases neg with
    | true => rfl
    | false =>
      obtain ⟨⟨hne, hall⟩, -⟩ := hd
      cases ds with
      | nil => exact absurd rfl hne
      | cons d ds =>
        have := hall d (by simp)
        simp only [Bool.false_eq_true, if_false, List.nil_append, List.cons_append]
        unfold minus
        split
        · rename_i heq; simp only [List.cons.injEq] at heq; rw [heq.1] at this; exact absurd this (by decide)
        · rfl
  have nd1 : NoDigit (e ++ r) := by
    cases he with
    | none => exact hr.noDigit
    | some hc hs h => rcases hc with rfl | rfl <;> exact noDigit_cons (by decide)
  have nd2 : NoDigit (f ++ (e ++ r)) := by
    cases hf with
    | none => exact nd1
    | some h => exact noDigit_cons (by decide)
  have hdot : f = [] → (e ++ r).head? ≠ some '.' := by
    intro _ h
    cases he with
    | none => exact (hr '.' h).2.1 rfl
    | some hc hs h' => rcases hc with rfl | rfl <;> simp at h
  obtain ⟨t1, t2⟩ := span_digits hd.1.2 nd2
  unfold number
  rw [hmin]
  simp only [t1, t2]
  rw [if_neg]
  · rw [fraction_of hf nd1 hdot]
    simp only [Option.bind_eq_bind, Option.bind_some, exponent_of he hr, Option.pure_def]
    cases (if f.isEmpty && e.isEmpty then exactInt neg (digitsVal ds) else none) with
    | some i => rfl
    | none => simp only; rw [Option.map_eq_bind]; rfl
  · have hne := hd.1.1
    simp only [Bool.or_eq_true, List.isEmpty_iff, Bool.and_eq_true, decide_eq_true_eq, not_or, not_and]
    refine ⟨hne, fun h0 => ?_⟩
    rw [hd.2 h0]
    simp

theorem sign_cases {sign : Str} (h : sign = [] ∨ sign = c!"-") : ∃ neg : Bool, sign = if neg then c!"-" else [] := by
  rcases h with rfl | rfl
  · exact ⟨false, rfl⟩
  · exact ⟨true, rfl⟩

/-- No integer text has a fraction or an exponent. -/
theorem showInt_plain {neg : Bool} {ds f e : Str} (hf : Fraction f) (he : Exponent e) {i : Int}
    (h : (if neg then c!"-" else []) ++ (ds ++ (f ++ e)) = Str.showInt i) : f = [] ∧ e = [] := by
  have hc := showInt_chars i
  rw [← h] at hc
  constructor
  · cases hf with
    | none => rfl
    | some hd =>
      rcases hc '.' (by simp) with h | h
      · exact absurd h (by decide)
      · exact absurd h (by decide)
  · cases he with
    | none => rfl
    | @some c sign es hcc hs hd =>
      rcases hc c (by simp) with h | h
      · rcases hcc with rfl | rfl <;> exact absurd h (by decide)
      · rcases hcc with rfl | rfl <;> exact absurd h (by decide)

theorem showInt_parts (i : Int) : ∃ (neg : Bool) (ds : Str), IntPart ds ∧ Str.showInt i = (if neg then c!"-" else []) ++ ds := by
  cases i with
  | ofNat n => exact ⟨false, _, intPart_toDigits n, by rw [showInt_of_nat]; rfl⟩
  | negSucc n => exact ⟨true, _, intPart_toDigits (n + 1), by rw [showInt_of_neg]; rfl⟩

theorem number_of {N : Floats} {n : JNum} {t : Str} (h : Number N n t) {r : Str} (hr : Stop r) : number N (t ++ r) = some (.num n, r) := by
  cases h with
  | int i hi =>
    obtain ⟨neg, ds, hd, he⟩ := showInt_parts i
    have := number_parts N neg hd .none .none hr
    simp only [List.nil_append, List.isEmpty_nil, Bool.and_self, if_true] at this
    rw [he, List.append_assoc, this, (exactInt_iff neg ds hd i).2 ⟨hi, he.symm⟩]
  | float x t ht hno hread =>
    obtain ⟨sign, ds, f, e, hs, hd, hf, he, rfl⟩ := ht
    obtain ⟨neg, rfl⟩ := sign_cases hs
    have := number_parts N neg hd hf he hr
    rw [show (if neg = true then c!"-" else []) ++ (ds ++ (f ++ e)) ++ r = (if neg = true then c!"-" else []) ++ (ds ++ (f ++ (e ++ r))) by simp, this]
    have hnone : (if f.isEmpty && e.isEmpty then exactInt neg (digitsVal ds) else none) = none := by
      by_cases hb : (f.isEmpty && e.isEmpty) = true
      · rw [if_pos hb]
        cases hx : exactInt neg (digitsVal ds) with
        | none => rfl
        | some i =>
          obtain ⟨h1, h2⟩ := (exactInt_iff neg ds hd i).1 hx
          simp only [Bool.and_eq_true, List.isEmpty_iff] at hb
          exact absurd ⟨i, h1, by rw [hb.1, hb.2]; simpa using h2⟩ hno
      · rw [if_neg hb]
    rw [hnone]
    simp only [hread, Option.map_some]

theorem of_number {N : Floats} {j : Json} {s r : Str} (h : number N s = some (j, r)) : ∃ n t, j = .num n ∧ s = t ++ r ∧ Number N n t := by
  unfold number at h
  have hm : s = (if (minus s).1 then c!"-" else []) ++ (minus s).2 := by
    unfold minus
    split <;> simp
  generalize minus s = p at h hm
  obtain ⟨neg, s1⟩ := p
  simp only at h hm
  obtain ⟨hs, hall⟩ := digits_split s1
  generalize s1.takeWhile isDigit = ds at h hs hall
  generalize s1.dropWhile isDigit = s2 at h hs
  by_cases hb : (ds.isEmpty || (decide (ds.head? = some '0') && decide (ds.length ≠ 1))) = true
  · rw [if_pos hb] at h; exact absurd h (by simp)
  rw [if_neg hb] at h
  simp only [Bool.or_eq_true, List.isEmpty_iff, Bool.and_eq_true, decide_eq_true_eq, not_or, not_and] at hb
  have hd : IntPart ds := by
    refine ⟨⟨hb.1, hall⟩, fun h0 => ?_⟩
    have h1 := hb.2 h0
    match ds, h0, h1 with
    | [c], h0, _ => simp at h0; rw [h0]
    | c :: d :: ds, _, h1 => exact absurd (by simp) h1
  simp only [Option.bind_eq_bind, Option.bind_eq_some_iff, Option.pure_def] at h
  obtain ⟨⟨f, r1⟩, hf, ⟨e, r2⟩, he, h⟩ := h
  obtain ⟨rfl, hff⟩ := of_fraction hf
  obtain ⟨rfl, hee⟩ := of_exponent he
  simp only at h
  subst hs
  split at h
  · rename_i i hi
    simp only [Option.some.injEq, Prod.mk.injEq] at h
    obtain ⟨rfl, rfl⟩ := h
    by_cases hb2 : (f.isEmpty && e.isEmpty) = true
    · rw [if_pos hb2] at hi
      simp only [Bool.and_eq_true, List.isEmpty_iff] at hb2
      obtain ⟨h1, h2⟩ := (exactInt_iff neg ds hd i).1 hi
      refine ⟨.int i, Str.showInt i, rfl, ?_, .int i h1⟩
      rw [hm, ← h2, hb2.1, hb2.2]
      simp
    · rw [if_neg hb2] at hi; exact absurd hi (by simp)
  · rename_i hi
    simp only [Option.bind_eq_some_iff, Option.some.injEq, Prod.mk.injEq] at h
    obtain ⟨x, hx, rfl, rfl⟩ := h
    refine ⟨.float x, _, rfl, ?_, .float x _ ⟨if neg then c!"-" else [], ds, f, e, ?_, hd, hff, hee, rfl⟩ ?_ hx⟩
    · rw [hm]; simp
    · cases neg
      · exact .inl rfl
      · exact .inr rfl
    · rintro ⟨i, h1, h2⟩
      obtain ⟨rfl, rfl⟩ := showInt_plain hff hee h2
      simp only [List.append_nil] at h2
      rw [if_pos (by simp), (exactInt_iff neg ds hd i).2 ⟨h1, h2⟩] at hi
      exact absurd hi (by simp)

theorem number_start {N : Floats} {n : JNum} {t : Str} (h : Number N n t) : ∃ c u, t = c :: u ∧ (c = '-' ∨ isDigit c = true) := by
  have key : ∀ (sign ds x : Str), (sign = [] ∨ sign = c!"-") → Digits ds → ∃ c u, sign ++ (ds ++ x) = c :: u ∧ (c = '-' ∨ isDigit c = true) := by
    intro sign ds x hs hd
    rcases hs with rfl | rfl
    · obtain ⟨hne, hall⟩ := hd
      cases ds with
      | nil => exact absurd rfl hne
      | cons d ds => exact ⟨d, _, rfl, .inr ((isDigit_iff d).2 (hall d (by simp)))⟩
    · exact ⟨'-', _, rfl, .inl rfl⟩
  cases h with
  | int i hi =>
    obtain ⟨neg, ds, hd, he⟩ := showInt_parts i
    rw [he]
    have := key (if neg then c!"-" else []) ds [] (by cases neg; exact .inl rfl; exact .inr rfl) hd.1
    rwa [List.append_nil] at this
  | float x t ht hno hread =>
    obtain ⟨sign, ds, f, e, hs, hd, hf, he, rfl⟩ := ht
    exact key sign ds _ hs hd.1

end JsonText
