import Verif.Props.Numbers
import Verif.Props.Texts
/-! C77, C78: ends and size of an array; predicates. -/

open Lib

namespace Spec

/-- The value of `:r.name?`. -/
def ask (X : Ext) (recv : Value) (name : Str) : Res Value :=
  evalVars X (.method (.var c!"r") name [] true) (Env.empty.insert c!"r" recv)

/-- Null, a text of white space only, an empty array. -/
def BlankValue : Value → Prop
  | .null => True
  | .str s => ∀ c ∈ s, White c
  | .arr items => items = []
  | _ => False

end Spec

open Spec

theorem ask_eq (X : Ext) (recv : Value) (name : Str) : ask X recv name = Method.predicate X name recv := by
  simp only [ask, evalVars, Eval.eval, Legacy.argsOf]; rfl

/-! ### C77 -/

/-- `FIRST(a)` and `a.first()` are `a[0]`, `LAST(a)` and `a.last()` are `a[-1]`, whenever `a` has an element. On an empty array the functions
fail and the methods give null. -/
theorem C77_first_last (X : Ext) (items : List Value) :
    (∀ v, items.head? = some v → fn X c!"FIRST" [.arr items] = .ok v ∧ meth0 X (.arr items) c!"first" = .ok v ∧
      index X (.arr items) (.num (.zero false)) = .ok v) ∧
    (∀ v, items.getLast? = some v → fn X c!"LAST" [.arr items] = .ok v ∧ meth0 X (.arr items) c!"last" = .ok v ∧
      index X (.arr items) (.num (.fin (-1))) = .ok v) ∧
    (items = [] → fn X c!"FIRST" [.arr items] = fail "FIRST on empty array" ∧ fn X c!"LAST" [.arr items] = fail "LAST on empty array" ∧
      meth0 X (.arr items) c!"first" = .ok .null ∧ meth0 X (.arr items) c!"last" = .ok .null) := by
  refine ⟨?_, ?_, ?_⟩
  · intro v h
    have e1 : execFast X c!"FIRST" [.arr items] = match items.head? with | some v => .ok v | none => fail "FIRST on empty array" := rfl
    have e2 : meth0 X (.arr items) c!"first" = .ok (items.head?.getD .null) := by kernel_rfl
    refine ⟨by rw [fn_eq X _ _ (by decide), e1, h], by rw [e2, h]; rfl, ?_⟩
    cases items with
    | nil => simp at h
    | cons a l =>
      simp only [List.head?_cons, Option.some.injEq] at h; subst h
      rw [index_eq, show (F64.zero false).toI64 = 0 from rfl]; simp [indexArray, clampIndex, bind, Except.bind]
  · intro v h
    have e1 : execFast X c!"LAST" [.arr items] = match items.getLast? with | some v => .ok v | none => fail "LAST on empty array" := rfl
    have e2 : meth0 X (.arr items) c!"last" = .ok (items.getLast?.getD .null) := by kernel_rfl
    refine ⟨by rw [fn_eq X _ _ (by decide), e1, h], by rw [e2, h]; rfl, ?_⟩
    rw [index_eq, show (F64.fin (-1)).toI64 = -1 from by decide +kernel]
    have hl : 0 < items.length := by cases items with | nil => simp at h | cons => simp
    rw [List.getLast?_eq_getElem?] at h
    obtain ⟨hlt, h⟩ := List.getElem?_eq_some_iff.1 h
    have h1 : (1 : ℕ) ≤ items.length := hl
    simp [indexArray, clampIndex, bind, Except.bind, h1, F64.i64Min, hlt, h]
  · rintro rfl
    exact ⟨by kernel_rfl, by kernel_rfl, by kernel_rfl, by kernel_rfl⟩

/-- `COUNT(a)`, `LENGTH(a)`, `a.count()`, `a.length()` and `a.len()` are the number of elements. -/
theorem C77_count (X : Ext) (items : List Value) (h : items.length ≤ 2 ^ 53) :
    ∃ n, HasValue n items.length ∧ fn X c!"COUNT" [.arr items] = .ok (.num n) ∧ fn X c!"LENGTH" [.arr items] = .ok (.num n) ∧
      meth0 X (.arr items) c!"count" = .ok (.num n) ∧ meth0 X (.arr items) c!"length" = .ok (.num n) ∧ meth0 X (.arr items) c!"len" = .ok (.num n) := by
  refine ⟨F64.ofNat items.length, ?_, by rw [fn_eq X _ _ (by decide)]; rfl, by rw [fn_eq X _ _ (by decide)]; rfl, by kernel_rfl, by kernel_rfl, by kernel_rfl⟩
  rw [F64.ofNat, F64.ofInt_exact _ (by rw [abs_of_nonneg (by omega)]; exact_mod_cast h), F64.ofIntExact]
  split
  · rename_i h0; have : items.length = 0 := by exact_mod_cast h0
    simp [HasValue, this]
  · simp [HasValue]

/-- `a.compact()` drops the nulls and keeps the other elements in order. -/
theorem C77_compact (X : Ext) (items : List Value) :
    ∃ kept, meth0 X (.arr items) c!"compact" = .ok (.arr kept) ∧ kept.Sublist items ∧ Value.null ∉ kept ∧
      ∀ l : List Value, l.Sublist items → .null ∉ l → l.Sublist kept := by
  refine ⟨Method.compact items, by kernel_rfl, List.filter_sublist, ?_, ?_⟩
  · simp [Method.compact]
  · intro l hl hn
    have := hl.filter fun v => match v with | .null => false | _ => true
    rwa [List.filter_eq_self.2] at this
    intro v hv
    cases v <;> first | rfl | exact absurd hv hn

example : ([.null, .num (.fin 1)] : List Value).head? = some .null ∧ ([.null, .num (.fin 1)] : List Value).length ≤ 2 ^ 53 := by simp

/-! ### C78 -/

/-- Of a number other than NaN exactly one of `positive?`, `negative?` and `zero?` holds, according to its value; of NaN and of anything that
is no number, none. -/
theorem C78_sign (X : Ext) (v : Value) :
    ∃ p n z, ask X v c!"positive" = .ok (.bool p) ∧ ask X v c!"negative" = .ok (.bool n) ∧ ask X v c!"zero" = .ok (.bool z) ∧
      (∀ x q, v = .num x → HasValue x q → (p = true ↔ 0 < q) ∧ (n = true ↔ q < 0) ∧ (z = true ↔ q = 0)) ∧
      (∀ s, v = .num (.inf s) → p = !s ∧ n = s ∧ z = false) ∧
      (v = .num .nan ∨ (∀ x, v ≠ .num x) → p = false ∧ n = false ∧ z = false) := by
  simp only [ask_eq]
  have e1 : Method.predicate X c!"positive" v = .ok (.bool (match v.asNumber with | some n => F64.fgt n (.zero false) | none => false)) := by kernel_rfl
  have e2 : Method.predicate X c!"negative" v = .ok (.bool (match v.asNumber with | some n => F64.flt n (.zero false) | none => false)) := by kernel_rfl
  have e3 : Method.predicate X c!"zero" v = .ok (.bool (match v.asNumber with | some n => F64.feq n (.zero false) | none => false)) := by kernel_rfl
  refine ⟨_, _, _, e1, e2, e3, ?_, ?_, ?_⟩
  · rintro x q rfl h
    cases x with
    | nan => exact h.elim
    | inf s => exact h.elim
    | zero s => have h : q = 0 := h; subst h; simp [Value.asNumber, F64.fgt, F64.flt, F64.feq, F64.toRat]
    | fin p =>
      have h : p = q := h
      subst h
      simp only [Value.asNumber, F64.fgt, F64.flt, F64.feq, F64.toRat]
      exact ⟨decide_eq_true_iff, decide_eq_true_iff, decide_eq_true_iff⟩
  · rintro s rfl; cases s <;> exact ⟨rfl, rfl, rfl⟩
  · rintro (rfl | h)
    · exact ⟨rfl, rfl, rfl⟩
    · cases v <;> first | exact ⟨rfl, rfl, rfl⟩ | exact absurd rfl (h _)

/-- `even?` and `odd?` exclude each other and one of them holds of every number; of an integer in the 64-bit range they tell its parity
(of another number, that of its integer part). -/
theorem C78_parity_partial (X : Ext) (v : Value) :
    ∃ e o, ask X v c!"even" = .ok (.bool e) ∧ ask X v c!"odd" = .ok (.bool o) ∧
      ((∃ x, v = .num x) → o = !e) ∧ ((∀ x, v ≠ .num x) → e = false ∧ o = false) ∧
      ∀ x t, v = .num x → TruncatesTo x t → -2 ^ 63 ≤ t → t < 2 ^ 63 → (e = true ↔ 2 ∣ t) ∧ (o = true ↔ ¬ 2 ∣ t) := by
  simp only [ask_eq]
  have e1 : Method.predicate X c!"even" v = .ok (.bool (match v.asNumber with | some n => Method.isEven n | none => false)) := by kernel_rfl
  have e2 : Method.predicate X c!"odd" v = .ok (.bool (match v.asNumber with | some n => !Method.isEven n | none => false)) := by kernel_rfl
  refine ⟨_, _, e1, e2, ?_, ?_, ?_⟩
  · rintro ⟨x, rfl⟩; rfl
  · intro h; cases v <;> first | exact ⟨rfl, rfl⟩ | exact absurd rfl (h _)
  · rintro x t rfl ht h1 h2
    have : Method.isEven x = true ↔ 2 ∣ t := by
      rw [Method.isEven, toI64_of ht h1 (by simp only [F64.i64Max]; omega)]
      simp [Int.dvd_iff_emod_eq_zero]
    refine ⟨this, ?_⟩
    show (!Method.isEven x) = true ↔ _
    rw [Bool.not_eq_true', ← Bool.not_eq_true, this]

/-- Beyond the 64-bit range the answer is wrong: `1e20.odd?` holds, although `1e20` is even. -/
theorem C78_parity_wrong (X : Ext) :
    HasValue (.fin (10 ^ 20)) ((10 ^ 20 : ℤ) : ℚ) ∧ 2 ∣ (10 ^ 20 : ℤ) ∧ ask X (.num (.fin (10 ^ 20))) c!"even" = .ok (.bool false) ∧
      ask X (.num (.fin (10 ^ 20))) c!"odd" = .ok (.bool true) := by
  refine ⟨by norm_num [HasValue], ⟨5 * 10 ^ 19, by norm_num⟩, ?_, ?_⟩
  · rw [ask_eq]; kernel_rfl
  · rw [ask_eq]; kernel_rfl

theorem isBlank_iff (v : Value) : v.isBlank = true ↔ BlankValue v := by
  cases v with
  | str s =>
    show (Str.trim Str.isWs s).isEmpty = true ↔ _
    rw [trim_empty]
    exact ⟨fun h c hc => (isWs_iff c).1 (h c hc), fun h c hc => (isWs_iff c).2 (h c hc)⟩
  | arr items => simp [Value.isBlank, BlankValue]
  | _ => simp [Value.isBlank, BlankValue]

/-- `blank?` and `ISBLANK` tell the blank values, `present?` the others. -/
theorem C78_blank (X : Ext) (v : Value) :
    ∃ b, (b = true ↔ BlankValue v) ∧ ask X v c!"blank" = .ok (.bool b) ∧ ask X v c!"present" = .ok (.bool !b) ∧ fn X c!"ISBLANK" [v] = .ok (.bool b) := by
  simp only [ask_eq]
  exact ⟨v.isBlank, isBlank_iff v, by kernel_rfl, by kernel_rfl, by rw [fn_eq X _ _ (by decide)]; rfl⟩

/-- `numeric?`, `array?`, `nil?`, `ISNUMBER` and `ISTEXT` tell the type; a currency is a number to `ISNUMBER` and not to `numeric?`. -/
theorem C78_types (X : Ext) (v : Value) :
    (∃ b, (b = true ↔ ∃ x, v = .num x) ∧ ask X v c!"numeric" = .ok (.bool b)) ∧
    (∃ b, (b = true ↔ ∃ items, v = .arr items) ∧ ask X v c!"array" = .ok (.bool b)) ∧
    (∃ b, (b = true ↔ v = .null) ∧ ask X v c!"nil" = .ok (.bool b)) ∧
    (∃ b, (b = true ↔ ∃ x, v = .num x ∨ v = .cur x) ∧ fn X c!"ISNUMBER" [v] = .ok (.bool b)) ∧
    ∃ b, (b = true ↔ ∃ s, v = .str s) ∧ fn X c!"ISTEXT" [v] = .ok (.bool b) := by
  simp only [ask_eq]
  have e1 : Method.predicate X c!"numeric" v = .ok (.bool (match v with | .num _ => true | _ => false)) := by cases v <;> kernel_rfl
  have e2 : Method.predicate X c!"array" v = .ok (.bool (match v with | .arr _ => true | _ => false)) := by cases v <;> kernel_rfl
  have e3 : Method.predicate X c!"nil" v = .ok (.bool (match v with | .null => true | _ => false)) := by cases v <;> kernel_rfl
  have e4 : fn X c!"ISNUMBER" [v] = StrFn.isNumber [v] := by rw [fn_eq X _ _ (by decide)]; rfl
  have e5 : fn X c!"ISTEXT" [v] = StrFn.isText [v] := by rw [fn_eq X _ _ (by decide)]; rfl
  rw [e4, e5]
  refine ⟨⟨_, ?_, e1⟩, ⟨_, ?_, e2⟩, ⟨_, ?_, e3⟩, ?_, ?_⟩
  · cases v <;> simp
  · cases v <;> simp
  · cases v <;> simp
  · cases v <;> simp [StrFn.isNumber, argAt]
  · cases v <;> simp [StrFn.isText, argAt]

example : HasValue (.fin (1/2)) (1/2) ∧ TruncatesTo (.fin (7/2)) 3 ∧ BlankValue (.str c!" \t") :=
  ⟨rfl, by norm_num [TruncatesTo, IsTrunc, abs_of_pos], by intro c hc; simp at hc; rcases hc with rfl | rfl <;> simp [White]⟩
