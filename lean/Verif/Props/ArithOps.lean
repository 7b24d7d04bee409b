import Verif.Props.Numbers
import Verif.Props.Syntax
import Verif.Base.KernelRfl
import Verif.Lemmas.F64Order
/-! The arithmetic operators `+ - * /` and the signs. -/

open Lib

namespace Spec

/-- `x` is the exact result `q` rounded as IEEE-754 prescribes; an exact result of zero gives a zero of either sign. -/
def RoundsTo (q : ℚ) (x : F64) : Prop := if q = 0 then ∃ s, x = .zero s else IsRounded q x

/-- The value of the text `:a op :b`, `:a` and `:b` being given. -/
def opText (X : Ext) (op : Char) (a b : Value) : Res Value :=
  evaluateWith X (c!":a " ++ [op] ++ c!" :b") ((Env.empty.insert c!"a" a).insert c!"b" b)

/-- `op` on rationals. -/
def ratOp : Char → Option (ℚ → ℚ → ℚ)
  | '+' => some (· + ·)
  | '-' => some (· - ·)
  | '*' => some (· * ·)
  | '/' => some (· / ·)
  | _ => none

/-- `e` is an arithmetic expression of exact value `q`, written with numerals, variables, signs, `+ - * /` and parentheses, in
which the exact value of every part is a binary64 number and nothing is divided by zero; `vars` gives
the exact values of the variables. -/
inductive Exact (vars : Str → Option ℚ) : Src → ℚ → Prop
  | num {x q} : HasValue x q → IsDouble x → Exact vars (.num x) q
  | var {n q} : vars n = some q → Exact vars (.var n) q
  | paren {e q} : Exact vars e q → Exact vars (.paren e) q
  | plus {e q} : Exact vars e q → Exact vars (.un .plus e) q
  | minus {e q} : Exact vars e q → Exact vars (.un .minus e) (-q)
  | add {l r p q} : Exact vars l p → Exact vars r q → IsBin64 (p + q) → Exact vars (.bin l .add r) (p + q)
  | sub {l r p q} : Exact vars l p → Exact vars r q → IsBin64 (p - q) → Exact vars (.bin l .sub r) (p - q)
  | mul {l r p q} : Exact vars l p → Exact vars r q → IsBin64 (p * q) → Exact vars (.bin l .mul r) (p * q)
  | div {l r p q} : Exact vars l p → Exact vars r q → q ≠ 0 → IsBin64 (p / q) → Exact vars (.bin l .div r) (p / q)

/-- `e` is an expression in integers written with numerals, variables, signs, `+ - *` and parentheses, of value `i`, in which
every part is at most `2^53` in magnitude. -/
inductive SmallInt (vars : Str → Option ℤ) : Src → ℤ → Prop
  | num {x} {i : ℤ} : HasValue x i → IsDouble x → |i| ≤ 2 ^ 53 → SmallInt vars (.num x) i
  | var {n i} : vars n = some i → SmallInt vars (.var n) i
  | paren {e i} : SmallInt vars e i → SmallInt vars (.paren e) i
  | plus {e i} : SmallInt vars e i → SmallInt vars (.un .plus e) i
  | minus {e i} : SmallInt vars e i → SmallInt vars (.un .minus e) (-i)
  | add {l r i j} : SmallInt vars l i → SmallInt vars r j → |i + j| ≤ 2 ^ 53 → SmallInt vars (.bin l .add r) (i + j)
  | sub {l r i j} : SmallInt vars l i → SmallInt vars r j → |i - j| ≤ 2 ^ 53 → SmallInt vars (.bin l .sub r) (i - j)
  | mul {l r i j} : SmallInt vars l i → SmallInt vars r j → |i * j| ≤ 2 ^ 53 → SmallInt vars (.bin l .mul r) (i * j)

/-- The variables `env` hold the values `vars`, as numbers. -/
def HoldsExact (env : Env) (vars : Str → Option ℚ) : Prop :=
  ∀ n q, vars n = some q → ∃ x, env n = some (.num x) ∧ HasValue x q ∧ IsDouble x

end Spec

open Spec

namespace F64

theorem roundsTo_round (q : ℚ) (z : Bool) : RoundsTo q (round q z) := by
  unfold RoundsTo
  split
  · rename_i h; exact ⟨z, by simp [round, h]⟩
  · rename_i h; exact round_isRounded h z

theorem roundsTo_fin {q : ℚ} (h : IsDouble (fin q)) : RoundsTo q (fin q) := by
  have := roundsTo_round q false
  rwa [round_exact h.2 h.1 false] at this

theorem roundsTo_zero (s : Bool) : RoundsTo 0 (zero s) := by simp [RoundsTo]

theorem neg_value {x : F64} {q : ℚ} (h : HasValue x q) : HasValue x.neg (-q) := by
  cases x with
  | fin p => cases h; rfl
  | zero s => have h : q = 0 := h; subst h; simp [neg, HasValue]
  | nan => exact h.elim
  | inf s => exact h.elim

theorem add_roundsTo {x y : F64} {p q : ℚ} (hx : IsDouble x) (hy : IsDouble y) (hp : HasValue x p) (hq : HasValue y q) :
    RoundsTo (p + q) (add x y) := by
  cases x with
  | nan => exact hp.elim
  | inf s => exact hp.elim
  | zero s =>
    have hp : p = 0 := hp
    subst hp
    rw [zero_add]
    cases y with
    | nan => exact hq.elim
    | inf s => exact hq.elim
    | zero t => have hq : q = 0 := hq; subst hq; exact roundsTo_zero _
    | fin v => have hq : v = q := hq; subst hq; exact roundsTo_fin hy
  | fin u =>
    have hp : u = p := hp
    subst hp
    cases y with
    | nan => exact hq.elim
    | inf s => exact hq.elim
    | zero t => have hq : q = 0 := hq; subst hq; rw [add_zero]; exact roundsTo_fin hx
    | fin v => have hq : v = q := hq; subst hq; exact roundsTo_round _ _

theorem sub_roundsTo {x y : F64} {p q : ℚ} (hx : IsDouble x) (hy : IsDouble y) (hp : HasValue x p) (hq : HasValue y q) :
    RoundsTo (p - q) (sub x y) := by
  rw [sub_eq_add_neg]
  exact add_roundsTo hx (neg_isDouble hy) hp (neg_value hq)

theorem mul_roundsTo {x y : F64} {p q : ℚ} (hp : HasValue x p) (hq : HasValue y q) : RoundsTo (p * q) (mul x y) := by
  cases x with
  | nan => exact hp.elim
  | inf s => exact hp.elim
  | zero s =>
    have hp : p = 0 := hp
    subst hp
    rw [zero_mul]
    cases y with
    | nan => exact hq.elim
    | inf s => exact hq.elim
    | zero t => exact roundsTo_zero _
    | fin v => exact roundsTo_zero _
  | fin u =>
    have hp : u = p := hp
    subst hp
    cases y with
    | nan => exact hq.elim
    | inf s => exact hq.elim
    | zero t => have hq : q = 0 := hq; subst hq; rw [mul_zero]; exact roundsTo_zero _
    | fin v => have hq : v = q := hq; subst hq; exact roundsTo_round _ _

theorem div_roundsTo {x y : F64} {p q : ℚ} (hp : HasValue x p) (hq : HasValue y q) (h0 : q ≠ 0) :
    RoundsTo (p / q) (div x y) := by
  cases y with
  | nan => exact hq.elim
  | inf s => exact hq.elim
  | zero t => exact absurd hq h0
  | fin v =>
    have hq : v = q := hq
    subst hq
    cases x with
    | nan => exact hp.elim
    | inf s => exact hp.elim
    | zero s => have hp : p = 0 := hp; subst hp; rw [zero_div]; exact roundsTo_zero _
    | fin u => have hp : u = p := hp; subst hp; exact roundsTo_round _ _

/-- A representable value is rounded to itself. -/
theorem roundsTo_exact {q : ℚ} {x : F64} (hx : RoundsTo q x) (h : IsBin64 q) : HasValue x q ∧ IsDouble x := by
  unfold RoundsTo at hx
  split at hx
  · rename_i h0; subst h0
    obtain ⟨s, rfl⟩ := hx
    exact ⟨rfl, trivial⟩
  · rename_i h0
    have hd : Denotes q x := by unfold Denotes; rw [if_neg h0]; exact hx
    rw [Lx.denotes_unique hd, round_exact h h0 false]
    exact ⟨rfl, h0, h⟩

end F64

/-- The texts `:a op :b` are the operations on the two variables. -/
theorem Spec.opText_eq (X : Ext) (a b : Value) :
    opText X '+' a b = Ops.binary X .add a b ∧ opText X '-' a b = Ops.binary X .sub a b ∧
    opText X '*' a b = Ops.binary X .mul a b ∧ opText X '/' a b = Ops.binary X .div a b := by
  have go (op : Char) (o : BinaryOp) (ho : o ≠ .and ∧ o ≠ .or)
      (h : parse (c!":a " ++ [op] ++ c!" :b") = .ok (.binary (.var c!"a") o (.var c!"b"))) :
      opText X op a b = Ops.binary X o a b := by
    unfold opText evaluateWith
    rw [h]
    obtain ⟨h1, h2⟩ := ho
    cases o <;> first | contradiction | rfl
  refine ⟨go _ _ (by decide) ?_, go _ _ (by decide) ?_, go _ _ (by decide) ?_, go _ _ (by decide) ?_⟩ <;> kernel_rfl

/-- C97. On finite numbers `:a + :b`, `:a - :b`, `:a * :b` and, for a divisor other than zero, `:a / :b` give the exact result
correctly rounded: the nearest double, ties to even, infinity on overflow. -/
theorem C97_correctly_rounded (X : Ext) (x y : F64) (p q : ℚ) (hx : IsDouble x) (hy : IsDouble y) (hp : HasValue x p)
    (hq : HasValue y q) (c : Char) (f : ℚ → ℚ → ℚ) (hc : ratOp c = some f) (h0 : c = '/' → q ≠ 0) :
    ∃ z, opText X c (.num x) (.num y) = .ok (.num z) ∧ RoundsTo (f p q) z ∧ IsDouble z := by
  obtain ⟨h1, h2, h3, h4⟩ := opText_eq X (.num x) (.num y)
  unfold ratOp at hc
  split at hc <;> cases hc
  · exact ⟨_, h1, F64.add_roundsTo hx hy hp hq, F64.add_isDouble hx hy⟩
  · exact ⟨_, h2, F64.sub_roundsTo hx hy hp hq, F64.add_isDouble hx (F64.neg_isDouble hy)⟩
  · exact ⟨_, h3, F64.mul_roundsTo hp hq, F64.mul_isDouble _ _⟩
  · exact ⟨_, h4, F64.div_roundsTo hp hq (h0 rfl), F64.div_isDouble _ _⟩

/-- `RoundsTo` leaves no choice but the sign of a zero that is the exact result. -/
theorem C97_rounds_unique (q : ℚ) (x y : F64) (hx : RoundsTo q x) (hy : RoundsTo q y) (h : q ≠ 0) : x = y := by
  unfold RoundsTo at hx hy
  rw [if_neg h] at hx hy
  have hd (z : F64) (hz : IsRounded q z) : Denotes q z := by unfold Denotes; rw [if_neg h]; exact hz
  exact (Lx.denotes_unique (hd x hx)).trans (Lx.denotes_unique (hd y hy)).symm

theorem parse_tenth : (F64.parse c!"0.1").get (by decide +kernel) = .fin (3602879701896397 / 2 ^ 55) := by kernel_rfl

/-- A concrete case of C97: one tenth and three, as doubles. -/
example : ∃ x, IsDouble x ∧ F64.parse c!"0.1" = some x ∧ (∃ p, HasValue x p ∧ p ≠ 1 / 10) ∧
    HasValue (F64.fin 3) 3 ∧ IsDouble (F64.fin 3) := by
  refine ⟨(F64.parse c!"0.1").get (by decide +kernel), F64.parse_isDouble (s := c!"0.1") (by simp), by simp, ?_, rfl, by norm_num,
    by exact_mod_cast F64.isBin64_int 3 (by norm_num)⟩
  exact ⟨3602879701896397 / 2 ^ 55, by rw [parse_tenth]; rfl, by norm_num⟩

/-- Division by zero is no error: a non zero number over zero is the infinity with the sign of the quotient, and
zero over zero is no number. -/
theorem C97_division_by_zero (X : Ext) (x y : F64) (s : Bool) (hy : y = .zero s) :
    opText X '/' (.num x) (.num y) = .ok (.num (match x with
      | .nan => .nan
      | .zero _ => .nan
      | .inf n => .inf (n != s)
      | .fin p => .inf (decide (p < 0) != s))) := by
  subst hy
  rw [(opText_eq X _ _).2.2.2]
  cases x <;> rfl

/-- With an operand that is no number, an amount of money included, the operators are errors. -/
theorem C97_needs_numbers (X : Ext) (a b : Value) (c : Char) (hc : (ratOp c).isSome)
    (h : (∀ x, a ≠ .num x) ∨ (∀ y, b ≠ .num y)) : opText X c a b = fail "Arithmetic op on non-number" := by
  have hn (v : Value) (hv : ∀ x, v ≠ .num x) : v.asNumber = none := by cases v <;> first | rfl | exact absurd rfl (hv _)
  obtain ⟨h1, h2, h3, h4⟩ := opText_eq X a b
  have key (o : BinaryOp) (ho : o = .add ∨ o = .sub ∨ o = .mul ∨ o = .div) :
      Ops.binary X o a b = fail "Arithmetic op on non-number" := by
    rcases ho with rfl | rfl | rfl | rfl <;>
    · unfold Ops.binary
      rcases h with h | h
      · simp [hn a h]
      · rw [hn b h]; cases a.asNumber <;> rfl
  unfold ratOp at hc
  split at hc
  · rw [h1, key _ (by simp)]
  · rw [h2, key _ (by simp)]
  · rw [h3, key _ (by simp)]
  · rw [h4, key _ (by simp)]
  · cases hc

/-- A concrete case: money and a number. -/
example : (ratOp '+').isSome ∧ ∀ x, Value.cur (.fin 5) ≠ .num x := ⟨rfl, by simp⟩

theorem Spec.Exact.eval {vars : Str → Option ℚ} {env : Env} (X : Ext) (r : Option Registry) (henv : HoldsExact env vars) {e : Src} {q : ℚ}
    (h : Exact vars e q) : ∃ x, Eval.eval X e.toExpr r env = .ok (.num x) ∧ HasValue x q ∧ IsDouble x := by
  induction h with
  | @num x q hx hd => exact ⟨x, by simp [Src.toExpr, Eval.eval], hx, hd⟩
  | @var n q hv =>
    obtain ⟨x, h1, h2⟩ := henv _ _ hv
    exact ⟨x, by simp [Src.toExpr, Eval.eval, h1], h2⟩
  | paren _ ih => rw [Src.toExpr]; exact ih
  | plus _ ih =>
    obtain ⟨x, h1, h2⟩ := ih
    exact ⟨x, by rw [Src.toExpr, Eval.eval.eq_def]; simp only [h1]; rfl, h2⟩
  | minus _ ih =>
    obtain ⟨x, h1, h2, h3⟩ := ih
    exact ⟨x.neg, by rw [Src.toExpr, Eval.eval.eq_def]; simp only [h1]; rfl, F64.neg_value h2, F64.neg_isDouble h3⟩
  | add _ _ hb ihl ihr =>
    obtain ⟨x, h1, h2, h3⟩ := ihl
    obtain ⟨y, k1, k2, k3⟩ := ihr
    exact ⟨F64.add x y, by rw [Src.toExpr, Eval.eval.eq_def]; simp only [h1, k1]; rfl,
      F64.roundsTo_exact (F64.add_roundsTo h3 k3 h2 k2) hb⟩
  | sub _ _ hb ihl ihr =>
    obtain ⟨x, h1, h2, h3⟩ := ihl
    obtain ⟨y, k1, k2, k3⟩ := ihr
    exact ⟨F64.sub x y, by rw [Src.toExpr, Eval.eval.eq_def]; simp only [h1, k1]; rfl,
      F64.roundsTo_exact (F64.sub_roundsTo h3 k3 h2 k2) hb⟩
  | mul _ _ hb ihl ihr =>
    obtain ⟨x, h1, h2, h3⟩ := ihl
    obtain ⟨y, k1, k2, k3⟩ := ihr
    exact ⟨F64.mul x y, by rw [Src.toExpr, Eval.eval.eq_def]; simp only [h1, k1]; rfl,
      F64.roundsTo_exact (F64.mul_roundsTo h2 k2) hb⟩
  | div _ _ h0 hb ihl ihr =>
    obtain ⟨x, h1, h2, h3⟩ := ihl
    obtain ⟨y, k1, k2, k3⟩ := ihr
    exact ⟨F64.div x y, by rw [Src.toExpr, Eval.eval.eq_def]; simp only [h1, k1]; rfl,
      F64.roundsTo_exact (F64.div_roundsTo h2 k2 h0) hb⟩

/-- C97, whole expressions: the text of an arithmetic expression whose parts all have exact values that are doubles
evaluates to exactly its mathematical value. Precedence and associativity are the ones of the tree. -/
theorem C97_exact (X : Ext) (vars : Str → Option ℚ) (env : Env) (henv : HoldsExact env vars) (e : Src) (q : ℚ) (he : Exact vars e q)
    (text : Str) (ht : ProgText e [] text) :
    ∃ x, evaluateWith X text env = .ok (.num x) ∧ HasValue x q := by
  obtain ⟨x, h1, h2, -⟩ := he.eval X none henv
  refine ⟨x, ?_, h2⟩
  unfold evaluateWith
  rw [Parser.parse_progText ht]
  exact h1

theorem Spec.SmallInt.exact {vars : Str → Option ℤ} (hv : ∀ n i, vars n = some i → |i| ≤ 2 ^ 53) {e : Src} {i : ℤ} (h : SmallInt vars e i) :
    |i| ≤ 2 ^ 53 ∧ Exact (fun n => (vars n).map (Int.cast : ℤ → ℚ)) e i := by
  induction h with
  | num hx hd hi => exact ⟨hi, .num hx hd⟩
  | @var n i h => exact ⟨hv _ _ h, .var (by simp [h])⟩
  | paren _ ih => exact ⟨ih.1, .paren ih.2⟩
  | plus _ ih => exact ⟨ih.1, .plus ih.2⟩
  | minus _ ih => refine ⟨by rw [abs_neg]; exact ih.1, ?_⟩; push_cast; exact .minus ih.2
  | add _ _ hb ihl ihr =>
    refine ⟨hb, ?_⟩
    have := F64.isBin64_int _ hb
    push_cast at this ⊢
    exact .add ihl.2 ihr.2 this
  | sub _ _ hb ihl ihr =>
    refine ⟨hb, ?_⟩
    have := F64.isBin64_int _ hb
    push_cast at this ⊢
    exact .sub ihl.2 ihr.2 this
  | mul _ _ hb ihl ihr =>
    refine ⟨hb, ?_⟩
    have := F64.isBin64_int _ hb
    push_cast at this ⊢
    exact .mul ihl.2 ihr.2 this

/-- C97, integers: numerals, variables, signs, `+`, `-` and `*` compute exactly on integers as long as no part of the
expression exceeds `2^53`. -/
theorem C97_integers (X : Ext) (vars : Str → Option ℤ) (env : Env)
    (henv : ∀ n i, vars n = some i → |i| ≤ 2 ^ 53 ∧ ∃ x, env n = some (.num x) ∧ HasValue x i ∧ IsDouble x) (e : Src) (i : ℤ)
    (he : SmallInt vars e i) (text : Str) (ht : ProgText e [] text) :
    ∃ x, evaluateWith X text env = .ok (.num x) ∧ HasValue x i := by
  refine C97_exact X _ env ?_ e i (he.exact fun n i h => (henv n i h).1).2 text ht
  intro n q hq
  simp only [Option.map_eq_some_iff] at hq
  obtain ⟨j, hj, rfl⟩ := hq
  exact (henv n j hj).2

/-- C97, equations and inequalities between such expressions are decided exactly. -/
theorem C97_comparisons (X : Ext) (vars : Str → Option ℚ) (env : Env) (henv : HoldsExact env vars) (l r : Src) (p q : ℚ)
    (hl : Exact vars l p) (hr : Exact vars r q) (text : Str) :
    (ProgText (.bin l .eq r) [] text → evaluateWith X text env = .ok (.bool (decide (p = q)))) ∧
    (ProgText (.bin l .ne r) [] text → evaluateWith X text env = .ok (.bool (decide (p ≠ q)))) ∧
    (ProgText (.bin l .lt r) [] text → evaluateWith X text env = .ok (.bool (decide (p < q)))) ∧
    (ProgText (.bin l .le r) [] text → evaluateWith X text env = .ok (.bool (decide (p ≤ q)))) ∧
    (ProgText (.bin l .gt r) [] text → evaluateWith X text env = .ok (.bool (decide (q < p)))) ∧
    (ProgText (.bin l .ge r) [] text → evaluateWith X text env = .ok (.bool (decide (q ≤ p)))) := by
  obtain ⟨x, h1, h2, -⟩ := hl.eval X none henv
  obtain ⟨y, k1, k2, -⟩ := hr.eval X none henv
  have hv {z : F64} {w : ℚ} (h : HasValue z w) : z.isFinite = true ∧ z.toRat = w := by
    cases z with
    | fin _ => exact ⟨rfl, h⟩
    | zero s => have h : w = 0 := h; exact ⟨rfl, h.symm⟩
    | nan => exact h.elim
    | inf _ => exact h.elim
  obtain ⟨hx1, hx2⟩ := hv h2
  obtain ⟨hy1, hy2⟩ := hv k2
  have hfeq : F64.feq x y = decide (p = q) := by
    subst hx2 hy2; cases x <;> cases y <;> first | exact h2.elim | exact k2.elim | rfl
  have hflt : F64.flt x y = decide (p < q) := by
    subst hx2 hy2; cases x <;> cases y <;> first | exact h2.elim | exact k2.elim | rfl
  have hflt' : F64.flt y x = decide (q < p) := by
    subst hx2 hy2; cases x <;> cases y <;> first | exact h2.elim | exact k2.elim | rfl
  have hfle : F64.fle x y = decide (p ≤ q) := by
    subst hx2 hy2; cases x <;> cases y <;> first | exact h2.elim | exact k2.elim | rfl
  have hfle' : F64.fle y x = decide (q ≤ p) := by
    subst hx2 hy2; cases x <;> cases y <;> first | exact h2.elim | exact k2.elim | rfl
  have go (op : BinaryOp) (t : Str) (ht : ProgText (.bin l op r) [] t) (hop : op ≠ .and ∧ op ≠ .or) :
      evaluateWith X t env = Ops.binary X op (.num x) (.num y) := by
    unfold evaluateWith
    rw [Parser.parse_progText ht]
    show Eval.eval X (progExpr (.bin l op r) []) none env = _
    rw [progExpr, Src.toExpr, Eval.eval.eq_def]
    simp only [h1, k1]
    obtain ⟨a, b⟩ := hop
    cases op <;> first | contradiction | rfl
  refine ⟨fun h => ?_, fun h => ?_, fun h => ?_, fun h => ?_, fun h => ?_, fun h => ?_⟩ <;> rw [go _ _ h (by decide)]
  · rw [← hfeq]; rfl
  · have : decide (p ≠ q) = !F64.feq x y := by rw [hfeq]; simp
    rw [this]; rfl
  · rw [← hflt]; rfl
  · rw [← hfle]; rfl
  · rw [← hflt']; rfl
  · rw [← hfle']; rfl

/-- A concrete case of `C97_integers`, `C97_exact` and `C97_comparisons`: `(:x + 2) * -3` at `x = 5` has a text and is an expression in small integers. -/
example : let e : Src := .bin (.paren (.bin (.var c!"x") .add (.num (F64.ofNat 2)))) .mul (.un .minus (.num (F64.ofNat 3)))
    SmallInt (fun n => if n = c!"x" then some 5 else none) e (-21) ∧
    (∀ n i, (if n = c!"x" then some 5 else none) = some i → |(i : ℤ)| ≤ 2 ^ 53 ∧
      ∃ x, (Env.empty.insert c!"x" (.num (.fin 5))) n = some (.num x) ∧ HasValue x i ∧ IsDouble x) ∧ ∃ text, ProgText e [] text := by
  have h2 : F64.ofNat 2 = .fin 2 := by decide +kernel
  have h3 : F64.ofNat 3 = .fin 3 := by decide +kernel
  have hb (i : ℤ) (h : |i| ≤ 2 ^ 53) : IsBin64 (i : ℚ) := F64.isBin64_int i h
  refine ⟨?_, ?_, ?_⟩
  · have hx : SmallInt (fun n => if n = c!"x" then some 5 else none) (.var c!"x") 5 := .var (by simp)
    have a : SmallInt (fun n => if n = c!"x" then some 5 else none) (.num (F64.ofNat 2)) 2 :=
      .num (by rw [h2]; rfl) (by rw [h2]; exact ⟨by norm_num, by exact_mod_cast hb 2 (by norm_num)⟩) (by norm_num)
    have b : SmallInt (fun n => if n = c!"x" then some 5 else none) (.num (F64.ofNat 3)) 3 :=
      .num (by rw [h3]; rfl) (by rw [h3]; exact ⟨by norm_num, by exact_mod_cast hb 3 (by norm_num)⟩) (by norm_num)
    exact .mul (.paren (.add hx a (by norm_num))) (.minus b) (by norm_num)
  · intro n i h
    split at h
    · rename_i hn
      cases h
      subst hn
      refine ⟨by norm_num, .fin 5, by simp [Env.insert], rfl, by norm_num, by exact_mod_cast hb 5 (by norm_num)⟩
    · cases h
  · refine (C03_every_program_has_a_text _ [] ?_).imp fun _ h => h.1
    have two : Written (.number (F64.ofNat 2)) c!"2" :=
      .number (.int _ (by simp) (by simp [Digits])) (Lx.denotes_round _)
    have three : Written (.number (F64.ofNat 3)) c!"3" :=
      .number (.int _ (by simp) (by simp [Digits])) (Lx.denotes_round _)
    have name : Written (.ident ['x']) ['x'] := by
      refine .name ⟨'x', [], rfl, .inl ⟨by decide, by decide⟩, by simp⟩ ?_ ?_ ?_ <;> simp [SameWord]
    have sym : ∀ t s, (t, s) ∈ symbols → Writable t := fun t s h => ⟨s, .symbol h⟩
    show ∀ t ∈ ([.lparen, .colon, .ident c!"x", .plus, .number (F64.ofNat 2), .rparen, .star, .minus, .number (F64.ofNat 3)] : List Token), Writable t
    intro t ht
    simp only [List.mem_cons, List.not_mem_nil, or_false] at ht
    rcases ht with rfl | rfl | rfl | rfl | rfl | rfl | rfl | rfl | rfl
    · exact sym _ c!"(" (by simp [symbols])
    · exact sym _ c!":" (by simp [symbols])
    · exact ⟨_, name⟩
    · exact sym _ c!"+" (by simp [symbols])
    · exact ⟨_, two⟩
    · exact sym _ c!")" (by simp [symbols])
    · exact sym _ c!"*" (by simp [symbols])
    · exact sym _ c!"-" (by simp [symbols])
    · exact ⟨_, three⟩

/-- And as it is evaluated. -/
example (X : Ext) : evaluateWith X c!"(:x + 2) * -3" (Env.empty.insert c!"x" (.num (.fin 5))) = .ok (.num (.fin (-21))) := by kernel_rfl
