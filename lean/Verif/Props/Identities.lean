import Verif.Props.Monotone
import Verif.Props.Laws
import Mathlib.Tactic.Linarith
/-! C148: the identities of arithmetic, logic and choice by which expressions can be rewritten, and those that do not hold. -/

namespace Identities

open Lib _root_.Spec _root_.Laws.Spec

namespace Spec

/-- With these functions and variables, the two expressions have the same value or the same failure. -/
def Rewrites (X : Ext) (r : Option Registry) (env : Env) (e e' : Expr) : Prop := Eval.eval X e r env = Eval.eval X e' r env

/-- The expression is worth the number, which is a double. -/
def Number (X : Ext) (r : Option Registry) (env : Env) (e : Expr) (x : F64) : Prop := Eval.eval X e r env = .ok (.num x) ∧ IsDouble x

/-- The expression is true or false. -/
def Truth (X : Ext) (r : Option Registry) (env : Env) (e : Expr) : Prop := ∃ b, Eval.eval X e r env = .ok (.bool b)

/-- `-e`. -/
def minus (e : Expr) : Expr := .unary .minus e
/-- `+e`. -/
def plus (e : Expr) : Expr := .unary .plus e
/-- `!e`. -/
def opposite (e : Expr) : Expr := .unary .not e
/-- `a + b`. -/
def add (a b : Expr) : Expr := .binary a .add b
/-- `a - b`. -/
def sub (a b : Expr) : Expr := .binary a .sub b
/-- `a * b`. -/
def mul (a b : Expr) : Expr := .binary a .mul b
/-- `a / b`. -/
def div (a b : Expr) : Expr := .binary a .div b
/-- `a && b`. -/
def both (a b : Expr) : Expr := .binary a .and b
/-- `a || b`. -/
def either (a b : Expr) : Expr := .binary a .or b
/-- `a < b`. -/
def less (a b : Expr) : Expr := .binary a .lt b
/-- `0`. -/
def zero : Expr := .number (.zero false)
/-- The literal of an integer other than zero. -/
def lit (n : Int) : Expr := .number (.fin n)

end Spec

open _root_.Identities.Spec

/-! ### Doubles -/

theorem round_neg {q : ℚ} (h : q ≠ 0) : F64.round (-q) = F64.neg (F64.round q) := by
  have key : ∀ p : ℚ, F64.roundPos true p = F64.neg (F64.roundPos false p) := by
    intro p
    simp only [F64.roundPos]
    split
    · rfl
    · split <;> rfl
  have key' : ∀ p : ℚ, F64.roundPos false p = F64.neg (F64.roundPos true p) := by
    intro p
    simp only [F64.roundPos]
    split
    · rfl
    · split
      · rfl
      · simp [F64.neg]
  unfold F64.round
  rw [if_neg h, if_neg (neg_ne_zero.2 h)]
  rcases lt_or_gt_of_ne h with hq | hq
  · rw [if_pos hq, if_neg (by linarith), key']
  · rw [if_neg (not_lt.2 hq.le), if_pos (by linarith), neg_neg, key]

theorem neg_neg' (x : F64) : F64.neg (F64.neg x) = x := by
  cases x <;> simp [F64.neg]

theorem neg_double {x : F64} (h : IsDouble x) : IsDouble (F64.neg x) := by
  cases x with
  | fin q =>
    obtain ⟨h0, m, e, hm, he, he', hv⟩ := h
    exact ⟨neg_ne_zero.2 h0, -m, e, by rw [abs_neg]; exact hm, he, he', by rw [hv]; push_cast; ring⟩
  | _ => trivial

theorem signBit_neg {x : F64} (h : IsDouble x) (hn : x ≠ .nan) : F64.signBit (F64.neg x) = !F64.signBit x := by
  cases x with
  | nan => exact absurd rfl hn
  | inf s => rfl
  | zero s => rfl
  | fin q =>
    simp only [F64.neg, F64.signBit]
    rcases lt_or_gt_of_ne h.1 with hq | hq
    · simp [hq, not_lt.2 hq.le]
    · simp [hq, not_lt.2 hq.le]

theorem mul_neg' {x y : F64} (hx : IsDouble x) (hy : IsDouble y) : F64.mul x (F64.neg y) = F64.neg (F64.mul x y) := by
  cases x with
  | nan => rfl
  | inf s =>
    cases y with
    | nan => rfl
    | zero t => rfl
    | inf t => cases s <;> cases t <;> rfl
    | fin q =>
      have := signBit_neg hy (by simp)
      simp only [F64.neg] at this
      simp only [F64.mul, F64.neg, this]
      cases s <;> cases F64.signBit (.fin q) <;> rfl
  | zero s =>
    cases y with
    | nan => rfl
    | inf t => rfl
    | zero t => cases s <;> cases t <;> rfl
    | fin q =>
      have := signBit_neg hy (by simp)
      simp only [F64.neg] at this
      simp only [F64.mul, F64.neg, this]
      cases s <;> cases F64.signBit (.fin q) <;> rfl
  | fin p =>
    cases y with
    | nan => rfl
    | inf t => simp only [F64.mul, F64.neg]; cases t <;> cases F64.signBit (.fin p) <;> rfl
    | zero t => simp only [F64.mul, F64.neg]; cases t <;> cases F64.signBit (.fin p) <;> rfl
    | fin q =>
      simp only [F64.mul, F64.neg]
      rw [mul_neg, round_neg (mul_ne_zero hx.1 hy.1)]
      rfl

theorem neg_mul' {x y : F64} (hx : IsDouble x) (hy : IsDouble y) : F64.mul (F64.neg x) y = F64.neg (F64.mul x y) := by
  rw [F64.mul_comm', mul_neg' hy hx, F64.mul_comm']

theorem div_neg' {x y : F64} (hx : IsDouble x) (hy : IsDouble y) : F64.div x (F64.neg y) = F64.neg (F64.div x y) := by
  cases x with
  | nan => rfl
  | inf s =>
    cases y with
    | nan => rfl
    | inf t => rfl
    | zero t => cases s <;> cases t <;> rfl
    | fin q =>
      have := signBit_neg hy (by simp)
      simp only [F64.neg] at this
      simp only [F64.div, F64.neg, this]
      cases s <;> cases F64.signBit (.fin q) <;> rfl
  | zero s =>
    cases y with
    | nan => rfl
    | zero t => rfl
    | inf t => cases s <;> cases t <;> rfl
    | fin q =>
      have := signBit_neg hy (by simp)
      simp only [F64.neg] at this
      simp only [F64.div, F64.neg, this]
      cases s <;> cases F64.signBit (.fin q) <;> rfl
  | fin p =>
    cases y with
    | nan => rfl
    | inf t => simp only [F64.div, F64.neg]; cases t <;> cases F64.signBit (.fin p) <;> rfl
    | zero t => simp only [F64.div, F64.neg]; cases t <;> cases F64.signBit (.fin p) <;> rfl
    | fin q =>
      simp only [F64.div, F64.neg]
      rw [div_neg, round_neg (div_ne_zero hx.1 hy.1)]
      rfl

theorem neg_div' {x y : F64} (hx : IsDouble x) (hy : IsDouble y) : F64.div (F64.neg x) y = F64.neg (F64.div x y) := by
  have h := div_neg' (neg_double hx) hy
  have h2 : F64.div (F64.neg x) (F64.neg y) = F64.div x y := by
    cases x with
    | nan => rfl
    | inf s =>
      cases y with
      | nan => rfl
      | inf t => rfl
      | zero t => cases s <;> cases t <;> rfl
      | fin q =>
        have := signBit_neg hy (by simp)
        simp only [F64.neg] at this
        simp only [F64.div, F64.neg, this]
        cases s <;> cases F64.signBit (.fin q) <;> rfl
    | zero s =>
      cases y with
      | nan => rfl
      | zero t => rfl
      | inf t => cases s <;> cases t <;> rfl
      | fin q =>
        have := signBit_neg hy (by simp)
        simp only [F64.neg] at this
        simp only [F64.div, F64.neg, this]
        cases s <;> cases F64.signBit (.fin q) <;> rfl
    | fin p =>
      have hs := signBit_neg hx (by simp)
      simp only [F64.neg] at hs
      cases y with
      | nan => rfl
      | inf t => simp only [F64.div, F64.neg, hs]; cases t <;> cases F64.signBit (.fin p) <;> rfl
      | zero t => simp only [F64.div, F64.neg, hs]; cases t <;> cases F64.signBit (.fin p) <;> rfl
      | fin q => simp only [F64.div, F64.neg, neg_div_neg_eq]
  rw [h2] at h
  rw [h, neg_neg']

theorem add_neg_neg {x y : F64} (h : ∀ s, F64.add x y ≠ .zero s) : F64.add (F64.neg x) (F64.neg y) = F64.neg (F64.add x y) := by
  cases x with
  | nan => rfl
  | inf s => cases y with
    | inf t => cases s <;> cases t <;> rfl
    | _ => rfl
  | zero s => cases y with
    | zero t => exact absurd rfl (h _)
    | _ => rfl
  | fin p => cases y with
    | fin q =>
      have h0 : p + q ≠ 0 := by
        intro h0
        refine h false ?_
        simp only [F64.add, h0]
        rfl
      simp only [F64.add, F64.neg]
      rw [← neg_add, round_neg h0]
      rfl
    | _ => rfl

theorem round_one : F64.round 1 = .fin 1 := F64.round_exact ⟨1, 0, by norm_num, by norm_num, by norm_num, by norm_num⟩ (by norm_num) _

/-! ### Expressions -/

theorem unary_num {X : Ext} {r : Option Registry} {env : Env} {e : Expr} {x : F64} (h : Number X r env e x) :
    Number X r env (minus e) (F64.neg x) ∧ Number X r env (plus e) x := by
  refine ⟨⟨?_, neg_double h.2⟩, ?_, h.2⟩ <;>
  simp only [minus, plus, Eval.eval, h.1, bind, Except.bind, Ops.unary, Value.asNumber]

theorem binary_num {X : Ext} {r : Option Registry} {env : Env} {a b : Expr} {x y : F64} (ha : Number X r env a x) (hb : Number X r env b y) :
    Eval.eval X (add a b) r env = .ok (.num (F64.add x y)) ∧ Eval.eval X (sub a b) r env = .ok (.num (F64.sub x y)) ∧
    Eval.eval X (mul a b) r env = .ok (.num (F64.mul x y)) ∧ Eval.eval X (div a b) r env = .ok (.num (F64.div x y)) := by
  refine ⟨?_, ?_, ?_, ?_⟩ <;>
  simp only [add, sub, mul, div, Eval.eval, ha.1, hb.1, bind, Except.bind, Ops.binary, Value.asNumber, Ops.arith]

theorem minus_of {X : Ext} {r : Option Registry} {env : Env} {e : Expr} {x : F64} (h : Eval.eval X e r env = .ok (.num x)) :
    Eval.eval X (minus e) r env = .ok (.num (F64.neg x)) := by
  simp only [minus, Eval.eval, h, bind, Except.bind, Ops.unary, Value.asNumber]

theorem lit_num (X : Ext) (r : Option Registry) (env : Env) (n : Int) (h : n ≠ 0) (hb : |n| < 2 ^ 53) : Number X r env (lit n) (.fin n) :=
  ⟨by rw [lit, Eval.eval], by exact_mod_cast h, n, 0, hb, by norm_num, by norm_num, by simp⟩

/-- **C148.** Signs: for all numbers, infinities and NaN included, `--a` and `+a` are `a`, `a - b` is `a + -b`, `a - -b` is `a + b`, and a sign can be
taken out of a product or quotient. Out of a sum or difference it can be taken where the sum is not zero (`-(1 - 1)` is `-0`). -/
theorem C148_signs (X : Ext) (r : Option Registry) (env : Env) (a b : Expr) (x y : F64) (ha : Number X r env a x) (hb : Number X r env b y) :
    Rewrites X r env (minus (minus a)) a ∧ Rewrites X r env (plus a) a ∧
    Rewrites X r env (sub a b) (add a (minus b)) ∧ Rewrites X r env (sub a (minus b)) (add a b) ∧
    Rewrites X r env (mul (minus a) b) (minus (mul a b)) ∧ Rewrites X r env (mul a (minus b)) (minus (mul a b)) ∧
    Rewrites X r env (div (minus a) b) (minus (div a b)) ∧ Rewrites X r env (div a (minus b)) (minus (div a b)) ∧
    ((∀ s, Eval.eval X (add a b) r env ≠ .ok (.num (.zero s))) → Rewrites X r env (minus (add a b)) (add (minus a) (minus b))) ∧
    ((∀ s, Eval.eval X (sub a b) r env ≠ .ok (.num (.zero s))) → Rewrites X r env (minus (sub a b)) (sub b a)) := by
  have ma := (unary_num ha).1
  have mb := (unary_num hb).1
  obtain ⟨h1, h2, h3, h4⟩ := binary_num ha hb
  unfold Rewrites
  refine ⟨?_, ?_, ?_, ?_, ?_, ?_, ?_, ?_, ?_, ?_⟩
  · rw [(unary_num ma).1.1, ha.1, neg_neg']
  · rw [(unary_num ha).2.1, ha.1]
  · rw [h2, (binary_num ha mb).1]; rfl
  · rw [h1, (binary_num ha mb).2.1, F64.sub, neg_neg']
  · rw [(binary_num ma hb).2.2.1, minus_of h3, neg_mul' ha.2 hb.2]
  · rw [(binary_num ha mb).2.2.1, minus_of h3, mul_neg' ha.2 hb.2]
  · rw [(binary_num ma hb).2.2.2, minus_of h4, neg_div' ha.2 hb.2]
  · rw [(binary_num ha mb).2.2.2, minus_of h4, div_neg' ha.2 hb.2]
  · intro hz
    rw [h1] at hz
    rw [minus_of h1, (binary_num ma mb).1, add_neg_neg fun s e => hz s (by rw [e])]
  · intro hz
    rw [h2] at hz
    rw [minus_of h2, (binary_num hb ha).2.1]
    unfold F64.sub at hz ⊢
    rw [← add_neg_neg fun s e => hz s (by rw [e]), neg_neg', F64.add_comm']

/-- **C148.** Units: `a * 1`, `1 * a`, `a / 1` and `a - 0` are `a`, `a * -1` is `-a`, and `a * 2` is `a + a`, for all numbers, infinities and NaN
included. `a + 0` is `a`, except that `-0 + 0` is `0`. -/
theorem C148_units (X : Ext) (r : Option Registry) (env : Env) (a : Expr) (x : F64) (ha : Number X r env a x) :
    Rewrites X r env (mul a (lit 1)) a ∧ Rewrites X r env (mul (lit 1) a) a ∧ Rewrites X r env (div a (lit 1)) a ∧ Rewrites X r env (sub a zero) a ∧
    Rewrites X r env (mul a (minus (lit 1))) (minus a) ∧ Rewrites X r env (mul a (lit 2)) (add a a) ∧
    (x ≠ .zero true → Rewrites X r env (add a zero) a) ∧ (x = .zero true → Rewrites X r env (add a zero) zero) := by
  have one := lit_num X r env 1 (by norm_num) (by norm_num)
  have two := lit_num X r env 2 (by norm_num) (by norm_num)
  have nil : Number X r env zero (.zero false) := ⟨by rw [zero, Eval.eval], trivial⟩
  have m1 : F64.mul x (.fin 1) = x := by
    cases x with
    | nan => rfl
    | inf s => cases s <;> simp [F64.mul, F64.signBit]
    | zero s => cases s <;> simp [F64.mul, F64.signBit]
    | fin q => simp only [F64.mul, mul_one]; exact F64.round_exact ha.2.2 ha.2.1 _
  have d1 : F64.div x (.fin 1) = x := by
    cases x with
    | nan => rfl
    | inf s => cases s <;> simp [F64.div, F64.signBit]
    | zero s => cases s <;> simp [F64.div, F64.signBit]
    | fin q => simp only [F64.div, div_one]; exact F64.round_exact ha.2.2 ha.2.1 _
  have m2 : F64.mul x (.fin 2) = F64.add x x := by
    cases x with
    | nan => rfl
    | inf s => cases s <;> simp [F64.mul, F64.signBit, F64.add]
    | zero s => cases s <;> simp [F64.mul, F64.signBit, F64.add]
    | fin q => simp only [F64.mul, F64.add, mul_two]
  unfold Rewrites
  refine ⟨?_, ?_, ?_, ?_, ?_, ?_, ?_, ?_⟩
  · rw [(binary_num ha one).2.2.1, ha.1]; push_cast; rw [m1]
  · rw [(binary_num one ha).2.2.1, ha.1, F64.mul_comm']; push_cast; rw [m1]
  · rw [(binary_num ha one).2.2.2, ha.1]; push_cast; rw [d1]
  · rw [(binary_num ha nil).2.1, ha.1]
    cases x with
    | zero s => cases s <;> rfl
    | _ => rfl
  · rw [(binary_num ha (unary_num one).1).2.2.1, (unary_num ha).1.1, mul_neg' ha.2 one.2]; push_cast; rw [m1]
  · rw [(binary_num ha two).2.2.1, (binary_num ha ha).1]; push_cast; rw [m2]
  · intro hx
    rw [(binary_num ha nil).1, ha.1]
    cases x with
    | zero s => cases s with
      | false => rfl
      | true => exact absurd rfl hx
    | _ => rfl
  · intro hx
    subst hx
    rw [(binary_num ha nil).1, nil.1]
    rfl

/-- **C148.** Cancelling: `a - a` is 0 if `a` is finite, `a / a` is 1 if it is also not zero, `a * 0` is a zero if `a` is finite; otherwise they are NaN. -/
theorem C148_cancel (X : Ext) (r : Option Registry) (env : Env) (a : Expr) (x : F64) (ha : Number X r env a x) :
    Eval.eval X (sub a a) r env = .ok (.num (if x.isFinite then .zero false else .nan)) ∧
    Eval.eval X (div a a) r env = .ok (.num (if x.isFinite ∧ ∀ s, x ≠ .zero s then .fin 1 else .nan)) ∧
    Eval.eval X (mul a zero) r env = .ok (.num (if x.isFinite then .zero x.signBit else .nan)) := by
  have nil : Number X r env zero (.zero false) := ⟨by rw [zero, Eval.eval], trivial⟩
  rw [(binary_num ha ha).2.1, (binary_num ha ha).2.2.2, (binary_num ha nil).2.2.1]
  cases x with
  | nan => simp [F64.sub, F64.div, F64.mul, F64.add, F64.isFinite]
  | inf s => cases s <;> simp [F64.sub, F64.div, F64.mul, F64.add, F64.neg, F64.isFinite]
  | zero s => cases s <;> simp [F64.sub, F64.div, F64.mul, F64.add, F64.neg, F64.isFinite, F64.signBit]
  | fin q =>
    have h1 : F64.round (q / q) = .fin 1 := by rw [div_self ha.2.1, round_one]
    have h2 : F64.round (q + -q) = .zero false := by rw [add_neg_cancel]; rfl
    simp [F64.sub, F64.div, F64.mul, F64.add, F64.neg, F64.isFinite, h1, h2, -add_neg_cancel]

theorem choose_eval (X : Ext) (r : Option Registry) (env : Env) (c a b : Expr) :
    Eval.eval X (choose c a b) r env = (do
      match (← Eval.eval X c r env).asBool with
      | some cond => if cond then Eval.eval X a r env else Eval.eval X b r env
      | none => fail "Ternary condition must be boolean") := by
  unfold Laws.Spec.choose
  simp only [Eval.eval, Eval.call, if_true, Eval.argsOf_eq, List.map_cons, List.map_nil, Legacy.ternary, Eval.argOf_run]
  rfl

/-- **C148.** A choice can be made outside: whatever is done with what is chosen can be done in both branches, with all failures. -/
theorem C148_choice_outside (X : Ext) (r : Option Registry) (env : Env) (c a b d : Expr) :
    (∀ op, Rewrites X r env (.unary op (choose c a b)) (choose c (.unary op a) (.unary op b))) ∧
    (∀ op, Rewrites X r env (.binary (choose c a b) op d) (choose c (.binary a op d) (.binary b op d))) ∧
    (∀ n, Rewrites X r env (.prop (choose c a b) n) (choose c (.prop a n) (.prop b n))) ∧
    (∀ n, Rewrites X r env (.safeProp (choose c a b) n) (choose c (.safeProp a n) (.safeProp b n))) ∧
    (∀ n args p, Rewrites X r env (.method (choose c a b) n args p) (choose c (.method a n args p) (.method b n args p))) ∧
    (∀ n args, Rewrites X r env (.safeCall (choose c a b) n args) (choose c (.safeCall a n args) (.safeCall b n args))) ∧
    Rewrites X r env (.index (choose c a b) d) (choose c (.index a d) (.index b d)) ∧
    (∀ i j, Rewrites X r env (.slice (choose c a b) i j) (choose c (.slice a i j) (.slice b i j))) ∧
    (∀ t, Rewrites X r env (.cast (choose c a b) t) (choose c (.cast a t) (.cast b t))) ∧
    (∀ op w, Eval.eval X d r env = .ok w → Rewrites X r env (.binary d op (choose c a b)) (choose c (.binary d op a) (.binary d op b))) ∧
    (∀ w, Eval.eval X d r env = .ok w → Rewrites X r env (.index d (choose c a b)) (choose c (.index d a) (.index d b))) := by
  have bound : ∀ {α : Type} (f : Value → Res α) (g h : Res Value), (do f (← (do
      match (← Eval.eval X c r env).asBool with
      | some cond => if cond then g else h
      | none => fail "Ternary condition must be boolean"))) = (do
      match (← Eval.eval X c r env).asBool with
      | some cond => if cond then g >>= f else h >>= f
      | none => fail "Ternary condition must be boolean") := by
    intro α f g h
    cases Eval.eval X c r env with
    | error e => rfl
    | ok v =>
      simp only [bind, Except.bind]
      cases v.asBool with
      | none => rfl
      | some b => cases b <;> rfl
  unfold Rewrites
  refine ⟨fun op => ?_, fun op => ?_, fun n => ?_, fun n => ?_, fun n args p => ?_, fun n args => ?_, ?_, fun i j => ?_, fun t => ?_, fun op w hd => ?_, fun w hd => ?_⟩
  iterate 9
    · simp only [Eval.eval]
      rw [choose_eval, choose_eval]
      refine (bound _ _ _).trans ?_
      simp only [Eval.eval]
  · simp only [Eval.eval, hd]
    rw [choose_eval, choose_eval]
    refine (bound (fun y => Ops.binary X op w y) _ _).trans ?_
    simp only [Eval.eval, hd]
    rfl
  · simp only [Eval.eval, hd]
    rw [choose_eval, choose_eval]
    refine (bound (fun y => Legacy.index w y) _ _).trans ?_
    simp only [Eval.eval, hd]
    rfl

/-- **C148.** Choices: for a condition that is true or false, `!c ? a : b` is `c ? b : a`, `c ? a : a` is `a`, `c ? TRUE : FALSE` is `c` and
`c ? FALSE : TRUE` is `!c`; for every condition, asking again gives the same: `c ? (c ? a : b) : d` is `c ? a : d`. -/
theorem C148_choice (X : Ext) (r : Option Registry) (env : Env) (c a b d : Expr) :
    (Truth X r env c → Rewrites X r env (choose (opposite c) a b) (choose c b a) ∧ Rewrites X r env (choose c a a) a ∧
      Rewrites X r env (choose c yes no) c ∧ Rewrites X r env (choose c no yes) (opposite c)) ∧
    Rewrites X r env (choose c (choose c a b) d) (choose c a d) ∧ Rewrites X r env (choose c d (choose c a b)) (choose c d b) := by
  have hyes : Eval.eval X yes r env = .ok (.bool true) := by simp [yes, Eval.eval, Eval.call]
  have hno : Eval.eval X no r env = .ok (.bool false) := by simp [no, Eval.eval, Eval.call]
  unfold Rewrites
  refine ⟨?_, ?_, ?_⟩
  · rintro ⟨t, ht⟩
    have hn : Eval.eval X (opposite c) r env = .ok (.bool (!t)) := by
      simp only [opposite, Eval.eval, ht, bind, Except.bind, Ops.unary, Value.asBool]
    simp only [choose_eval, ht, hn, hyes, hno, bind, Except.bind, Value.asBool]
    cases t <;> simp
  · simp only [choose_eval]
    cases Eval.eval X c r env with
    | error e => rfl
    | ok v =>
      simp only [bind, Except.bind]
      cases v.asBool with
      | none => rfl
      | some b => cases b <;> rfl
  · simp only [choose_eval]
    cases Eval.eval X c r env with
    | error e => rfl
    | ok v =>
      simp only [bind, Except.bind]
      cases v.asBool with
      | none => rfl
      | some b => cases b <;> rfl

/-- **C148.** Logic: on expressions that are true or false, `!`, `&&` and `||` obey the laws of Boolean algebra, and `&&` and `||` are choices. -/
theorem C148_logic (X : Ext) (r : Option Registry) (env : Env) (a b c : Expr) (ha : Truth X r env a) (hb : Truth X r env b) (hc : Truth X r env c) :
    Rewrites X r env (opposite (opposite a)) a ∧
    Rewrites X r env (opposite (both a b)) (either (opposite a) (opposite b)) ∧ Rewrites X r env (opposite (either a b)) (both (opposite a) (opposite b)) ∧
    Rewrites X r env (both a b) (both b a) ∧ Rewrites X r env (either a b) (either b a) ∧
    Rewrites X r env (both (both a b) c) (both a (both b c)) ∧ Rewrites X r env (either (either a b) c) (either a (either b c)) ∧
    Rewrites X r env (both a (either b c)) (either (both a b) (both a c)) ∧ Rewrites X r env (either a (both b c)) (both (either a b) (either a c)) ∧
    Rewrites X r env (both a a) a ∧ Rewrites X r env (either a a) a ∧ Rewrites X r env (both a (either a b)) a ∧ Rewrites X r env (either a (both a b)) a ∧
    Rewrites X r env (both a (opposite a)) no ∧ Rewrites X r env (either a (opposite a)) yes ∧
    Rewrites X r env (both a b) (choose a b no) ∧ Rewrites X r env (either a b) (choose a yes b) := by
  obtain ⟨x, hx⟩ := ha
  obtain ⟨y, hy⟩ := hb
  obtain ⟨z, hz⟩ := hc
  have hyes : Eval.eval X yes r env = .ok (.bool true) := by simp [yes, Eval.eval, Eval.call]
  have hno : Eval.eval X no r env = .ok (.bool false) := by simp [no, Eval.eval, Eval.call]
  unfold Rewrites
  simp only [choose_eval, hyes, hno]
  simp only [opposite, both, either, Eval.eval, hx, hy, hz, bind, Except.bind, Ops.unary, Ops.binary, Value.asBool]
  cases x <;> cases y <;> cases z <;> simp

theorem flt_asymm' {x y : F64} (h : F64.flt x y = true) : F64.flt y x = false := by
  cases x <;> cases y <;> simp_all [F64.flt] <;> linarith

theorem flt_eq {x y : F64} (hx : x ≠ .nan) (hy : y ≠ .nan) (hz : ¬((∃ s, x = .zero s) ∧ ∃ s, y = .zero s)) (hdx : IsDouble x) (hdy : IsDouble y)
    (h : F64.flt x y = false) (h' : F64.flt y x = false) : x = y := by
  cases x with
  | nan => exact absurd rfl hx
  | inf s => cases y with
    | nan => exact absurd rfl hy
    | inf t => cases s <;> cases t <;> simp_all [F64.flt]
    | zero t => cases s <;> simp_all [F64.flt]
    | fin q => cases s <;> simp_all [F64.flt]
  | zero s => cases y with
    | nan => exact absurd rfl hy
    | inf t => cases t <;> simp_all [F64.flt]
    | zero t => exact absurd ⟨⟨s, rfl⟩, t, rfl⟩ hz
    | fin q =>
      simp only [F64.flt, decide_eq_false_iff_not, not_lt] at h h'
      exact absurd (le_antisymm h h') hdy.1
  | fin p => cases y with
    | nan => exact absurd rfl hy
    | inf t => cases t <;> simp_all [F64.flt]
    | zero t =>
      simp only [F64.flt, decide_eq_false_iff_not, not_lt] at h h'
      exact absurd (le_antisymm h' h) hdx.1
    | fin q =>
      simp only [F64.flt, decide_eq_false_iff_not, not_lt] at h h'
      exact congrArg _ (le_antisymm h' h)

/-- **C148.** `a < b ? a : b` is `MIN(a, b)` and `a < b ? b : a` is `MAX(a, b)` for numbers that are neither NaN nor both zero (of two zeros the standard library
may take either), and `a < 0 ? -a : a` is `ABS(a)` for every number but `-0`. -/
theorem C148_extremes (X : Ext) (r : Option Registry) (env : Env) (a b : Expr) (x y : F64) (ha : Number X r env a x) (hb : Number X r env b y)
    (hr : NoneOf X r [c!"MIN", c!"MAX", c!"ABS"]) :
    (x ≠ .nan → y ≠ .nan → ¬((∃ s, x = .zero s) ∧ ∃ s, y = .zero s) →
      Rewrites X r env (choose (less a b) a b) (.call c!"MIN" [a, b]) ∧ Rewrites X r env (choose (less a b) b a) (.call c!"MAX" [a, b])) ∧
    (x ≠ .zero true → Rewrites X r env (choose (less a zero) (minus a) a) (on c!"ABS" a)) := by
  have nil : Number X r env zero (.zero false) := ⟨by rw [zero, Eval.eval], trivial⟩
  have hl : ∀ {c d : Expr} {z w : F64}, Number X r env c z → Number X r env d w → Eval.eval X (less c d) r env = .ok (.bool (F64.flt z w)) := by
    intro c d z w hc hd
    simp only [less, Eval.eval, hc.1, hd.1, bind, Except.bind, Ops.binary]
    rfl
  have args : Args X r env [a, b] [.num x, .num y] := .plain (Laws.notSpread_of_ok ha.1) ha.1 (.plain (Laws.notSpread_of_ok hb.1) hb.1 .nil)
  unfold Rewrites
  constructor
  · intro hx hy hz
    have hmin : execFast X c!"MIN" [.num x, .num y] = .ok (.num (F64.fmin x y)) := rfl
    have hmax : execFast X c!"MAX" [.num x, .num y] = .ok (.num (F64.fmax x y)) := rfl
    rw [call_exec X _ r env _ _ (by decide) (hr _ (by simp)) args, call_exec X _ r env _ _ (by decide) (hr _ (by simp)) args, hmin, hmax]
    simp only [choose_eval, hl ha hb, bind, Except.bind, Value.asBool, ha.1, hb.1]
    have emin : F64.fmin x y = if F64.flt y x then y else x := by cases x <;> cases y <;> simp_all [F64.fmin]
    have emax : F64.fmax x y = if F64.flt x y then y else x := by cases x <;> cases y <;> simp_all [F64.fmax]
    rw [emin, emax]
    cases h : F64.flt x y with
    | true => rw [flt_asymm' h]; exact ⟨rfl, rfl⟩
    | false =>
      cases h' : F64.flt y x with
      | true => exact ⟨rfl, rfl⟩
      | false => rw [flt_eq hx hy hz ha.2 hb.2 h h']; exact ⟨rfl, rfl⟩
  · intro hx
    have habs : execFast X c!"ABS" [.num x] = .ok (.num (F64.abs x)) := rfl
    rw [Laws.on_ok (by decide) (hr _ (by simp)) ha.1, habs]
    simp only [choose_eval, hl ha nil, bind, Except.bind, Value.asBool, ha.1, (unary_num ha).1.1]
    cases x with
    | nan => rfl
    | inf s => cases s <;> rfl
    | zero s => cases s with
      | false => rfl
      | true => exact absurd rfl hx
    | fin q =>
      simp only [F64.flt, F64.neg, F64.abs]
      by_cases hq : q < 0 <;> simp [hq, F64.toRat]

/-- Cases of the conditions: `:a` is a number other than zero and `:t` is true. -/
example (X : Ext) (r : Option Registry) :
    let env := (Env.empty.insert c!"a" (.num (.fin 3))).insert c!"t" (.bool true)
    Number X r env (.var c!"a") (.fin 3) ∧ Truth X r env (.var c!"t") ∧ ∀ s, Eval.eval X (add (.var c!"a") (.var c!"a")) r env ≠ .ok (.num (.zero s)) := by
  have h : Number X r ((Env.empty.insert c!"a" (.num (.fin 3))).insert c!"t" (.bool true)) (.var c!"a") (.fin 3) :=
    ⟨by simp [Eval.eval, Env.insert], by norm_num, 3, 0, by norm_num, by norm_num, by norm_num, by norm_num⟩
  refine ⟨h, ⟨true, by simp [Eval.eval, Env.insert]⟩, ?_⟩
  intro s
  rw [(binary_num h h).1]
  have : F64.add (.fin 3) (.fin 3) = .fin 6 := by decide +kernel
  rw [this]
  simp

/-- **C148.** What does not hold of doubles: regrouping sums and products, multiplying out, and multiplying by what was divided by. -/
theorem C148_not_laws (X : Ext) :
    evaluate X c!"(0.1 + 0.2) + 0.3 == 0.1 + (0.2 + 0.3)" = .ok (.bool false) ∧
    evaluate X c!"(0.1 * 0.1) * 0.3 == 0.1 * (0.1 * 0.3)" = .ok (.bool false) ∧
    evaluate X c!"3 * (0.1 + 0.3) == 3 * 0.1 + 3 * 0.3" = .ok (.bool false) ∧
    evaluate X c!"1 / 49 * 49 == 1" = .ok (.bool false) ∧
    evaluate X c!"(9007199254740992 + 1) - 1 == 9007199254740992" = .ok (.bool false) := ⟨by kernel_rfl, by kernel_rfl, by kernel_rfl, by kernel_rfl, by kernel_rfl⟩

end Identities
