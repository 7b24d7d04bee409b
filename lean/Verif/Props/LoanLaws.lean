import Verif.Props.SignLaws
import Verif.Props.Loans
/-! C155: lending is borrowing with the other sign, to the last bit. -/

namespace LoanLaws

open _root_.Spec Identities SignLaws SignLaws.Spec

namespace Spec

/-- The same failure, or numbers one of which is the other with the other sign, up to the sign of zero. -/
def Reversed (r s : Res Value) : Prop := (r = s ∧ ∃ e, r = .error e) ∨ Opposite r s

end Spec

open Spec

/-- `y` is `x` with the other sign, up to the sign of zero. -/
def Opp (x y : F64) : Prop := Alike (F64.neg x) y

theorem Opp.self (x : F64) : Opp x (F64.neg x) := .refl _
theorem Opp.zero (s t : Bool) : Opp (.zero s) (.zero t) := .inr ⟨_, _, rfl, rfl⟩
theorem Opp.neg {x y : F64} (h : Opp x y) : Opp (F64.neg x) (F64.neg y) := alike_neg h
theorem Opp.add {x y x' y' : F64} (h : Opp x x') (h' : Opp y y') : Opp (F64.add x y) (F64.add x' y') := (neg_add_alike x y).trans (alike_add h h')
theorem Opp.sub {x y x' y' : F64} (h : Opp x x') (h' : Opp y y') : Opp (F64.sub x y) (F64.sub x' y') := h.add h'.neg
theorem Opp.mul {x x' k : F64} (h : Opp x x') (hx : IsDouble x) (hk : IsDouble k) : Opp (F64.mul x k) (F64.mul x' k) := by
  unfold Opp
  rw [← neg_mul' hx hk]
  exact alike_mul h k
theorem Opp.div {x x' k : F64} (h : Opp x x') (hx : IsDouble x) (hk : IsDouble k) : Opp (F64.div x k) (F64.div x' k) := by
  unfold Opp
  rw [← Identities.neg_div' hx hk]
  exact alike_div h k

theorem one_double : IsDouble (.fin 1) := by exact ⟨by norm_num, 1, 0, by norm_num, by norm_num, by norm_num, by norm_num⟩

section
set_option linter.unusedSectionVars false
variable {X : Ext} (hp : ∀ a b, IsDouble (X.powf a b)) {rate nper : F64} (hr : IsDouble rate) (hn : IsDouble nper)
include hp hr

theorem payment_opp {a b a' b' : F64} (ha : IsDouble a) (hb : IsDouble b) (h : Opp a a') (h' : Opp b b') (t : Bool) :
    Opp (Fin'.payment (Fin'.f64Arith X) rate nper a b t) (Fin'.payment (Fin'.f64Arith X) rate nper a' b' t) := by
  unfold Fin'.payment
  exact (((h.mul ha (hp _ _)).add h').neg).div (neg_double (SignLaws.add_isDouble (F64.mul_isDouble _ _) hb)) (F64.mul_isDouble _ _)

include hn

theorem level_opp {a b a' b' : F64} (ha : IsDouble a) (hb : IsDouble b) (h : Opp a a') (h' : Opp b b') (t : Bool) :
    Opp (Fin'.level (Fin'.f64Arith X) rate nper a b t) (Fin'.level (Fin'.f64Arith X) rate nper a' b' t) := by
  unfold Fin'.level
  split
  · exact ((h.add h').neg).div (neg_double (SignLaws.add_isDouble ha hb)) hn
  · exact payment_opp hp hr ha hb h h' t

theorem future_opp {a b a' b' : F64} (ha : IsDouble a) (hb : IsDouble b) (h : Opp a a') (h' : Opp b b') (t : Bool) :
    Opp (Fin'.future (Fin'.f64Arith X) rate nper a b t) (Fin'.future (Fin'.f64Arith X) rate nper a' b' t) := by
  unfold Fin'.future
  split
  · exact h'.neg.sub (h.mul ha hn)
  · exact (h'.neg.mul (neg_double hb) (hp _ _)).sub (h.mul ha (F64.mul_isDouble _ _))

theorem balance_opp {p p' : F64} (hpp : IsDouble p) (h : Opp p p') (t : Bool) (k : ℕ) : ∀ {b b' : F64}, IsDouble b → Opp b b' →
    Opp (Fin'.balanceLoop (Fin'.f64Arith X) rate p t k b) (Fin'.balanceLoop (Fin'.f64Arith X) rate p' t k b') ∧
    IsDouble (Fin'.balanceLoop (Fin'.f64Arith X) rate p t k b) := by
  induction k with
  | zero => intro b b' hb h; exact ⟨h, hb⟩
  | succ k ih =>
    intro b b' hb hbb
    simp only [Fin'.balanceLoop]
    have hm : Opp (F64.mul b rate) (F64.mul b' rate) := hbb.mul hb hr
    have hd : IsDouble (F64.mul b rate) := F64.mul_isDouble _ _
    have h1 : IsDouble (F64.add (.fin 1) rate) := SignLaws.add_isDouble one_double hr
    refine ih ?_ ?_
    · refine SignLaws.add_isDouble hb ?_
      split
      · exact SignLaws.add_isDouble hpp (neg_double (F64.div_isDouble _ _))
      · exact SignLaws.add_isDouble hpp (neg_double hd)
    · refine hbb.add ?_
      split
      · exact h.sub (hm.div hd h1)
      · exact h.sub hm

theorem interest_opp {a b a' b' : F64} (ha : IsDouble a) (hb : IsDouble b) (h : Opp a a') (h' : Opp b b') (t f : Bool) (k : ℕ) :
    Opp (Fin'.interest (Fin'.f64Arith X) rate k f nper a b t) (Fin'.interest (Fin'.f64Arith X) rate k f nper a' b' t) := by
  unfold Fin'.interest
  split
  · exact .zero _ _
  · simp only
    split
    · exact .zero _ _
    · have := balance_opp hp hr hn (p := Fin'.payment (Fin'.f64Arith X) rate nper a b t) (F64.div_isDouble _ _) (payment_opp hp hr ha hb h h' t) t k ha h
      exact this.1.mul this.2 hr

end

/-- **C155.** Who lends instead of borrowing has the same payments, final balance and parts of interest with the other sign, to the last bit: changing the sign of the amounts given
to `PMT`, `FV` and `IPMT` changes the sign of the result, at every rate, number of periods and kind of payment, and what is refused is refused in the same way.
Powers are only assumed to be doubles. -/
theorem C155_direction (X : Ext) (hp : ∀ a b, IsDouble (X.powf a b)) (rate nper per a b : F64) (ty : Value) (hr : IsDouble rate) (hn : IsDouble nper) (ha : IsDouble a) (hb : IsDouble b) :
    Reversed (fn X c!"PMT" [.num rate, .num nper, .num a, .num b, ty]) (fn X c!"PMT" [.num rate, .num nper, .num (F64.neg a), .num (F64.neg b), ty]) ∧
    Reversed (fn X c!"FV" [.num rate, .num nper, .num a, .num b, ty]) (fn X c!"FV" [.num rate, .num nper, .num (F64.neg a), .num (F64.neg b), ty]) ∧
    Reversed (fn X c!"IPMT" [.num rate, .num per, .num nper, .num a, .num b, ty]) (fn X c!"IPMT" [.num rate, .num per, .num nper, .num (F64.neg a), .num (F64.neg b), ty]) := by
  refine ⟨?_, ?_, ?_⟩
  · have e : ∀ c d : F64, fn X c!"PMT" [.num rate, .num nper, .num c, .num d, ty] = if F64.fle nper (.zero false) then fail "PMT nper must be positive" else
        .ok (.num (Fin'.level (Fin'.f64Arith X) rate nper c d (F64.fne (ty.asNumber.getD (.zero false)) (.zero false)))) := by
      intro c d; rw [fn_eq X _ _ (by decide)]; rfl
    rw [e, e]
    split
    · exact .inl ⟨rfl, _, rfl⟩
    · exact .inr ⟨_, _, rfl, rfl, level_opp hp hr hn ha hb (.self a) (.self b) _⟩
  · have e : ∀ c d : F64, fn X c!"FV" [.num rate, .num nper, .num c, .num d, ty] = if F64.flt nper (.zero false) then fail "FV nper must be non-negative" else
        .ok (.num (Fin'.future (Fin'.f64Arith X) rate nper c d (F64.fne (ty.asNumber.getD (.zero false)) (.zero false)))) := by
      intro c d; rw [fn_eq X _ _ (by decide)]; rfl
    rw [e, e]
    split
    · exact .inl ⟨rfl, _, rfl⟩
    · exact .inr ⟨_, _, rfl, rfl, future_opp hp hr hn ha hb (.self a) (.self b) _⟩
  · have e : ∀ c d : F64, fn X c!"IPMT" [.num rate, .num per, .num nper, .num c, .num d, ty] = if F64.flt per (.fin 1) || F64.fgt per nper || F64.fle nper (.zero false) then
        fail "IPMT period must be between 1 and nper" else .ok (.num (Fin'.interest (Fin'.f64Arith X) rate (per.toI32 - 1).toNat (F64.feq per (.fin 1)) nper c d
          (F64.fne (ty.asNumber.getD (.zero false)) (.zero false)))) := by
      intro c d; rw [fn_eq X _ _ (by decide)]; rfl
    rw [e, e]
    split
    · exact .inl ⟨rfl, _, rfl⟩
    · exact .inr ⟨_, _, rfl, rfl, interest_opp hp hr hn ha hb (.self a) (.self b) _ _ _⟩

/-- **C155.** An optional argument that is left out is zero: no final value, payments at the end. -/
theorem C155_defaults (X : Ext) (r n a b p : Value) :
    fn X c!"PMT" [r, n, a] = fn X c!"PMT" [r, n, a, .num (.zero false)] ∧ fn X c!"PMT" [r, n, a, b] = fn X c!"PMT" [r, n, a, b, .num (.zero false)] ∧
    fn X c!"FV" [r, n, a] = fn X c!"FV" [r, n, a, .num (.zero false)] ∧ fn X c!"FV" [r, n, a, b] = fn X c!"FV" [r, n, a, b, .num (.zero false)] ∧
    fn X c!"IPMT" [r, p, n, a] = fn X c!"IPMT" [r, p, n, a, .num (.zero false)] ∧ fn X c!"IPMT" [r, p, n, a, b] = fn X c!"IPMT" [r, p, n, a, b, .num (.zero false)] ∧
    fn X c!"DB" [r, n, a, b] = fn X c!"DB" [r, n, a, b, .num (.fin 12)] := by
  refine ⟨?_, ?_, ?_, ?_, ?_, ?_, ?_⟩ <;> (rw [fn_eq X _ _ (by decide), fn_eq X _ _ (by decide)]; rfl)

/-- The hypotheses of `C155_direction` are met, with a payment other than zero: 1200 in 12 periods without interest. -/
example (X : Ext) (h : X.powf = fun _ _ => .fin 1) : (∀ a b, IsDouble (X.powf a b)) ∧ IsDouble (.fin 12) ∧ IsDouble (.fin 1200) ∧
    fn X c!"PMT" [.num (.zero false), .num (.fin 12), .num (.fin 1200), .num (.zero false), .null] = .ok (.num (.fin (-100))) := by
  refine ⟨fun a b => by rw [h]; exact one_double, ?_, ?_, by kernel_rfl⟩
  · exact ⟨by norm_num, 12, 0, by norm_num, by norm_num, by norm_num, by norm_num⟩
  · exact ⟨by norm_num, 1200, 0, by norm_num, by norm_num, by norm_num, by norm_num⟩

end LoanLaws
