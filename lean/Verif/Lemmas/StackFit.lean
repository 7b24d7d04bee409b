import Verif.Model.Stack
/-! The parser with a bounded stack gives what the parser gives, unless the stack is exhausted. -/

namespace Stack

/-- `r` is `r'`, unless the stack is exhausted, which it is not if `b`. -/
def Fit (b : Prop) {α : Type} (r r' : PRes α) : Prop := r = r' ∨ (¬ b ∧ r = overflow)

theorem Fit.refl {b : Prop} {α : Type} (r : PRes α) : Fit b r r := .inl rfl

theorem Fit.imp {b c : Prop} {α : Type} {r r' : PRes α} (h : Fit b r r') (i : c → b) : Fit c r r' := by
  rcases h with h | ⟨h, h'⟩
  · exact .inl h
  · exact .inr ⟨fun hc => h (i hc), h'⟩

theorem Fit.bind {b : Prop} {α β : Type} {r r' : PRes α} {k k' : α → PRes β} (h : Fit b r r')
    (hk : ∀ a, Fit b (k a) (k' a)) : Fit b (r >>= k) (r' >>= k') := by
  rcases h with h | ⟨hb, h⟩
  · subst h
    cases r with
    | ok a => exact hk a
    | error f => exact .inl rfl
  · subst h; exact .inr ⟨hb, rfl⟩

theorem Fit.bindR {b : Prop} {α β : Type} {r : PRes α} {k k' : α → PRes β}
    (hk : ∀ a, Fit b (k a) (k' a)) : Fit b (r >>= k) (r >>= k') := Fit.bind (Fit.refl r) hk

/-- The functions with a stack for `d` calls, compared with those of the parser. -/
structure Same (b : Prop) (n d : Nat) : Prop where
  expr : ∀ s, Fit b (expr n d s) (Parser.expr n s)
  ternary : ∀ s, Fit b (ternary n d s) (Parser.ternary n s)
  level : ∀ k s, Fit b (level n d k s) (Parser.level n k s)
  levelLoop : ∀ k e s, Fit b (levelLoop n d k e s) (Parser.levelLoop n k e s)
  unary : ∀ s, Fit b (unary n d s) (Parser.unary n s)
  power : ∀ s, Fit b (power n d s) (Parser.power n s)
  castE : ∀ s, Fit b (castE n d s) (Parser.castE n s)
  postfixE : ∀ s, Fit b (postfixE n d s) (Parser.postfixE n s)
  postLoop : ∀ e s, Fit b (postLoop n d e s) (Parser.postLoop n e s)
  sliceEnd : ∀ s, Fit b (sliceEnd n d s) (Parser.sliceEnd n s)
  args : ∀ m s, Fit b (args n d m s) (Parser.args n m s)
  argsLoop : ∀ m s, Fit b (argsLoop n d m s) (Parser.argsLoop n m s)
  arg : ∀ s, Fit b (arg n d s) (Parser.arg n s)
  itemsLoop : ∀ s, Fit b (itemsLoop n d s) (Parser.itemsLoop n s)
  membersLoop : ∀ s, Fit b (membersLoop n d s) (Parser.membersLoop n s)
  atom : ∀ s, Fit b (atom n d s) (Parser.atom n s)

/-- The functions with a stack for `d` calls, compared with those with one for `d + 1`. -/
structure More (b : Prop) (n d : Nat) : Prop where
  expr : ∀ s, Fit b (expr n d s) (expr n (d + 1) s)
  ternary : ∀ s, Fit b (ternary n d s) (ternary n (d + 1) s)
  level : ∀ k s, Fit b (level n d k s) (level n (d + 1) k s)
  levelLoop : ∀ k e s, Fit b (levelLoop n d k e s) (levelLoop n (d + 1) k e s)
  unary : ∀ s, Fit b (unary n d s) (unary n (d + 1) s)
  power : ∀ s, Fit b (power n d s) (power n (d + 1) s)
  castE : ∀ s, Fit b (castE n d s) (castE n (d + 1) s)
  postfixE : ∀ s, Fit b (postfixE n d s) (postfixE n (d + 1) s)
  postLoop : ∀ e s, Fit b (postLoop n d e s) (postLoop n (d + 1) e s)
  sliceEnd : ∀ s, Fit b (sliceEnd n d s) (sliceEnd n (d + 1) s)
  args : ∀ m s, Fit b (args n d m s) (args n (d + 1) m s)
  argsLoop : ∀ m s, Fit b (argsLoop n d m s) (argsLoop n (d + 1) m s)
  arg : ∀ s, Fit b (arg n d s) (arg n (d + 1) s)
  itemsLoop : ∀ s, Fit b (itemsLoop n d s) (itemsLoop n (d + 1) s)
  membersLoop : ∀ s, Fit b (membersLoop n d s) (membersLoop n (d + 1) s)
  atom : ∀ s, Fit b (atom n d s) (atom n (d + 1) s)

theorem Same.imp {b c : Prop} {n d : Nat} (h : Same b n d) (i : c → b) : Same c n d := by
  constructor <;> intros
  · exact (h.expr _).imp i
  · exact (h.ternary _).imp i
  · exact (h.level _ _).imp i
  · exact (h.levelLoop _ _ _).imp i
  · exact (h.unary _).imp i
  · exact (h.power _).imp i
  · exact (h.castE _).imp i
  · exact (h.postfixE _).imp i
  · exact (h.postLoop _ _).imp i
  · exact (h.sliceEnd _).imp i
  · exact (h.args _ _).imp i
  · exact (h.argsLoop _ _).imp i
  · exact (h.arg _).imp i
  · exact (h.itemsLoop _).imp i
  · exact (h.membersLoop _).imp i
  · exact (h.atom _).imp i

theorem More.imp {b c : Prop} {n d : Nat} (h : More b n d) (i : c → b) : More c n d := by
  constructor <;> intros
  · exact (h.expr _).imp i
  · exact (h.ternary _).imp i
  · exact (h.level _ _).imp i
  · exact (h.levelLoop _ _ _).imp i
  · exact (h.unary _).imp i
  · exact (h.power _).imp i
  · exact (h.castE _).imp i
  · exact (h.postfixE _).imp i
  · exact (h.postLoop _ _).imp i
  · exact (h.sliceEnd _).imp i
  · exact (h.args _ _).imp i
  · exact (h.argsLoop _ _).imp i
  · exact (h.arg _).imp i
  · exact (h.itemsLoop _).imp i
  · exact (h.membersLoop _).imp i
  · exact (h.atom _).imp i

macro "fit_step" ih:term : tactic => `(tactic| (
  repeat' first
    | exact Fit.refl _
    | exact ($ih).expr _
    | exact ($ih).ternary _
    | exact ($ih).level _ _
    | exact ($ih).levelLoop _ _ _
    | exact ($ih).unary _
    | exact ($ih).power _
    | exact ($ih).castE _
    | exact ($ih).postfixE _
    | exact ($ih).postLoop _ _
    | exact ($ih).sliceEnd _
    | exact ($ih).args _ _
    | exact ($ih).argsLoop _ _
    | exact ($ih).arg _
    | exact ($ih).itemsLoop _
    | exact ($ih).membersLoop _
    | exact ($ih).atom _
    | (refine Fit.bindR fun a => ?_)
    | (refine Fit.bind (($ih).expr _) fun a => ?_)
    | (refine Fit.bind (($ih).ternary _) fun a => ?_)
    | (refine Fit.bind (($ih).level _ _) fun a => ?_)
    | (refine Fit.bind (($ih).levelLoop _ _ _) fun a => ?_)
    | (refine Fit.bind (($ih).unary _) fun a => ?_)
    | (refine Fit.bind (($ih).power _) fun a => ?_)
    | (refine Fit.bind (($ih).castE _) fun a => ?_)
    | (refine Fit.bind (($ih).postfixE _) fun a => ?_)
    | (refine Fit.bind (($ih).postLoop _ _) fun a => ?_)
    | (refine Fit.bind (($ih).sliceEnd _) fun a => ?_)
    | (refine Fit.bind (($ih).args _ _) fun a => ?_)
    | (refine Fit.bind (($ih).argsLoop _ _) fun a => ?_)
    | (refine Fit.bind (($ih).arg _) fun a => ?_)
    | (refine Fit.bind (($ih).itemsLoop _) fun a => ?_)
    | (refine Fit.bind (($ih).membersLoop _) fun a => ?_)
    | (refine Fit.bind (($ih).atom _) fun a => ?_)
    | (split <;> (try simp only [*]))))

/-- With at least as much stack as fuel nothing is exhausted, and the result is that of the parser in any case unless
the stack is exhausted. -/
theorem same : ∀ n d, Same (n ≤ d) n d := by
  intro n
  induction n with
  | zero =>
    intro d
    constructor <;> intros <;> left <;>
      first | rw [expr, Parser.expr] | rw [ternary, Parser.ternary] | rw [level, Parser.level] | rw [levelLoop, Parser.levelLoop] | rw [unary, Parser.unary] | rw [power, Parser.power] | rw [castE, Parser.castE] | rw [postfixE, Parser.postfixE] | rw [postLoop, Parser.postLoop] | rw [sliceEnd, Parser.sliceEnd] | rw [args, Parser.args] | rw [argsLoop, Parser.argsLoop] | rw [arg, Parser.arg] | rw [itemsLoop, Parser.itemsLoop] | rw [membersLoop, Parser.membersLoop] | rw [atom, Parser.atom]
  | succ n ih =>
    intro d
    have hl := (ih d).imp (c := n + 1 ≤ d) (by omega)
    constructor
    · intro s
      cases d with
      | zero => right; exact ⟨by omega, by rw [expr]⟩
      | succ d =>
        have hd := (ih d).imp (c := n + 1 ≤ d + 1) (by omega)
        rw [expr.eq_3, Parser.expr.eq_2]; fit_step hd
    · intro s
      cases d with
      | zero => right; exact ⟨by omega, by rw [ternary]⟩
      | succ d =>
        have hd := (ih d).imp (c := n + 1 ≤ d + 1) (by omega)
        rw [ternary.eq_3, Parser.ternary.eq_2]; fit_step hd
    · intro k s
      cases d with
      | zero =>
        rw [level.eq_2, Parser.level.eq_2]
        split
        · exact hl.unary _
        · right; exact ⟨by omega, rfl⟩
      | succ d =>
        have hd := (ih d).imp (c := n + 1 ≤ d + 1) (by omega)
        rw [level.eq_3, Parser.level.eq_2]
        split
        · exact hl.unary _
        · fit_step hd
    · intro k e s
      rw [levelLoop.eq_2, Parser.levelLoop.eq_2]; fit_step hl
    · intro s
      cases d with
      | zero => right; exact ⟨by omega, by rw [unary]⟩
      | succ d =>
        have hd := (ih d).imp (c := n + 1 ≤ d + 1) (by omega)
        rw [unary.eq_3, Parser.unary.eq_2]; fit_step hd
    · intro s
      cases d with
      | zero => right; exact ⟨by omega, by rw [power]⟩
      | succ d =>
        have hd := (ih d).imp (c := n + 1 ≤ d + 1) (by omega)
        rw [power.eq_3, Parser.power.eq_2]; fit_step hd
    · intro s
      cases d with
      | zero => right; exact ⟨by omega, by rw [castE]⟩
      | succ d =>
        have hd := (ih d).imp (c := n + 1 ≤ d + 1) (by omega)
        rw [castE.eq_3, Parser.castE.eq_2]; fit_step hd
    · intro s
      cases d with
      | zero => right; exact ⟨by omega, by rw [postfixE]⟩
      | succ d =>
        have hd := (ih d).imp (c := n + 1 ≤ d + 1) (by omega)
        rw [postfixE.eq_3, Parser.postfixE.eq_2]; fit_step hd
    · intro e s
      rw [postLoop.eq_2, Parser.postLoop.eq_2]; fit_step hl
    · intro s
      rw [sliceEnd.eq_2, Parser.sliceEnd.eq_2]; fit_step hl
    · intro m s
      rw [args.eq_2, Parser.args.eq_2]; fit_step hl
    · intro m s
      rw [argsLoop.eq_2, Parser.argsLoop.eq_2]; fit_step hl
    · intro s
      rw [arg.eq_2, Parser.arg.eq_2]; fit_step hl
    · intro s
      rw [itemsLoop.eq_2, Parser.itemsLoop.eq_2]; fit_step hl
    · intro s
      rw [membersLoop.eq_2, Parser.membersLoop.eq_2]; fit_step hl
    · intro s
      cases d with
      | zero => right; exact ⟨by omega, by rw [atom]⟩
      | succ d =>
        have hd := (ih d).imp (c := n + 1 ≤ d + 1) (by omega)
        rw [atom.eq_3, Parser.atom.eq_2]; fit_step hd

/-- More stack changes nothing unless it was exhausted. -/
theorem more : ∀ n d, More (n ≤ d) n d := by
  intro n
  induction n with
  | zero =>
    intro d
    constructor <;> intros <;> left <;>
      first | rw [expr, expr] | rw [ternary, ternary] | rw [level, level] | rw [levelLoop, levelLoop] | rw [unary, unary] | rw [power, power] | rw [castE, castE] | rw [postfixE, postfixE] | rw [postLoop, postLoop] | rw [sliceEnd, sliceEnd] | rw [args, args] | rw [argsLoop, argsLoop] | rw [arg, arg] | rw [itemsLoop, itemsLoop] | rw [membersLoop, membersLoop] | rw [atom, atom]
  | succ n ih =>
    intro d
    have hl := (ih d).imp (c := n + 1 ≤ d) (by omega)
    constructor
    · intro s
      cases d with
      | zero => right; exact ⟨by omega, by rw [expr]⟩
      | succ d =>
        have hd := (ih d).imp (c := n + 1 ≤ d + 1) (by omega)
        rw [expr.eq_3, expr.eq_3 (d := d + 1)]; fit_step hd
    · intro s
      cases d with
      | zero => right; exact ⟨by omega, by rw [ternary]⟩
      | succ d =>
        have hd := (ih d).imp (c := n + 1 ≤ d + 1) (by omega)
        rw [ternary.eq_3, ternary.eq_3 (d := d + 1)]; fit_step hd
    · intro k s
      cases d with
      | zero =>
        rw [level.eq_2, level.eq_3]
        split
        · exact hl.unary _
        · right; exact ⟨by omega, rfl⟩
      | succ d =>
        have hd := (ih d).imp (c := n + 1 ≤ d + 1) (by omega)
        rw [level.eq_3, level.eq_3 (d := d + 1)]
        split
        · exact hl.unary _
        · fit_step hd
    · intro k e s
      rw [levelLoop.eq_2, levelLoop.eq_2]; fit_step hl
    · intro s
      cases d with
      | zero => right; exact ⟨by omega, by rw [unary]⟩
      | succ d =>
        have hd := (ih d).imp (c := n + 1 ≤ d + 1) (by omega)
        rw [unary.eq_3, unary.eq_3 (d := d + 1)]; fit_step hd
    · intro s
      cases d with
      | zero => right; exact ⟨by omega, by rw [power]⟩
      | succ d =>
        have hd := (ih d).imp (c := n + 1 ≤ d + 1) (by omega)
        rw [power.eq_3, power.eq_3 (d := d + 1)]; fit_step hd
    · intro s
      cases d with
      | zero => right; exact ⟨by omega, by rw [castE]⟩
      | succ d =>
        have hd := (ih d).imp (c := n + 1 ≤ d + 1) (by omega)
        rw [castE.eq_3, castE.eq_3 (d := d + 1)]; fit_step hd
    · intro s
      cases d with
      | zero => right; exact ⟨by omega, by rw [postfixE]⟩
      | succ d =>
        have hd := (ih d).imp (c := n + 1 ≤ d + 1) (by omega)
        rw [postfixE.eq_3, postfixE.eq_3 (d := d + 1)]; fit_step hd
    · intro e s
      rw [postLoop.eq_2, postLoop.eq_2]; fit_step hl
    · intro s
      rw [sliceEnd.eq_2, sliceEnd.eq_2]; fit_step hl
    · intro m s
      rw [args.eq_2, args.eq_2]; fit_step hl
    · intro m s
      rw [argsLoop.eq_2, argsLoop.eq_2]; fit_step hl
    · intro s
      rw [arg.eq_2, arg.eq_2]; fit_step hl
    · intro s
      rw [itemsLoop.eq_2, itemsLoop.eq_2]; fit_step hl
    · intro s
      rw [membersLoop.eq_2, membersLoop.eq_2]; fit_step hl
    · intro s
      cases d with
      | zero => right; exact ⟨by omega, by rw [atom]⟩
      | succ d =>
        have hd := (ih d).imp (c := n + 1 ≤ d + 1) (by omega)
        rw [atom.eq_3, atom.eq_3 (d := d + 1)]; fit_step hd

theorem stmts_same (n d : Nat) (s : St) : Fit (n ≤ d) (stmts n d s) (Parser.stmts n s) := by
  induction n generalizing s with
  | zero => left; rw [stmts, Parser.stmts]
  | succ n ih =>
    have h := (same n d).imp (c := n + 1 ≤ d) (by omega)
    rw [stmts.eq_2, Parser.stmts.eq_2]
    split
    · refine Fit.bindR fun a => ?_
      split
      · exact Fit.refl _
      · refine Fit.bind (h.expr _) fun a => ?_
        exact Fit.bind ((ih _).imp (by omega)) fun a => Fit.refl _
    · exact Fit.refl _

theorem program_same (n d : Nat) (s : St) : Fit (n ≤ d) (program n d s) (Parser.program n s) := by
  unfold program Parser.program
  refine Fit.bind ((same n d).expr _) fun a => ?_
  refine Fit.bind (stmts_same n d _) fun a => ?_
  exact Fit.refl _

theorem stmts_more (n d : Nat) (s : St) : Fit (n ≤ d) (stmts n d s) (stmts n (d + 1) s) := by
  induction n generalizing s with
  | zero => left; rw [stmts, stmts]
  | succ n ih =>
    have h := (more n d).imp (c := n + 1 ≤ d) (by omega)
    rw [stmts.eq_2, stmts.eq_2]
    split
    · refine Fit.bindR fun a => ?_
      split
      · exact Fit.refl _
      · refine Fit.bind (h.expr _) fun a => ?_
        exact Fit.bind ((ih _).imp (by omega)) fun a => Fit.refl _
    · exact Fit.refl _

theorem program_more (n d : Nat) (s : St) : Fit (n ≤ d) (program n d s) (program n (d + 1) s) := by
  unfold program
  refine Fit.bind ((more n d).expr _) fun a => ?_
  refine Fit.bind (stmts_more n d _) fun a => ?_
  exact Fit.refl _

end Stack
