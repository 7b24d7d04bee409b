import Verif.Lemmas.ParseMono
/-! The parser's result depends on the tokens only, not on their positions (except in error positions). -/

namespace Parser

/-- The same failure up to the position. -/
def FSim : Option Fail → Option Fail → Prop
  | none, none => True
  | some (.err m a _), some (.err m' a' _) => m = m' ∧ a = a'
  | some (.panic w), some (.panic w') => w = w'
  | _, _ => False

/-- The same tokens. -/
def TSim : Toks → Toks → Prop
  | .eof _, .eof _ => True
  | .bad f, .bad f' => FSim f f'
  | .cons t _ r, .cons t' _ r' => t = t' ∧ TSim r r'
  | _, _ => False

/-- The same lookahead and the same tokens to come. -/
def SSim (s s' : St) : Prop := s.look = s'.look ∧ TSim s.rest s'.rest

/-- The same outcome of a parsing function. -/
def RSim {α : Type} (R : α → α → Prop) : PRes α → PRes α → Prop
  | .ok a, .ok a' => R a a'
  | .error f, .error f' => FSim f f'
  | _, _ => False

/-- The same result and the same tokens to come. -/
def VSim {α : Type} (a a' : α × St) : Prop := a.1 = a'.1 ∧ SSim a.2 a'.2

theorem RSim.bind {α β : Type} {R : α → α → Prop} {Q : β → β → Prop} {r r' : PRes α} {k k' : α → PRes β}
    (h : RSim R r r') (hk : ∀ a a', R a a' → RSim Q (k a) (k' a')) : RSim Q (r >>= k) (r' >>= k') := by
  cases r with
  | ok a => cases r' with
    | ok a' => exact hk a a' h
    | error f => exact h.elim
  | error f => cases r' with
    | ok a' => exact h.elim
    | error f' => exact h

theorem RSim.bump {s s' : St} (h : SSim s s') : RSim SSim (Parser.bump s) (Parser.bump s') := by
  obtain ⟨_, h⟩ := h
  unfold Parser.bump
  generalize s.rest = a at *
  generalize s'.rest = b at *
  cases a <;> cases b <;> simp only [TSim] at h
  · exact ⟨rfl, trivial⟩
  · exact h
  · exact h

theorem RSim.err {α : Type} {R : α → α → Prop} {s s' : St} (m : String) :
    RSim R (Parser.err s m : PRes α) (Parser.err s' m) := ⟨rfl, rfl⟩

theorem RSim.errN {α : Type} {R : α → α → Prop} (m : String) :
    RSim R (.error (some (Fail.err m [] none)) : PRes α) (.error (some (Fail.err m [] none))) := ⟨rfl, rfl⟩

theorem RSim.pure {α : Type} {v : α} {s s' : St} (h : SSim s s') :
    RSim VSim (Pure.pure (v, s) : PRes (α × St)) (Pure.pure (v, s')) := ⟨rfl, h⟩

theorem isAssign_sim {s s' : St} (h : SSim s s') : isAssign s = isAssign s' := by
  obtain ⟨_, h⟩ := h
  unfold isAssign
  generalize s.rest = a at *
  generalize s'.rest = b at *
  cases a with
  | eof p => cases b <;> first | rfl | exact False.elim h
  | bad p => cases b <;> first | rfl | exact False.elim h
  | cons t p r =>
    cases b with
    | eof p => exact h.elim
    | bad p => exact h.elim
    | cons t' p' r' =>
      obtain ⟨rfl, h⟩ := h
      cases r with
      | eof p => cases r' <;> first | (cases t <;> rfl) | exact False.elim h
      | bad p => cases r' <;> first | (cases t <;> rfl) | exact False.elim h
      | cons u q r =>
        cases r' with
        | eof p => exact h.elim
        | bad p => exact h.elim
        | cons u' q' r' =>
          obtain ⟨rfl, h⟩ := h
          cases t <;> cases u <;> rfl

structure Sim (n : Nat) : Prop where
  expr : ∀ s s', SSim s s' → RSim VSim (expr n s) (expr n s')
  ternary : ∀ s s', SSim s s' → RSim VSim (ternary n s) (ternary n s')
  level : ∀ k s s', SSim s s' → RSim VSim (level n k s) (level n k s')
  levelLoop : ∀ k e s s', SSim s s' → RSim VSim (levelLoop n k e s) (levelLoop n k e s')
  unary : ∀ s s', SSim s s' → RSim VSim (unary n s) (unary n s')
  power : ∀ s s', SSim s s' → RSim VSim (power n s) (power n s')
  castE : ∀ s s', SSim s s' → RSim VSim (castE n s) (castE n s')
  postfixE : ∀ s s', SSim s s' → RSim VSim (postfixE n s) (postfixE n s')
  postLoop : ∀ e s s', SSim s s' → RSim VSim (postLoop n e s) (postLoop n e s')
  sliceEnd : ∀ s s', SSim s s' → RSim VSim (sliceEnd n s) (sliceEnd n s')
  args : ∀ m s s', SSim s s' → RSim VSim (args n m s) (args n m s')
  argsLoop : ∀ m s s', SSim s s' → RSim VSim (argsLoop n m s) (argsLoop n m s')
  arg : ∀ s s', SSim s s' → RSim VSim (arg n s) (arg n s')
  itemsLoop : ∀ s s', SSim s s' → RSim VSim (itemsLoop n s) (itemsLoop n s')
  membersLoop : ∀ s s', SSim s s' → RSim VSim (membersLoop n s) (membersLoop n s')
  atom : ∀ s s', SSim s s' → RSim VSim (atom n s) (atom n s')

/-- After a `bind`: name the two states, and rewrite the lookahead of the first into that of the second. -/
macro "sim_intro" : tactic => `(tactic| (
  rintro ⟨_, s1⟩ ⟨_, s2⟩ ⟨h1, h2⟩; simp only at h1 h2; subst h1; (try simp only); (try rw [h2.1])))

macro "sim_bump" : tactic => `(tactic| (
  intro s1 s2 h2; (try simp only); (try rw [h2.1])))

macro "sim_step" ih:term : tactic => `(tactic| (
  repeat' first
    | exact RSim.err _
    | exact RSim.pure (by assumption)
    | exact RSim.errN _
    | exact ($ih).expr _ _ (by assumption)
    | exact ($ih).ternary _ _ (by assumption)
    | exact ($ih).level _ _ _ (by assumption)
    | exact ($ih).levelLoop _ _ _ _ (by assumption)
    | exact ($ih).unary _ _ (by assumption)
    | exact ($ih).power _ _ (by assumption)
    | exact ($ih).castE _ _ (by assumption)
    | exact ($ih).postfixE _ _ (by assumption)
    | exact ($ih).postLoop _ _ _ (by assumption)
    | exact ($ih).sliceEnd _ _ (by assumption)
    | exact ($ih).args _ _ _ (by assumption)
    | exact ($ih).argsLoop _ _ _ (by assumption)
    | exact ($ih).arg _ _ (by assumption)
    | exact ($ih).itemsLoop _ _ (by assumption)
    | exact ($ih).membersLoop _ _ (by assumption)
    | exact ($ih).atom _ _ (by assumption)
    | (refine RSim.bind (RSim.bump (by assumption)) ?_; sim_bump)
    | (refine RSim.bind (($ih).expr _ _ (by assumption)) ?_; sim_intro)
    | (refine RSim.bind (($ih).ternary _ _ (by assumption)) ?_; sim_intro)
    | (refine RSim.bind (($ih).level _ _ _ (by assumption)) ?_; sim_intro)
    | (refine RSim.bind (($ih).unary _ _ (by assumption)) ?_; sim_intro)
    | (refine RSim.bind (($ih).castE _ _ (by assumption)) ?_; sim_intro)
    | (refine RSim.bind (($ih).postfixE _ _ (by assumption)) ?_; sim_intro)
    | (refine RSim.bind (($ih).sliceEnd _ _ (by assumption)) ?_; sim_intro)
    | (refine RSim.bind (($ih).args _ _ _ (by assumption)) ?_; sim_intro)
    | (refine RSim.bind (($ih).argsLoop _ _ _ (by assumption)) ?_; sim_intro)
    | (refine RSim.bind (($ih).arg _ _ (by assumption)) ?_; sim_intro)
    | (refine RSim.bind (($ih).itemsLoop _ _ (by assumption)) ?_; sim_intro)
    | (refine RSim.bind (($ih).membersLoop _ _ (by assumption)) ?_; sim_intro)
    | (refine RSim.bind (($ih).atom _ _ (by assumption)) ?_; sim_intro)
    | split))

theorem sim : ∀ n, Sim n := by
  intro n
  induction n with
  | zero =>
    constructor <;> intros <;> 
      first
        | (rw [expr, expr]; trivial) | (rw [ternary, ternary]; trivial) | (rw [level, level]; trivial) | (rw [levelLoop, levelLoop]; trivial) | (rw [unary, unary]; trivial) | (rw [power, power]; trivial) | (rw [castE, castE]; trivial) | (rw [postfixE, postfixE]; trivial) | (rw [postLoop, postLoop]; trivial) | (rw [sliceEnd, sliceEnd]; trivial) | (rw [args, args]; trivial) | (rw [argsLoop, argsLoop]; trivial) | (rw [arg, arg]; trivial) | (rw [itemsLoop, itemsLoop]; trivial) | (rw [membersLoop, membersLoop]; trivial) | (rw [atom, atom]; trivial)
  | succ n ih =>
    constructor
    · intro s s' h; rw [expr.eq_2, expr.eq_2, h.1, isAssign_sim h]; sim_step ih
    · intro s s' h; rw [ternary.eq_2, ternary.eq_2]; sim_step ih
    · intro k s s' h; rw [level.eq_2, level.eq_2]; sim_step ih
    · intro k e s s' h; rw [levelLoop.eq_2, levelLoop.eq_2, h.1]; sim_step ih
    · intro s s' h; rw [unary.eq_2, unary.eq_2, h.1]; sim_step ih
    · intro s s' h; rw [power.eq_2, power.eq_2]; sim_step ih
    · intro s s' h; rw [castE.eq_2, castE.eq_2]; sim_step ih
    · intro s s' h; rw [postfixE.eq_2, postfixE.eq_2]; sim_step ih
    · intro e s s' h; rw [postLoop.eq_2, postLoop.eq_2, h.1]; sim_step ih
    · intro s s' h; rw [sliceEnd.eq_2, sliceEnd.eq_2]; sim_step ih
    · intro m s s' h; rw [args.eq_2, args.eq_2, h.1]; sim_step ih
    · intro m s s' h; rw [argsLoop.eq_2, argsLoop.eq_2]; sim_step ih
    · intro s s' h; rw [arg.eq_2, arg.eq_2, h.1]; sim_step ih
    · intro s s' h; rw [itemsLoop.eq_2, itemsLoop.eq_2]; sim_step ih
    · intro s s' h; rw [membersLoop.eq_2, membersLoop.eq_2, h.1]
      refine RSim.bind (R := VSim) ?_ ?_
      · sim_step ih
      · sim_intro; sim_step ih
    · intro s s' h; rw [atom.eq_2, atom.eq_2, h.1]; sim_step ih

end Parser

namespace Parser

theorem stmts_sim : ∀ (n : Nat) (s s' : St), SSim s s' → RSim VSim (stmts n s) (stmts n s') := by
  intro n
  induction n with
  | zero => intro s s' _; exact trivial
  | succ n ih =>
    intro s s' h
    rw [stmts.eq_2, stmts.eq_2, h.1]
    split
    · refine RSim.bind (RSim.bump h) ?_
      intro s1 s2 h2
      simp only
      rw [h2.1]
      split
      · exact RSim.pure h2
      · refine RSim.bind ((sim n).expr _ _ h2) ?_
        sim_intro
        refine RSim.bind (ih _ _ (by assumption)) ?_
        sim_intro
        exact RSim.pure (by assumption)
    · exact RSim.pure h

theorem program_sim (n : Nat) (s s' : St) (h : SSim s s') : RSim VSim (program n s) (program n s') := by
  unfold program
  refine RSim.bind ((sim n).expr _ _ h) ?_
  sim_intro
  refine RSim.bind (stmts_sim n _ _ (by assumption)) ?_
  sim_intro
  split
  · exact RSim.pure (by assumption)
  · exact RSim.pure (by assumption)

end Parser
