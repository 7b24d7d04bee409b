import Verif.Lemmas.ParseFuel
/-! More fuel never changes a result of the parser. -/

namespace Parser

/-- `r'` is `r`, unless `r` ran out of fuel. -/
def Le {α : Type} (r r' : PRes α) : Prop := r = .error none ∨ r = r'

theorem Le.refl {α : Type} (r : PRes α) : Le r r := .inr rfl

theorem Le.trans {α : Type} {a b c : PRes α} (h1 : Le a b) (h2 : Le b c) : Le a c := by
  rcases h1 with h | h
  · exact .inl h
  · subst h; exact h2

theorem Le.bind {α β : Type} {r r' : PRes α} {k k' : α → PRes β} (h : Le r r')
    (hk : ∀ a, Le (k a) (k' a)) : Le (r >>= k) (r' >>= k') := by
  rcases h with h | h
  · subst h; exact .inl rfl
  · subst h
    cases r with
    | ok a => exact hk a
    | error f => exact .inr rfl

theorem Le.bindR {α β : Type} {r : PRes α} {k k' : α → PRes β}
    (hk : ∀ a, Le (k a) (k' a)) : Le (r >>= k) (r >>= k') := Le.bind (Le.refl r) hk

structure Mono (n : Nat) : Prop where
  expr : ∀ s, Le (expr n s) (expr (n + 1) s)
  ternary : ∀ s, Le (ternary n s) (ternary (n + 1) s)
  level : ∀ k s, Le (level n k s) (level (n + 1) k s)
  levelLoop : ∀ k e s, Le (levelLoop n k e s) (levelLoop (n + 1) k e s)
  unary : ∀ s, Le (unary n s) (unary (n + 1) s)
  power : ∀ s, Le (power n s) (power (n + 1) s)
  castE : ∀ s, Le (castE n s) (castE (n + 1) s)
  postfixE : ∀ s, Le (postfixE n s) (postfixE (n + 1) s)
  postLoop : ∀ e s, Le (postLoop n e s) (postLoop (n + 1) e s)
  sliceEnd : ∀ s, Le (sliceEnd n s) (sliceEnd (n + 1) s)
  args : ∀ m s, Le (args n m s) (args (n + 1) m s)
  argsLoop : ∀ m s, Le (argsLoop n m s) (argsLoop (n + 1) m s)
  arg : ∀ s, Le (arg n s) (arg (n + 1) s)
  itemsLoop : ∀ s, Le (itemsLoop n s) (itemsLoop (n + 1) s)
  membersLoop : ∀ s, Le (membersLoop n s) (membersLoop (n + 1) s)
  atom : ∀ s, Le (atom n s) (atom (n + 1) s)

macro "mono_step" ih:term : tactic => `(tactic| (
  repeat' first
    | exact Le.refl _
    | exact ($ih).expr _
    | exact ($ih).ternary _
    | exact ($ih).level _ _
    | exact ($ih).levelLoop _ _ _
    | exact ($ih).unary _
    | exact ($ih).power _
    | exact ($ih).castE _
    | exact ($ih).postfixE _
    | exact ($ih).postLoop _ _
    | exact ($ih).sliceEnd _
    | exact ($ih).args _ _
    | exact ($ih).argsLoop _ _
    | exact ($ih).arg _
    | exact ($ih).itemsLoop _
    | exact ($ih).membersLoop _
    | exact ($ih).atom _
    | (refine Le.bindR fun a => ?_)
    | (refine Le.bind (($ih).expr _) fun a => ?_)
    | (refine Le.bind (($ih).ternary _) fun a => ?_)
    | (refine Le.bind (($ih).level _ _) fun a => ?_)
    | (refine Le.bind (($ih).unary _) fun a => ?_)
    | (refine Le.bind (($ih).castE _) fun a => ?_)
    | (refine Le.bind (($ih).postfixE _) fun a => ?_)
    | (refine Le.bind (($ih).sliceEnd _) fun a => ?_)
    | (refine Le.bind (($ih).args _ _) fun a => ?_)
    | (refine Le.bind (($ih).argsLoop _ _) fun a => ?_)
    | (refine Le.bind (($ih).arg _) fun a => ?_)
    | (refine Le.bind (($ih).itemsLoop _) fun a => ?_)
    | (refine Le.bind (($ih).membersLoop _) fun a => ?_)
    | (refine Le.bind (($ih).atom _) fun a => ?_)
    | split))

theorem mono : ∀ n, Mono n := by
  intro n
  induction n with
  | zero =>
    constructor <;> intros <;> left <;>
      first | rw [expr] | rw [ternary] | rw [level] | rw [levelLoop] | rw [unary] | rw [power] | rw [castE] | rw [postfixE] | rw [postLoop] | rw [sliceEnd] | rw [args] | rw [argsLoop] | rw [arg] | rw [itemsLoop] | rw [membersLoop] | rw [atom]
  | succ n ih =>
    constructor
    · intro s; rw [expr.eq_2, expr.eq_2 (n := n + 1)]; mono_step ih
    · intro s; rw [ternary.eq_2, ternary.eq_2 (n := n + 1)]; mono_step ih
    · intro k s; rw [level.eq_2, level.eq_2 (n := n + 1)]; mono_step ih
    · intro k e s; rw [levelLoop.eq_2, levelLoop.eq_2 (n := n + 1)]; mono_step ih
    · intro s; rw [unary.eq_2, unary.eq_2 (n := n + 1)]; mono_step ih
    · intro s; rw [power.eq_2, power.eq_2 (n := n + 1)]; mono_step ih
    · intro s; rw [castE.eq_2, castE.eq_2 (n := n + 1)]; mono_step ih
    · intro s; rw [postfixE.eq_2, postfixE.eq_2 (n := n + 1)]; mono_step ih
    · intro e s; rw [postLoop.eq_2, postLoop.eq_2 (n := n + 1)]; mono_step ih
    · intro s; rw [sliceEnd.eq_2, sliceEnd.eq_2 (n := n + 1)]; mono_step ih
    · intro m s; rw [args.eq_2, args.eq_2 (n := n + 1)]; mono_step ih
    · intro m s; rw [argsLoop.eq_2, argsLoop.eq_2 (n := n + 1)]; mono_step ih
    · intro s; rw [arg.eq_2, arg.eq_2 (n := n + 1)]; mono_step ih
    · intro s; rw [itemsLoop.eq_2, itemsLoop.eq_2 (n := n + 1)]; mono_step ih
    · intro s; rw [membersLoop.eq_2, membersLoop.eq_2 (n := n + 1)]; mono_step ih
    · intro s; rw [atom.eq_2, atom.eq_2 (n := n + 1)]; mono_step ih

theorem stmts_mono (n : Nat) (s : St) : Le (stmts n s) (stmts (n + 1) s) := by
  induction n generalizing s with
  | zero => left; rw [stmts]
  | succ n ih =>
    rw [stmts.eq_2, stmts.eq_2 (n := n + 1)]
    split
    · refine Le.bindR fun a => ?_
      split
      · exact Le.refl _
      · refine Le.bind ((mono n).expr _) fun a => ?_
        exact Le.bind (ih _) fun a => Le.refl _
    · exact Le.refl _

theorem program_mono (n : Nat) (s : St) : Le (program n s) (program (n + 1) s) := by
  unfold program
  refine Le.bind ((mono n).expr _) fun a => ?_
  refine Le.bind (stmts_mono n _) fun a => ?_
  exact Le.refl _

theorem le_of_succ {α : Type} (f : Nat → PRes α) (h : ∀ n, Le (f n) (f (n + 1))) (n m : Nat) (hm : n ≤ m) :
    Le (f n) (f m) := by
  induction hm with
  | refl => exact Le.refl _
  | step _ ih => exact ih.trans (h _)

theorem program_stable (n m : Nat) (s : St) (h : n ≤ m) (hn : program n s ≠ .error none) :
    program m s = program n s := by
  rcases le_of_succ (fun n => program n s) (fun n => program_mono n s) n m h with h | h
  · exact absurd h hn
  · exact h.symm

end Parser
