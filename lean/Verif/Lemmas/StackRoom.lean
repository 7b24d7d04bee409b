import Verif.Lemmas.StackFit
import Verif.Lemmas.LexFuel
/-! How much stack is enough: 13 calls, and 13 more for every token that can open a nested expression. -/

namespace Stack

/-- The tokens after which the parser can nest one more expression. -/
def wt : Token → Nat
  | .lparen | .lbracket | .lbrace | .qmark | .caret | .bang | .plus | .minus => 1
  | _ => 0

/-- How many of them are still to be read. -/
def wts : Toks → Nat
  | .eof _ => 0
  | .bad _ => 0
  | .cons t _ r => wt t + wts r

/-- The same, with the lookahead. -/
def ahead (s : St) : Nat := wt s.look + wts s.rest

/-- The same result, which leaves at most `o` of them. -/
def Both {α : Type} (o : Nat) (r r' : PRes (α × St)) : Prop := r = r' ∧ ∀ a s', r' = .ok (a, s') → ahead s' ≤ o

theorem Both.le {α : Type} {o p : Nat} {r r' : PRes (α × St)} (h : Both o r r') (hp : o ≤ p) : Both p r r' :=
  ⟨h.1, fun a s' e => Nat.le_trans (h.2 a s' e) hp⟩

theorem Both.bind {α β : Type} {o p : Nat} {r r' : PRes (α × St)} {k k' : α × St → PRes (β × St)} (h : Both o r r')
    (hk : ∀ a s', ahead s' ≤ o → Both p (k (a, s')) (k' (a, s'))) : Both p (r >>= k) (r' >>= k') := by
  obtain ⟨h1, h2⟩ := h
  subst h1
  cases r with
  | ok a => exact hk a.1 a.2 (h2 _ _ rfl)
  | error f => exact ⟨rfl, by intro a s' e; cases e⟩

theorem bump_ahead {s s' : St} (h : Parser.bump s = .ok s') : ahead s' + wt s.look ≤ ahead s := by
  unfold Parser.bump at h
  unfold ahead
  split at h
  · rename_i t p r hr; cases h; rw [hr]; simp only [wts]; omega
  · rename_i hr; cases h; rw [hr]; simp [wts, wt]
  · cases h

theorem prefix_wt {t : Token} {op : UnaryOp} (h : Parser.prefixOp t = some op) : wt t = 1 := by
  cases t <;> simp [Parser.prefixOp] at h <;> rfl

theorem Both.bump {β : Type} {s : St} {p : Nat} {k k' : St → PRes (β × St)}
    (hk : ∀ s', ahead s' + wt s.look ≤ ahead s → Both p (k s') (k' s')) :
    Both p (Parser.bump s >>= k) (Parser.bump s >>= k') := by
  cases h : Parser.bump s with
  | ok a => exact hk a (bump_ahead h)
  | error f => exact ⟨rfl, by intro a s' e; cases e⟩

theorem Both.pure {α : Type} {a : α} {s : St} {p : Nat} (h : ahead s ≤ p) : Both p (Pure.pure (a, s)) (Pure.pure (a, s)) :=
  ⟨rfl, by intro b s' e; cases e; exact h⟩

theorem Both.err {α : Type} {s : St} {m : String} {p : Nat} : Both (α := α) p (Parser.err s m) (Parser.err s m) :=
  ⟨rfl, by intro b s' e; cases e⟩

theorem Both.error {α : Type} {f : Option Fail} {p : Nat} : Both (α := α) p (.error f) (.error f) :=
  ⟨rfl, by intro b s' e; cases e⟩

/-- Enough stack for every function. -/
structure Room (n : Nat) : Prop where
  expr : ∀ d s, 13 + 13 * ahead s ≤ d → Both (ahead s) (expr n d s) (Parser.expr n s)
  ternary : ∀ d s, 12 + 13 * ahead s ≤ d → Both (ahead s) (ternary n d s) (Parser.ternary n s)
  level : ∀ d k s, 11 - k + 13 * ahead s ≤ d → k ≤ 6 → Both (ahead s) (level n d k s) (Parser.level n k s)
  levelLoop : ∀ d k e s, 10 - k + 13 * ahead s ≤ d → k < 6 → Both (ahead s) (levelLoop n d k e s) (Parser.levelLoop n k e s)
  unary : ∀ d s, 5 + 13 * ahead s ≤ d → Both (ahead s) (unary n d s) (Parser.unary n s)
  power : ∀ d s, 4 + 13 * ahead s ≤ d → Both (ahead s) (power n d s) (Parser.power n s)
  castE : ∀ d s, 3 + 13 * ahead s ≤ d → Both (ahead s) (castE n d s) (Parser.castE n s)
  postfixE : ∀ d s, 2 + 13 * ahead s ≤ d → Both (ahead s) (postfixE n d s) (Parser.postfixE n s)
  postLoop : ∀ d e s, 1 + 13 * ahead s ≤ d → Both (ahead s) (postLoop n d e s) (Parser.postLoop n e s)
  sliceEnd : ∀ d s, 13 + 13 * ahead s ≤ d → Both (ahead s) (sliceEnd n d s) (Parser.sliceEnd n s)
  args : ∀ d m s, 13 + 13 * ahead s ≤ d → Both (ahead s) (args n d m s) (Parser.args n m s)
  argsLoop : ∀ d m s, 13 + 13 * ahead s ≤ d → Both (ahead s) (argsLoop n d m s) (Parser.argsLoop n m s)
  arg : ∀ d s, 13 + 13 * ahead s ≤ d → Both (ahead s) (arg n d s) (Parser.arg n s)
  itemsLoop : ∀ d s, 13 + 13 * ahead s ≤ d → Both (ahead s) (itemsLoop n d s) (Parser.itemsLoop n s)
  membersLoop : ∀ d s, 13 + 13 * ahead s ≤ d → Both (ahead s) (membersLoop n d s) (Parser.membersLoop n s)
  atom : ∀ d s, 1 + 13 * ahead s ≤ d → Both (ahead s) (atom n d s) (Parser.atom n s)

/-- There is enough room. -/
macro "room" : tactic => `(tactic| first | omega | (simp_all only [wt]; omega))

macro "room_step" ih:term : tactic => `(tactic| (
  repeat' first
    | exact Both.err
    | exact Both.error
    | exact Both.pure (by room)
    | exact (($ih).expr _ _ (by room)).le (by room)
    | exact (($ih).ternary _ _ (by room)).le (by room)
    | exact (($ih).level _ _ _ (by room) (by room)).le (by room)
    | exact (($ih).levelLoop _ _ _ _ (by room) (by room)).le (by room)
    | exact (($ih).unary _ _ (by room)).le (by room)
    | exact (($ih).power _ _ (by room)).le (by room)
    | exact (($ih).castE _ _ (by room)).le (by room)
    | exact (($ih).postfixE _ _ (by room)).le (by room)
    | exact (($ih).postLoop _ _ _ (by room)).le (by room)
    | exact (($ih).sliceEnd _ _ (by room)).le (by room)
    | exact (($ih).args _ _ _ (by room)).le (by room)
    | exact (($ih).argsLoop _ _ _ (by room)).le (by room)
    | exact (($ih).arg _ _ (by room)).le (by room)
    | exact (($ih).itemsLoop _ _ (by room)).le (by room)
    | exact (($ih).membersLoop _ _ (by room)).le (by room)
    | exact (($ih).atom _ _ (by room)).le (by room)
    | (refine Both.bump fun s' hs => ?_)
    | (refine Both.bind (($ih).expr _ _ (by room)) fun a s' hs => ?_; dsimp only)
    | (refine Both.bind (($ih).ternary _ _ (by room)) fun a s' hs => ?_; dsimp only)
    | (refine Both.bind (($ih).level _ _ _ (by room) (by room)) fun a s' hs => ?_; dsimp only)
    | (refine Both.bind (($ih).levelLoop _ _ _ _ (by room) (by room)) fun a s' hs => ?_; dsimp only)
    | (refine Both.bind (($ih).unary _ _ (by room)) fun a s' hs => ?_; dsimp only)
    | (refine Both.bind (($ih).power _ _ (by room)) fun a s' hs => ?_; dsimp only)
    | (refine Both.bind (($ih).castE _ _ (by room)) fun a s' hs => ?_; dsimp only)
    | (refine Both.bind (($ih).postfixE _ _ (by room)) fun a s' hs => ?_; dsimp only)
    | (refine Both.bind (($ih).postLoop _ _ _ (by room)) fun a s' hs => ?_; dsimp only)
    | (refine Both.bind (($ih).sliceEnd _ _ (by room)) fun a s' hs => ?_; dsimp only)
    | (refine Both.bind (($ih).args _ _ _ (by room)) fun a s' hs => ?_; dsimp only)
    | (refine Both.bind (($ih).argsLoop _ _ _ (by room)) fun a s' hs => ?_; dsimp only)
    | (refine Both.bind (($ih).arg _ _ (by room)) fun a s' hs => ?_; dsimp only)
    | (refine Both.bind (($ih).itemsLoop _ _ (by room)) fun a s' hs => ?_; dsimp only)
    | (refine Both.bind (($ih).membersLoop _ _ (by room)) fun a s' hs => ?_; dsimp only)
    | (refine Both.bind (($ih).atom _ _ (by room)) fun a s' hs => ?_; dsimp only)
    | (split <;> (try simp only [*]))))

set_option maxHeartbeats 4000000 in
theorem room : ∀ n, Room n := by
  intro n
  induction n with
  | zero =>
    constructor <;> intros <;>
      first | (rw [expr, Parser.expr]; exact Both.error) | (rw [ternary, Parser.ternary]; exact Both.error) | (rw [level, Parser.level]; exact Both.error) | (rw [levelLoop, Parser.levelLoop]; exact Both.error) | (rw [unary, Parser.unary]; exact Both.error) | (rw [power, Parser.power]; exact Both.error) | (rw [castE, Parser.castE]; exact Both.error) | (rw [postfixE, Parser.postfixE]; exact Both.error) | (rw [postLoop, Parser.postLoop]; exact Both.error) | (rw [sliceEnd, Parser.sliceEnd]; exact Both.error) | (rw [args, Parser.args]; exact Both.error) | (rw [argsLoop, Parser.argsLoop]; exact Both.error) | (rw [arg, Parser.arg]; exact Both.error) | (rw [itemsLoop, Parser.itemsLoop]; exact Both.error) | (rw [membersLoop, Parser.membersLoop]; exact Both.error) | (rw [atom, Parser.atom]; exact Both.error)
  | succ n ih =>
    constructor
    · intro d s h
      cases d with
      | zero => omega
      | succ d =>
        rw [expr.eq_3, Parser.expr.eq_2]; room_step ih
    · intro d s h
      cases d with
      | zero => omega
      | succ d =>
        rw [ternary.eq_3, Parser.ternary.eq_2]; room_step ih
    · intro d k s h hk
      cases d with
      | zero =>
        rw [level.eq_2, Parser.level.eq_2]
        split
        · exact (ih.unary _ _ (by omega)).le (by omega)
        · omega
      | succ d =>
        rw [level.eq_3, Parser.level.eq_2]
        split
        · exact (ih.unary _ _ (by omega)).le (by omega)
        · room_step ih
    · intro d k e s h hk
      rw [levelLoop.eq_2, Parser.levelLoop.eq_2]; room_step ih
    · intro d s h
      cases d with
      | zero => omega
      | succ d =>
        rw [unary.eq_3, Parser.unary.eq_2]
        split
        · rename_i op hop
          have hw := prefix_wt hop
          simp only [hop]
          refine Both.bump fun s' hs => ?_
          exact Both.bind (ih.unary _ _ (by omega)) fun a s'' hs' => Both.pure (by dsimp only; omega)
        · rename_i hop
          simp only [hop]
          exact (ih.power _ _ (by omega)).le (by omega)
    · intro d s h
      cases d with
      | zero => omega
      | succ d =>
        rw [power.eq_3, Parser.power.eq_2]; room_step ih
    · intro d s h
      cases d with
      | zero => omega
      | succ d =>
        rw [castE.eq_3, Parser.castE.eq_2]; room_step ih
    · intro d s h
      cases d with
      | zero => omega
      | succ d =>
        rw [postfixE.eq_3, Parser.postfixE.eq_2]; room_step ih
    · intro d e s h
      rw [postLoop.eq_2, Parser.postLoop.eq_2]; room_step ih
    · intro d s h
      rw [sliceEnd.eq_2, Parser.sliceEnd.eq_2]; room_step ih
    · intro d m s h
      rw [args.eq_2, Parser.args.eq_2]; room_step ih
    · intro d m s h
      rw [argsLoop.eq_2, Parser.argsLoop.eq_2]; room_step ih
    · intro d s h
      rw [arg.eq_2, Parser.arg.eq_2]; room_step ih
    · intro d s h
      rw [itemsLoop.eq_2, Parser.itemsLoop.eq_2]; room_step ih
    · intro d s h
      rw [membersLoop.eq_2, Parser.membersLoop.eq_2]
      refine Both.bind (o := ahead s) ?_ fun a s' hs => ?_
      · room_step ih
      · dsimp only
        room_step ih
    · intro d s h
      cases d with
      | zero => omega
      | succ d =>
        rw [atom.eq_3, Parser.atom.eq_2]; room_step ih

end Stack
