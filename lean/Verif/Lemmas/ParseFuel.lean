import Verif.Lemmas.LexFuel
/-! Fuel sufficiency for the parser. -/

namespace Parser

/-- Tokens left, counting the lookahead. -/
def size (s : St) : Nat := if s.look = .eof then 0 else s.rest.size + 1

/-- A proper outcome: not "out of fuel", not a panic, and if it succeeded, at most
`b` tokens are left. -/
def Good {α : Type} (b : Nat) : PRes (α × St) → Prop
  | .ok (_, s) => s.rest.Clean ∧ size s ≤ b
  | .error (some (.err ..)) => True
  | .error _ => False

/-- The same for `bump`. -/
def GoodS (b : Nat) : PRes St → Prop
  | .ok s => s.rest.Clean ∧ size s ≤ b
  | .error (some (.err ..)) => True
  | .error _ => False

theorem Good.bind {α β : Type} {b c : Nat} {r : PRes (α × St)} {k : α × St → PRes (β × St)}
    (h : Good b r) (hk : ∀ a s, s.rest.Clean → size s ≤ b → Good c (k (a, s))) : Good c (r >>= k) := by
  cases r with
  | ok v => exact hk v.1 v.2 h.1 h.2
  | error f =>
    cases f with
    | none => exact h.elim
    | some f => cases f with
      | err => trivial
      | panic => exact h.elim

theorem GoodS.bind {β : Type} {b c : Nat} {r : PRes St} {k : St → PRes (β × St)}
    (h : GoodS b r) (hk : ∀ s, s.rest.Clean → size s ≤ b → Good c (k s)) : Good c (r >>= k) := by
  cases r with
  | ok v => exact hk v h.1 h.2
  | error f =>
    cases f with
    | none => exact h.elim
    | some f => cases f with
      | err => trivial
      | panic => exact h.elim

theorem bump_good (s : St) (h : s.rest.Clean) (hl : s.look ≠ .eof) : GoodS (size s - 1) (bump s) := by
  obtain ⟨t, p, r⟩ := s
  have hs : size ⟨t, p, r⟩ = r.size + 1 := by
    unfold size; rw [if_neg hl]
  rw [hs]
  cases r with
  | eof q => exact ⟨trivial, by simp [size]⟩
  | bad f =>
    cases f with
    | none => exact h.elim
    | some f => cases f with
      | err => trivial
      | panic => exact h.elim
  | cons t' p' r' =>
    refine ⟨h, ?_⟩
    simp only [size, Toks.size]; split <;> simp

theorem err_good {α : Type} (b : Nat) (s : St) (m : String) : Good (α := α) b (err s m) := trivial

theorem pure_good {α : Type} (b : Nat) (s : St) (a : α) (h : s.rest.Clean) (hs : size s ≤ b) :
    Good b (pure (a, s) : PRes (α × St)) := ⟨h, hs⟩

theorem size_pos (s : St) (h : s.look ≠ .eof) : 1 ≤ size s := by
  unfold size; rw [if_neg h]; omega

/-- Fuel needed by each function, beyond 16 per token left. -/
structure Enough (n : Nat) : Prop where
  expr : ∀ s, s.rest.Clean → 16 * size s + 14 ≤ n → Good (size s - 1) (expr n s)
  ternary : ∀ s, s.rest.Clean → 16 * size s + 13 ≤ n → Good (size s - 1) (ternary n s)
  level : ∀ k s, s.rest.Clean → 16 * size s + 6 + (6 - k) ≤ n → Good (size s - 1) (level n k s)
  levelLoop : ∀ k e s, s.rest.Clean → 16 * size s + 1 ≤ n → Good (size s) (levelLoop n k e s)
  unary : ∀ s, s.rest.Clean → 16 * size s + 5 ≤ n → Good (size s - 1) (unary n s)
  power : ∀ s, s.rest.Clean → 16 * size s + 4 ≤ n → Good (size s - 1) (power n s)
  castE : ∀ s, s.rest.Clean → 16 * size s + 3 ≤ n → Good (size s - 1) (castE n s)
  postfixE : ∀ s, s.rest.Clean → 16 * size s + 2 ≤ n → Good (size s - 1) (postfixE n s)
  postLoop : ∀ e s, s.rest.Clean → 16 * size s + 1 ≤ n → Good (size s) (postLoop n e s)
  sliceEnd : ∀ s, s.rest.Clean → s.look = .colon → 16 * size s + 1 ≤ n → Good (size s - 1) (sliceEnd n s)
  args : ∀ m s, s.rest.Clean → 16 * size s + 17 ≤ n → Good (size s - 1) (args n m s)
  argsLoop : ∀ m s, s.rest.Clean → 16 * size s + 16 ≤ n → Good (size s - 1) (argsLoop n m s)
  arg : ∀ s, s.rest.Clean → 16 * size s + 15 ≤ n → Good (size s - 1) (arg n s)
  itemsLoop : ∀ s, s.rest.Clean → 16 * size s + 15 ≤ n → Good (size s - 1) (itemsLoop n s)
  membersLoop : ∀ s, s.rest.Clean → 16 * size s + 1 ≤ n → Good (size s - 1) (membersLoop n s)
  atom : ∀ s, s.rest.Clean → 16 * size s + 1 ≤ n → Good (size s - 1) (atom n s)

theorem Good.mono {α : Type} {b c : Nat} {r : PRes (α × St)} (h : Good b r) (hbc : b ≤ c) : Good c r := by
  cases r with
  | ok v => exact ⟨h.1, Nat.le_trans h.2 hbc⟩
  | error f =>
    cases f with
    | none => exact h.elim
    | some f => cases f with
      | err => trivial
      | panic => exact h.elim

theorem opAt_ne_eof {k : Nat} {t : Token} {op : BinaryOp} (h : opAt k t = some op) : t ≠ .eof := by
  rintro rfl
  unfold opAt at h; simp at h

theorem prefixOp_ne_eof {t : Token} {op : UnaryOp} (h : prefixOp t = some op) : t ≠ .eof := by
  rintro rfl
  unfold prefixOp at h; simp at h

theorem enough : ∀ n, Enough n := by
  intro n
  induction n with
  | zero => constructor <;> intros <;> omega
  | succ n ih =>
    constructor
    · intro s hc hn
      rw [expr]
      split
      · rename_i h
        have hl : s.look ≠ .eof := by rw [h.1]; simp
        have := size_pos s hl
        refine (bump_good s hc hl).bind fun s1 hc1 hs1 => ?_
        split
        · rename_i nm hl1
          have hl1 : s1.look ≠ .eof := by rw [hl1]; simp
          have := size_pos s1 hl1
          refine (bump_good s1 hc1 hl1).bind fun s2 hc2 hs2 => ?_
          split
          · rename_i hl2
            have hl2 : s2.look ≠ .eof := by rw [hl2]; simp
            have := size_pos s2 hl2
            refine (bump_good s2 hc2 hl2).bind fun s3 hc3 hs3 => ?_
            refine (ih.ternary s3 hc3 (by omega)).bind fun v s4 hc4 hs4 => ?_
            exact pure_good _ _ _ hc4 (by (try dsimp only); omega)
          · trivial
        · trivial
      · exact ih.ternary s hc (by omega)
    · intro s hc hn
      rw [ternary]
      refine (ih.level 0 s hc (by omega)).bind fun c s1 hc1 hs1 => ?_
      simp only
      split
      · rename_i h
        have hl : s1.look ≠ .eof := by rw [h]; simp
        have := size_pos s1 hl
        refine (bump_good s1 hc1 hl).bind fun s2 hc2 hs2 => ?_
        refine (ih.expr s2 hc2 (by omega)).bind fun t s3 hc3 hs3 => ?_
        simp only
        split
        · rename_i h
          have hl : s3.look ≠ .eof := by rw [h]; simp
          have := size_pos s3 hl
          refine (bump_good s3 hc3 hl).bind fun s4 hc4 hs4 => ?_
          refine (ih.expr s4 hc4 (by omega)).bind fun t s5 hc5 hs5 => ?_
          exact pure_good _ _ _ hc5 (by (try dsimp only); omega)
        · trivial
      · exact pure_good _ _ _ hc1 (by (try dsimp only); omega)
    · intro k s hc hn
      rw [level]
      split
      · exact ih.unary s hc (by omega)
      · refine (ih.level (k + 1) s hc (by omega)).bind fun c s1 hc1 hs1 => ?_
        exact (ih.levelLoop k c s1 hc1 (by omega)).mono (by omega)
    · intro k e s hc hn
      rw [levelLoop]
      split
      · rename_i op h
        have hl := opAt_ne_eof h
        have := size_pos s hl
        refine (bump_good s hc hl).bind fun s1 hc1 hs1 => ?_
        refine (ih.level (k + 1) s1 hc1 (by omega)).bind fun c s2 hc2 hs2 => ?_
        exact (ih.levelLoop k _ s2 hc2 (by omega)).mono (by omega)
      · exact pure_good _ _ _ hc (by (try dsimp only); omega)
    · intro s hc hn
      rw [unary]
      split
      · rename_i op h
        have hl := prefixOp_ne_eof h
        have := size_pos s hl
        refine (bump_good s hc hl).bind fun s1 hc1 hs1 => ?_
        refine (ih.unary s1 hc1 (by omega)).bind fun c s2 hc2 hs2 => ?_
        exact pure_good _ _ _ hc2 (by (try dsimp only); omega)
      · exact ih.power s hc (by omega)
    · intro s hc hn
      rw [power]
      refine (ih.castE s hc (by omega)).bind fun c s1 hc1 hs1 => ?_
      simp only
      split
      · rename_i h
        have hl : s1.look ≠ .eof := by rw [h]; simp
        have := size_pos s1 hl
        refine (bump_good s1 hc1 hl).bind fun s2 hc2 hs2 => ?_
        refine (ih.unary s2 hc2 (by omega)).bind fun t s3 hc3 hs3 => ?_
        exact pure_good _ _ _ hc3 (by (try dsimp only); omega)
      · exact pure_good _ _ _ hc1 (by (try dsimp only); omega)
    · intro s hc hn
      rw [castE]
      refine (ih.postfixE s hc (by omega)).bind fun c s1 hc1 hs1 => ?_
      simp only
      split
      · rename_i h
        have hl : s1.look ≠ .eof := by rw [h]; simp
        have := size_pos s1 hl
        refine (bump_good s1 hc1 hl).bind fun s2 hc2 hs2 => ?_
        split
        · rename_i h
          have hl : s2.look ≠ .eof := by rw [h]; simp
          have := size_pos s2 hl
          refine (bump_good s2 hc2 hl).bind fun s3 hc3 hs3 => ?_
          split
          · exact pure_good _ _ _ hc3 (by (try dsimp only); omega)
          · trivial
        · trivial
      · exact pure_good _ _ _ hc1 (by (try dsimp only); omega)
    · intro s hc hn
      rw [postfixE]
      refine (ih.atom s hc (by omega)).bind fun c s1 hc1 hs1 => ?_
      exact (ih.postLoop _ s1 hc1 (by omega)).mono (by omega)
    · intro e s hc hn
      rw [postLoop]
      split
      · rename_i h
        have hl : s.look ≠ .eof := by rw [h]; simp
        have := size_pos s hl
        refine (bump_good s hc hl).bind fun s1 hc1 hs1 => ?_
        split
        · rename_i h
          have hl : s1.look ≠ .eof := by rw [h]; simp
          have := size_pos s1 hl
          refine (bump_good s1 hc1 hl).bind fun s2 hc2 hs2 => ?_
          split
          · rename_i h
            have hl : s2.look ≠ .eof := by rw [h]; simp
            have := size_pos s2 hl
            refine (bump_good s2 hc2 hl).bind fun s3 hc3 hs3 => ?_
            exact (ih.postLoop _ s3 hc3 (by omega)).mono (by omega)
          · rename_i h
            have hl : s2.look ≠ .eof := by rw [h]; simp
            have := size_pos s2 hl
            refine (bump_good s2 hc2 hl).bind fun s3 hc3 hs3 => ?_
            refine (ih.args _ s3 hc3 (by omega)).bind fun c s4 hc4 hs4 => ?_
            exact (ih.postLoop _ s4 hc4 (by omega)).mono (by omega)
          · exact (ih.postLoop _ s2 hc2 (by omega)).mono (by omega)
        · trivial
      · rename_i h
        have hl : s.look ≠ .eof := by rw [h]; simp
        have := size_pos s hl
        refine (bump_good s hc hl).bind fun s1 hc1 hs1 => ?_
        split
        · rename_i h
          have hl : s1.look ≠ .eof := by rw [h]; simp
          have := size_pos s1 hl
          refine (bump_good s1 hc1 hl).bind fun s2 hc2 hs2 => ?_
          split
          · rename_i h
            have hl : s2.look ≠ .eof := by rw [h]; simp
            have := size_pos s2 hl
            refine (bump_good s2 hc2 hl).bind fun s3 hc3 hs3 => ?_
            refine (ih.args _ s3 hc3 (by omega)).bind fun c s4 hc4 hs4 => ?_
            exact (ih.postLoop _ s4 hc4 (by omega)).mono (by omega)
          · exact (ih.postLoop _ s2 hc2 (by omega)).mono (by omega)
        · trivial
      · rename_i h
        have hl : s.look ≠ .eof := by rw [h]; simp
        have := size_pos s hl
        refine (bump_good s hc hl).bind fun s1 hc1 hs1 => ?_
        split
        · rename_i h
          have hl : s1.look ≠ .eof := by rw [h]; simp
          refine (bump_good s1 hc1 hl).bind fun s2 hc2 hs2 => ?_
          trivial
        · rename_i h
          refine (ih.sliceEnd s1 hc1 h (by omega)).bind fun c s2 hc2 hs2 => ?_
          exact (ih.postLoop _ s2 hc2 (by omega)).mono (by omega)
        · refine (ih.expr s1 hc1 (by omega)).bind fun c s2 hc2 hs2 => ?_
          simp only
          split
          · rename_i h
            refine (ih.sliceEnd s2 hc2 h (by omega)).bind fun c s3 hc3 hs3 => ?_
            exact (ih.postLoop _ s3 hc3 (by omega)).mono (by omega)
          · rename_i h
            have hl : s2.look ≠ .eof := by rw [h]; simp
            refine (bump_good s2 hc2 hl).bind fun s3 hc3 hs3 => ?_
            exact (ih.postLoop _ s3 hc3 (by omega)).mono (by omega)
          · trivial
      · exact pure_good _ _ _ hc (by (try dsimp only); omega)
    · intro s hc hk hn
      rw [sliceEnd]
      have hl : s.look ≠ .eof := by rw [hk]; simp
      have := size_pos s hl
      refine (bump_good s hc hl).bind fun s1 hc1 hs1 => ?_
      split
      · rename_i h
        have hl : s1.look ≠ .eof := by rw [h]; simp
        refine (bump_good s1 hc1 hl).bind fun s2 hc2 hs2 => ?_
        exact pure_good _ _ _ hc2 (by (try dsimp only); omega)
      · refine (ih.expr s1 hc1 (by omega)).bind fun c s2 hc2 hs2 => ?_
        simp only
        split
        · rename_i h
          have hl : s2.look ≠ .eof := by rw [h]; simp
          refine (bump_good s2 hc2 hl).bind fun s3 hc3 hs3 => ?_
          exact pure_good _ _ _ hc3 (by (try dsimp only); omega)
        · trivial
    · intro m s hc hn
      rw [args]
      split
      · rename_i h
        have hl : s.look ≠ .eof := by rw [h]; simp
        refine (bump_good s hc hl).bind fun s1 hc1 hs1 => ?_
        exact pure_good _ _ _ hc1 (by (try dsimp only); omega)
      · exact ih.argsLoop m s hc (by omega)
    · intro m s hc hn
      rw [argsLoop]
      refine (ih.arg s hc (by omega)).bind fun a s1 hc1 hs1 => ?_
      simp only
      split
      · rename_i h
        have hl : s1.look ≠ .eof := by rw [h]; simp
        have := size_pos s1 hl
        refine (bump_good s1 hc1 hl).bind fun s2 hc2 hs2 => ?_
        refine (ih.argsLoop m s2 hc2 (by omega)).bind fun c s3 hc3 hs3 => ?_
        exact pure_good _ _ _ hc3 (by (try dsimp only); omega)
      · split
        · rename_i h
          have hl : s1.look ≠ .eof := by rw [h]; simp
          refine (bump_good s1 hc1 hl).bind fun s2 hc2 hs2 => ?_
          exact pure_good _ _ _ hc2 (by (try dsimp only); omega)
        · trivial
    · intro s hc hn
      rw [arg]
      split
      · rename_i h
        have hl : s.look ≠ .eof := by rw [h]; simp
        have := size_pos s hl
        refine (bump_good s hc hl).bind fun s1 hc1 hs1 => ?_
        refine (ih.expr s1 hc1 (by omega)).bind fun c s2 hc2 hs2 => ?_
        exact pure_good _ _ _ hc2 (by (try dsimp only); omega)
      · exact ih.expr s hc (by omega)
    · intro s hc hn
      rw [itemsLoop]
      refine (ih.expr s hc (by omega)).bind fun a s1 hc1 hs1 => ?_
      simp only
      split
      · rename_i h
        have hl : s1.look ≠ .eof := by rw [h]; simp
        have := size_pos s1 hl
        refine (bump_good s1 hc1 hl).bind fun s2 hc2 hs2 => ?_
        refine (ih.itemsLoop s2 hc2 (by omega)).bind fun c s3 hc3 hs3 => ?_
        exact pure_good _ _ _ hc3 (by (try dsimp only); omega)
      · split
        · rename_i h
          have hl : s1.look ≠ .eof := by rw [h]; simp
          refine (bump_good s1 hc1 hl).bind fun s2 hc2 hs2 => ?_
          exact pure_good _ _ _ hc2 (by (try dsimp only); omega)
        · trivial
    · intro s hc hn
      rw [membersLoop]
      refine Good.bind (b := size s - 1) ?_ fun key s1 hc1 hs1 => ?_
      · split
        · rename_i h
          have hl : s.look ≠ .eof := by rw [h]; simp
          refine (bump_good s hc hl).bind fun s1 hc1 hs1 => ?_
          exact pure_good _ _ _ hc1 (by (try dsimp only); omega)
        · rename_i h
          have hl : s.look ≠ .eof := by rw [h]; simp
          refine (bump_good s hc hl).bind fun s1 hc1 hs1 => ?_
          exact pure_good _ _ _ hc1 (by (try dsimp only); omega)
        · trivial
      simp only
      split
      · rename_i h
        have hl : s1.look ≠ .eof := by rw [h]; simp
        have := size_pos s1 hl
        refine (bump_good s1 hc1 hl).bind fun s2 hc2 hs2 => ?_
        refine (ih.expr s2 hc2 (by omega)).bind fun v s3 hc3 hs3 => ?_
        simp only
        split
        · rename_i h
          have hl : s3.look ≠ .eof := by rw [h]; simp
          refine (bump_good s3 hc3 hl).bind fun s4 hc4 hs4 => ?_
          split
          · rename_i h
            have hl : s4.look ≠ .eof := by rw [h]; simp
            refine (bump_good s4 hc4 hl).bind fun s5 hc5 hs5 => ?_
            exact pure_good _ _ _ hc5 (by (try dsimp only); omega)
          · refine (ih.membersLoop s4 hc4 (by omega)).bind fun v s5 hc5 hs5 => ?_
            exact pure_good _ _ _ hc5 (by (try dsimp only); omega)
        · split
          · rename_i h
            have hl : s3.look ≠ .eof := by rw [h]; simp
            refine (bump_good s3 hc3 hl).bind fun s4 hc4 hs4 => ?_
            exact pure_good _ _ _ hc4 (by (try dsimp only); omega)
          · trivial
      · trivial
    · intro s hc hn
      rw [atom]
      split
      all_goals
        first
        | exact trivial
        | (rename_i h
           have hl : s.look ≠ .eof := by rw [h]; simp
           have := size_pos s hl
           refine (bump_good s hc hl).bind fun s1 hc1 hs1 => ?_)
      · exact pure_good _ _ _ hc1 (by (try dsimp only); omega)
      · refine (ih.expr s1 hc1 (by omega)).bind fun v s2 hc2 hs2 => ?_
        simp only
        split
        · rename_i h
          have hl : s2.look ≠ .eof := by rw [h]; simp
          refine (bump_good s2 hc2 hl).bind fun s3 hc3 hs3 => ?_
          exact pure_good _ _ _ hc3 (by (try dsimp only); omega)
        · trivial
      · exact pure_good _ _ _ hc1 (by (try dsimp only); omega)
      · exact pure_good _ _ _ hc1 (by (try dsimp only); omega)
      · split
        · rename_i h
          have hl : s1.look ≠ .eof := by rw [h]; simp
          refine (bump_good s1 hc1 hl).bind fun s3 hc3 hs3 => ?_
          exact pure_good _ _ _ hc3 (by (try dsimp only); omega)
        · trivial
      · exact pure_good _ _ _ hc1 (by (try dsimp only); omega)
      · exact pure_good _ _ _ hc1 (by (try dsimp only); omega)
      · split
        · rename_i h
          have hl : s1.look ≠ .eof := by rw [h]; simp
          have := size_pos s1 hl
          refine (bump_good s1 hc1 hl).bind fun s2 hc2 hs2 => ?_
          refine (ih.args _ s2 hc2 (by omega)).bind fun v s3 hc3 hs3 => ?_
          exact pure_good _ _ _ hc3 (by (try dsimp only); omega)
        · trivial
      · split
        · rename_i h
          have hl : s1.look ≠ .eof := by rw [h]; simp
          refine (bump_good s1 hc1 hl).bind fun s2 hc2 hs2 => ?_
          exact pure_good _ _ _ hc2 (by (try dsimp only); omega)
        · refine (ih.itemsLoop s1 hc1 (by omega)).bind fun v s3 hc3 hs3 => ?_
          exact pure_good _ _ _ hc3 (by (try dsimp only); omega)
      · split
        · rename_i h
          have hl : s1.look ≠ .eof := by rw [h]; simp
          refine (bump_good s1 hc1 hl).bind fun s2 hc2 hs2 => ?_
          exact pure_good _ _ _ hc2 (by (try dsimp only); omega)
        · refine (ih.membersLoop s1 hc1 (by omega)).bind fun v s3 hc3 hs3 => ?_
          exact pure_good _ _ _ hc3 (by (try dsimp only); omega)

theorem stmts_good (n : Nat) (s : St) (hc : s.rest.Clean) (hn : 16 * size s + 1 ≤ n) :
    Good (size s) (stmts n s) := by
  induction n generalizing s with
  | zero => omega
  | succ n ih =>
    rw [stmts]
    split
    · rename_i h
      have hl : s.look ≠ .eof := by rw [h]; simp
      have := size_pos s hl
      refine (bump_good s hc hl).bind fun s1 hc1 hs1 => ?_
      split
      · exact pure_good _ _ _ hc1 (by (try dsimp only); omega)
      · refine ((enough n).expr s1 hc1 (by omega)).bind fun v s2 hc2 hs2 => ?_
        refine (ih s2 hc2 (by omega)).bind fun v s3 hc3 hs3 => ?_
        exact pure_good _ _ _ hc3 (by (try dsimp only); omega)
    · exact pure_good _ _ _ hc (by (try dsimp only); omega)

theorem program_good (n : Nat) (s : St) (hc : s.rest.Clean) (hn : 16 * size s + 14 ≤ n) :
    Good (size s) (program n s) := by
  unfold program
  refine ((enough n).expr s hc hn).bind fun e s1 hc1 hs1 => ?_
  refine (stmts_good n s1 hc1 (by omega)).bind fun es s2 hc2 hs2 => ?_
  cases es with
  | nil => exact pure_good _ _ _ hc2 (by (try dsimp only); omega)
  | cons a as => exact pure_good _ _ _ hc2 (by (try dsimp only); omega)

end Parser
