import Verif.Model.Rates
import Verif.Props.MemoryPool
import Verif.Props.Registries
import Verif.Props.Monotone
import Verif.Base.KernelRfl
import Mathlib.Tactic.Positivity
/-! C143: the rates that the pool of contexts and the caches of functions report. -/

open Spec

namespace Spec

/-- The number `x` is the share of `part` in `all` in percent, as near as a float can be expected to be: between 0 and 100, 0 only for nothing and 100 only for all, and within `2^-45` of the exact share. -/
def Share (part all : ℕ) (x : F64) : Prop :=
  ∃ v : ℚ, HasValue x v ∧ 0 ≤ v ∧ v ≤ 100 ∧ (v = 0 ↔ part = 0) ∧ (v = 100 ↔ part = all) ∧ |v - 100 * part / all| ≤ 1 / 2 ^ 45

end Spec

theorem F64.round_between {q lo hi : ℚ} (h0 : 0 < lo) (hl : IsBin64 lo) (hh : IsBin64 hi) (h1 : lo ≤ q) (h2 : q ≤ hi) : ∃ v, F64.round q = .fin v ∧ lo ≤ v ∧ v ≤ hi ∧ IsRounded q (.fin v) := by
  have k1 := F64.le_key_round hl h1 false
  have k2 := F64.key_round_le hh h2 false
  have hr := F64.round_isRounded (show q ≠ 0 by intro h; subst h; linarith) false
  generalize F64.round q false = x at *
  unfold F64.key at k1 k2
  rw [Prod.Lex.toLex_le_toLex] at k1 k2
  cases x with
  | nan => exact hr.elim
  | inf s => cases s <;> simp [F64.rank] at k1 k2
  | zero s =>
    simp [F64.rank, F64.toRat] at k1
    linarith
  | fin v =>
    simp [F64.rank, F64.toRat] at k1 k2
    exact ⟨v, rfl, k1, k2, hr⟩

theorem ofNat_fin {n : ℕ} (hn : 0 < n) (hb : n ≤ 2 ^ 53) : F64.ofNat n = .fin n := by
  unfold F64.ofNat
  rw [F64.ofInt_exact n (by rw [abs_of_nonneg (by omega)]; exact_mod_cast hb)]
  unfold F64.ofIntExact
  rw [if_neg (by exact_mod_cast hn.ne')]
  norm_cast

theorem percent_zero (rest : ℕ) (hb : rest ≤ 2 ^ 53) : ratePercent 0 rest = .zero false := by
  unfold ratePercent
  by_cases h : rest = 0
  · subst h; rfl
  · rw [if_pos (by omega), Nat.zero_add, ofNat_fin (by omega) hb]
    show F64.mul (F64.div (.zero false) (.fin rest)) (.fin 100) = _
    have : ¬ ((rest : ℚ) < 0) := by simp
    simp [F64.div, F64.mul, F64.signBit, this]

/-- The two roundings. -/
theorem percent_value {part rest : ℕ} (h0 : 0 < part) (hb : part + rest ≤ 2 ^ 53) :
    ∃ v w : ℚ, IsRounded ((part : ℚ) / (part + rest : ℕ)) (.fin v) ∧ IsRounded (v * 100) (.fin w) ∧ ratePercent part rest = .fin w ∧ 1 / 2 ^ 53 ≤ v ∧ v ≤ 1 ∧ (0 < rest → v ≤ 1 - 1 / 2 ^ 53) ∧ 0 < w ∧ w ≤ 100 := by
  have hc : (0 : ℚ) < (part + rest : ℕ) := by exact_mod_cast (by omega)
  have hn : ((part + rest : ℕ) : ℚ) ≤ 2 ^ 53 := by exact_mod_cast hb
  have hp : (1 : ℚ) ≤ part := by exact_mod_cast h0
  have hle : (part : ℚ) / (part + rest : ℕ) ≤ 1 := by
    rw [div_le_one hc]; push_cast; linarith [Nat.cast_nonneg (α := ℚ) rest]
  have hge : 1 / 2 ^ 53 ≤ (part : ℚ) / (part + rest : ℕ) := by
    rw [div_le_div_iff₀ (by positivity) hc]; nlinarith
  have b1 : IsBin64 (1 / 2 ^ 53) := ⟨1, -53, by norm_num, by norm_num, by norm_num, by norm_num⟩
  obtain ⟨v, e1, l1, u1, r1⟩ := F64.round_between (by positivity) b1 ⟨1, 0, by norm_num⟩ hge hle
  obtain ⟨w, e2, l2, u2, r2⟩ := F64.round_between (lo := 1 / 2 ^ 53) (hi := 100) (q := v * 100) (by positivity) b1 ⟨100, 0, by norm_num⟩ (by linarith [show (0 : ℚ) < 1 / 2 ^ 53 by positivity]) (by linarith)
  refine ⟨v, w, r1, r2, ?_, l1, u1, fun hr => ?_, lt_of_lt_of_le (by positivity) l2, u2⟩
  · unfold ratePercent
    rw [if_pos (by omega), ofNat_fin h0 (by omega), ofNat_fin (by omega) hb]
    show F64.mul (F64.round _) _ = _
    rw [e1]
    exact e2
  · have hlt : (part : ℚ) / (part + rest : ℕ) ≤ 1 - 1 / 2 ^ 53 := by
      rw [div_le_iff₀ hc]
      have h2 : (1 : ℚ) ≤ rest := by exact_mod_cast hr
      have : ((part + rest : ℕ) : ℚ) * (1 / 2 ^ 53) ≤ 1 := by
        rw [mul_one_div, div_le_one (by positivity)]; exact hn
      push_cast at this ⊢
      linarith
    obtain ⟨v', e, -, u, -⟩ := F64.round_between (by positivity) b1 (hi := 1 - 1 / 2 ^ 53) ⟨2 ^ 53 - 1, -53, by norm_num, by norm_num, by norm_num, by norm_num⟩ hge hlt
    rw [e1] at e
    cases e
    exact u

/-- A share of numbers that a float holds exactly. -/
theorem percent_share {part rest : ℕ} (h : 0 < part + rest) (hb : part + rest ≤ 2 ^ 53) : Share part (part + rest) (ratePercent part rest) := by
  by_cases h0 : part = 0
  · subst h0
    rw [percent_zero rest (by omega)]
    refine ⟨0, rfl, le_refl _, by norm_num, by simp, ⟨fun h => by norm_num at h, fun h => by omega⟩, by simp⟩
  · obtain ⟨v, w, r1, r2, e, l1, u1, u1', l2, u2⟩ := percent_value (part := part) (rest := rest) (by omega) hb
    rw [e]
    have small : (2 : ℚ) ^ (-1022 : ℤ) ≤ 1 / 2 ^ 53 := by
      rw [show (1 : ℚ) / 2 ^ 53 = 2 ^ (-53 : ℤ) by norm_num]
      exact zpow_le_zpow_right₀ (by norm_num) (by norm_num)
    have hc : (0 : ℚ) < (part + rest : ℕ) := by exact_mod_cast (by omega)
    have hn : ((part + rest : ℕ) : ℚ) ≤ 2 ^ 53 := by exact_mod_cast hb
    have hp : (1 : ℚ) ≤ part := by exact_mod_cast (by omega)
    have hge : 1 / 2 ^ 53 ≤ (part : ℚ) / (part + rest : ℕ) := by
      rw [div_le_div_iff₀ (by positivity) hc]; nlinarith
    have hle : (part : ℚ) / (part + rest : ℕ) ≤ 1 := by
      rw [div_le_one hc]; push_cast; linarith [Nat.cast_nonneg (α := ℚ) rest]
    have c1 := F64.rounded_close r1 (by rw [abs_of_pos (lt_of_lt_of_le (by positivity) hge)]; linarith)
    have c2 := F64.rounded_close r2 (by rw [abs_of_pos (by linarith [show (0 : ℚ) < 1 / 2 ^ 53 by positivity])]; linarith [show (0 : ℚ) < 1 / 2 ^ 53 by positivity])
    rw [abs_of_pos (lt_of_lt_of_le (by positivity) hge)] at c1
    rw [abs_of_pos (a := v * 100) (by linarith [show (0 : ℚ) < 1 / 2 ^ 53 by positivity])] at c2
    refine ⟨w, rfl, l2.le, u2, ⟨fun h => by linarith, fun h => absurd h h0⟩, ⟨fun hw => ?_, fun hr => ?_⟩, ?_⟩
    · by_contra hne
      have hv := u1' (by omega)
      subst hw
      have near := r2.2.2.2.1 (100 - 1 / 2 ^ 46) ⟨100 * 2 ^ 46 - 1, -46, by norm_num, by norm_num, by norm_num, by norm_num⟩
      rw [abs_of_nonpos (by linarith)] at near
      rcases abs_cases (v * 100 - (100 - 1 / 2 ^ 46)) with ⟨h, -⟩ | ⟨h, -⟩ <;> rw [h] at near
      · have : (v * 100 : ℚ) ≤ 100 - 100 / 2 ^ 53 := by linarith
        norm_num at near this
        linarith
      · norm_num at near
    · have hz : rest = 0 := by omega
      subst hz
      have : (part : ℚ) / (part + 0 : ℕ) = 1 := by rw [Nat.add_zero]; exact div_self (by linarith)
      rw [this] at r1
      have v1 : v = 1 := by
        have := r1.2.2.2.1 1 ⟨1, 0, by norm_num⟩
        rw [sub_self, abs_zero] at this
        have := abs_nonpos_iff.1 this
        linarith
      subst v1
      have := r2.2.2.2.1 100 ⟨100, 0, by norm_num⟩
      rw [one_mul, sub_self, abs_zero] at this
      have := abs_nonpos_iff.1 this
      linarith
    · rw [abs_le] at c1 c2 ⊢
      have e : 100 * (part : ℚ) / (part + rest : ℕ) = 100 * ((part : ℚ) / (part + rest : ℕ)) := by ring
      rw [e]
      generalize (part : ℚ) / (part + rest : ℕ) = q at *
      norm_num at c1 c2 ⊢
      constructor <;> linarith

/-- A greater part, or a smaller rest, does not lower the rate. -/
theorem percent_mono {a b a' b' : ℕ} (ha : a ≤ a') (hb : b' ≤ b) (h : 0 < a + b) (h1 : a + b ≤ 2 ^ 53) (h2 : a' + b' ≤ 2 ^ 53) : AtMost (ratePercent a b) (ratePercent a' b') := by
  by_cases h0 : a = 0
  · subst h0
    by_cases h0' : a' = 0
    · subst h0'
      rw [percent_zero _ (by omega), percent_zero _ (by omega)]
      exact ⟨by simp, by simp, .inr (.inr ⟨0, 0, rfl, rfl, le_refl _⟩)⟩
    · obtain ⟨v, w, -, -, e, -, -, -, l, -⟩ := percent_value (part := a') (rest := b') (by omega) h2
      rw [percent_zero _ (by omega), e]
      exact ⟨by simp, by simp, .inr (.inr ⟨0, w, rfl, rfl, l.le⟩)⟩
  · obtain ⟨v, w, r1, r2, e, l, -⟩ := percent_value (part := a) (rest := b) (by omega) h1
    obtain ⟨v', w', r1', r2', e', l', -⟩ := percent_value (part := a') (rest := b') (by omega) h2
    rw [e, e']
    have p1 : (0 : ℚ) < a := by exact_mod_cast (by omega)
    have p2 : (0 : ℚ) < a' := by exact_mod_cast (by omega)
    have hq : (a : ℚ) / (a + b : ℕ) ≤ (a' : ℚ) / (a' + b' : ℕ) := by
      rw [div_le_div_iff₀ (by exact_mod_cast (by omega)) (by exact_mod_cast (by omega))]
      have : a * b' ≤ a' * b := Nat.mul_le_mul ha hb
      have : (a * b' : ℚ) ≤ a' * b := by exact_mod_cast this
      push_cast
      nlinarith
    have pos : (0 : ℚ) < 1 / 2 ^ 53 := by positivity
    have n1 : (a : ℚ) / (a + b : ℕ) ≠ 0 := (div_pos p1 (by exact_mod_cast (by omega))).ne'
    have n2 : (a' : ℚ) / (a' + b' : ℕ) ≠ 0 := (div_pos p2 (by exact_mod_cast (by omega))).ne'
    have hv : AtMost (.fin v) (.fin v') := F64.roundsTo_mono (p := (a : ℚ) / (a + b : ℕ)) (q := (a' : ℚ) / (a' + b' : ℕ)) (by unfold RoundsTo; rw [if_neg n1]; exact r1) (by unfold RoundsTo; rw [if_neg n2]; exact r1') hq
    have hv : v ≤ v' := by
      obtain ⟨-, -, h | h | ⟨x, y, hx, hy, h⟩⟩ := hv
      · cases h
      · cases h
      · cases hx; cases hy; exact h
    exact F64.roundsTo_mono (p := v * 100) (q := v' * 100) (by unfold RoundsTo; rw [if_neg (by linarith)]; exact r2) (by unfold RoundsTo; rw [if_neg (by linarith)]; exact r2') (by linarith)

/-! ### The pool -/

namespace MemPool

/-- The first context is made. -/
theorem first_made (maxSize : ℕ) (ops : List Op) : ((World.after maxSize ops).contexts ≠ [] → 0 < (World.after maxSize ops).pool.created) ∧
    ((World.after maxSize ops).pool.pool ≠ [] → (World.after maxSize ops).contexts ≠ []) := by
  induction ops using List.reverseRecOn with
  | nil => exact ⟨fun h => absurd rfl h, fun h => absurd rfl h⟩
  | append_singleton ops op ih =>
    rw [World.after_snoc]
    generalize World.after maxSize ops = w at ih
    obtain ⟨ih1, ih2⟩ := ih
    cases op with
    | acquire =>
      simp only [World.step, Pool.acquire]
      split
      · rename_i hp
        exact ⟨fun _ => ih1 (ih2 (by simp [hp])), fun _ => by simp⟩
      · exact ⟨fun _ => Nat.succ_pos _, fun _ => by simp⟩
    | insert h k v => simpa [World.step] using ⟨ih1, ih2⟩
    | withBase h b => simpa [World.step] using ⟨ih1, ih2⟩
    | drop h =>
      simp only [World.step]
      split
      · rename_i ctx hctx
        have hne : w.contexts ≠ [] := by rintro he; rw [he] at hctx; simp at hctx
        have hne' : w.contexts.set h none ≠ [] := by simpa using hne
        refine ⟨fun _ => ?_, fun _ => hne'⟩
        have := ih1 hne
        unfold Pool.release
        split <;> exact this
      · exact ⟨ih1, ih2⟩

/-- **C143.** After any history the rate of reuse is the share of the contexts acquired that were taken from the pool; 0 if none was acquired. It never reaches 100, since the first one is made. -/
theorem C143_pool (maxSize : ℕ) (ops : List Op) (hb : acquires ops ≤ 2 ^ 53) :
    let p := (World.after maxSize ops).pool
    (acquires ops = 0 → p.reuseRate = .zero false) ∧ (0 < acquires ops → Share p.stats.2.2 (acquires ops) p.reuseRate ∧ p.stats.2.2 < acquires ops) := by
  intro p
  have hc : p.created + p.reused = acquires ops := (C48_counted maxSize ops).1
  refine ⟨fun h => ?_, fun h => ⟨?_, ?_⟩⟩
  · unfold Pool.reuseRate
    rw [show p.reused = 0 by omega, show p.created = 0 by omega]
    rfl
  · unfold Pool.reuseRate
    rw [← hc, Nat.add_comm]
    exact percent_share (part := p.reused) (by omega) (by omega)
  · have := (first_made maxSize ops).1 (by rw [← List.length_pos_iff, World.contexts_length]; exact h)
    have : 0 < p.created := this
    show p.reused < _
    omega

/-- **C143.** Acquiring a context when the pool is empty does not raise the rate; otherwise it does not lower it. Nothing else changes it. -/
theorem C143_pool_moves (maxSize : ℕ) (ops : List Op) (op : Op) (hb : acquires ops < 2 ^ 53) (h0 : 0 < acquires ops) :
    let p := (World.after maxSize ops).pool
    let q := (World.after maxSize (ops ++ [op])).pool
    (op = .acquire → p.stats.1 = 0 → AtMost q.reuseRate p.reuseRate) ∧ (op = .acquire → 0 < p.stats.1 → AtMost p.reuseRate q.reuseRate) ∧ (op ≠ .acquire → q.reuseRate = p.reuseRate) := by
  intro p q
  have hc : p.created + p.reused = acquires ops := (C48_counted maxSize ops).1
  have hq : q = ((World.after maxSize ops).step op).pool := by rw [← World.after_snoc]
  refine ⟨?_, ?_, ?_⟩
  · rintro rfl hs
    have hp : p.pool = [] := List.length_eq_zero_iff.1 hs
    have : q = { p with created := p.created + 1 } := by
      rw [hq]; simp only [World.step, Pool.acquire]; show (match p.pool with | ctx :: rest => _ | [] => _ : Env × Pool).2 = _; rw [hp]
    rw [this]
    exact percent_mono (a := p.reused) (b := p.created + 1) (a' := p.reused) (b' := p.created) (le_refl _) (Nat.le_succ _) (by omega) (by omega) (by omega)
  · rintro rfl hs
    obtain ⟨c, r, hp⟩ := List.exists_cons_of_ne_nil (List.ne_nil_of_length_pos hs)
    have : q = { p with pool := r, reused := p.reused + 1 } := by
      rw [hq]; simp only [World.step, Pool.acquire]; show (match p.pool with | ctx :: rest => _ | [] => _ : Env × Pool).2 = _; rw [hp]
    rw [this]
    exact percent_mono (a := p.reused) (b := p.created) (a' := p.reused + 1) (b' := p.created) (Nat.le_succ _) (le_refl _) (by omega) (by omega) (by omega)
  · intro h
    rw [hq]
    cases op with
    | acquire => exact absurd rfl h
    | insert h k v => rfl
    | withBase h b => rfl
    | drop h =>
      simp only [World.step]
      split
      · unfold Pool.release Pool.reuseRate
        split <;> rfl
      · rfl

/-- A context made and used three times again: 75 percent. -/
example : acquires [.acquire, .drop 0, .acquire, .drop 1, .acquire, .drop 2, .acquire] = 4 ∧ (World.after 5 [.acquire, .drop 0, .acquire, .drop 1, .acquire, .drop 2, .acquire]).pool.stats.2.2 = 3 ∧
    (World.after 5 [.acquire, .drop 0, .acquire, .drop 1, .acquire, .drop 2, .acquire]).pool.reuseRate = .fin 75 :=
  ⟨rfl, rfl, by decide +kernel⟩

end MemPool

/-! ### The caches -/

/-- What is found in a cache was once missed. -/
theorem World.once_missed (X : Ext) (h : List CacheOp) (t : ℕ) :
    ((∃ k, ((World.after X h).caches t).cache k ≠ none) → 0 < ((World.after X h).caches t).misses) ∧ (0 < ((World.after X h).caches t).hits → 0 < ((World.after X h).caches t).misses) := by
  induction h using List.reverseRecOn with
  | nil => simp [World.after, World.init, LocalCache.new]
  | append_singleton h op ih =>
    have hstep : World.after X (h ++ [op]) = ((World.after X h).step X op).1 := by
      unfold World.after; rw [List.foldl_append]; rfl
    rw [hstep]
    generalize World.after X h = w at ih
    cases op with
    | reg op => exact ih
    | get t' n =>
      by_cases ht : t = t'
      · subst ht
        simp only [World.step, if_true, LocalCache.get]
        cases hc : (w.caches t).cache (X.upper n) with
        | some f => exact ⟨ih.1, fun _ => ih.1 ⟨_, by rw [hc]; simp⟩⟩
        | none =>
          cases hl : w.reg.lookup (X.upper n) with
          | some f => exact ⟨fun _ => Nat.succ_pos _, fun _ => Nat.succ_pos _⟩
          | none => exact ih
      · simp only [World.step, if_neg ht]
        exact ih
    | clear t' =>
      by_cases ht : t = t'
      · subst ht
        simp [World.step, LocalCache.clear]
      · simp only [World.step, if_neg ht]
        exact ih

/-- **C143.** After any history of registrations and lookups of any threads, the hit rate of the cache of a thread is the share of hits among its hits and misses; 0 if there are none. It never reaches 100. -/
theorem C143_cache (X : Ext) (h : List CacheOp) (t : ℕ) :
    let c := (World.after X h).caches t
    c.hits + c.misses ≤ 2 ^ 53 → (c.hits + c.misses = 0 → c.hitRate = .zero false) ∧ (0 < c.hits + c.misses → Share c.hits (c.hits + c.misses) c.hitRate ∧ c.hits < c.hits + c.misses) := by
  intro c hb
  refine ⟨fun h => ?_, fun h0 => ⟨percent_share h0 hb, ?_⟩⟩
  · unfold LocalCache.hitRate
    rw [show c.hits = 0 by omega, show c.misses = 0 by omega]
    rfl
  · have := (World.once_missed X h t).2
    have : 0 < c.hits → 0 < c.misses := this
    omega

/-- **C143.** A lookup that is answered from the cache does not lower the rate of the thread; one that is answered from the registry does not raise it; one that finds nothing, or another thread makes, leaves it. -/
theorem C143_cache_moves (X : Ext) (h : List CacheOp) (t : ℕ) (n : Str) :
    let c := (World.after X h).caches t
    let d := (World.after X (h ++ [.get t n])).caches t
    0 < c.hits + c.misses → c.hits + c.misses < 2 ^ 53 →
    (c.cache (X.upper n) ≠ none → AtMost c.hitRate d.hitRate) ∧ (c.cache (X.upper n) = none → AtMost d.hitRate c.hitRate) ∧
    (World.found X h t n = none → d.hitRate = c.hitRate) ∧ ∀ t', t' ≠ t → ((World.after X (h ++ [.get t' n])).caches t).hitRate = c.hitRate := by
  intro c d h0 hb
  have hstep : ∀ op, World.after X (h ++ [op]) = ((World.after X h).step X op).1 := fun op => by
    unfold World.after; rw [List.foldl_append]; rfl
  have hd : d = (LocalCache.get X (World.after X h).reg c n).1 := by
    show (World.after X (h ++ [.get t n])).caches t = _
    rw [hstep]
    simp only [World.step, if_true]
    rfl
  have hfd : World.found X h t n = (LocalCache.get X (World.after X h).reg c n).2 := rfl
  refine ⟨fun hc => ?_, fun hc => ?_, fun hn => ?_, fun t' ht => ?_⟩
  · obtain ⟨f, hf⟩ := Option.ne_none_iff_exists'.1 hc
    rw [hd]
    simp only [LocalCache.get, hf]
    exact percent_mono (Nat.le_succ _) (le_refl _) h0 (by omega) (by show c.hits + 1 + c.misses ≤ _; omega)
  · rw [hd]
    simp only [LocalCache.get, hc]
    cases (World.after X h).reg.lookup (X.upper n) with
    | some f => exact percent_mono (le_refl _) (Nat.le_succ _) (by show 0 < c.hits + (c.misses + 1); omega) (by show c.hits + (c.misses + 1) ≤ _; omega) (by omega)
    | none => exact percent_mono (a := c.hits) (b := c.misses) (a' := c.hits) (b' := c.misses) (le_refl _) (le_refl _) h0 (by omega) (by omega)
  · rw [hfd] at hn
    rw [hd]
    simp only [LocalCache.get] at hn ⊢
    cases hc : c.cache (X.upper n) with
    | some f => rw [hc] at hn; cases hn
    | none =>
      rw [hc] at hn
      cases hl : (World.after X h).reg.lookup (X.upper n) with
      | some f => rw [hl] at hn; cases hn
      | none => rfl
  · rw [hstep]
    simp only [World.step, if_neg (Ne.symm ht)]
    rfl

/-- Since the thread `t` last cleared its cache it has looked up the name, in any case, and found a function. -/
def Spec.KnownTo (X : Ext) (h : List CacheOp) (t : ℕ) (n : Str) : Prop :=
  ∃ h1 m h2, h = h1 ++ .get t m :: h2 ∧ X.upper m = X.upper n ∧ World.found X h1 t m ≠ none ∧ .clear t ∉ h2

theorem World.cached_iff (X : Ext) (h : List CacheOp) (t : ℕ) (n : Str) : ((World.after X h).caches t).cache (X.upper n) ≠ none ↔ KnownTo X h t n := by
  have hstep : ∀ h op, World.after X (h ++ [op]) = ((World.after X h).step X op).1 := fun h op => by
    unfold World.after; rw [List.foldl_append]; rfl
  induction h using List.reverseRecOn with
  | nil =>
    constructor
    · intro h; exact absurd rfl h
    · rintro ⟨h1, m, h2, e, -⟩; simp at e
  | append_singleton h op ih =>
    have last : KnownTo X (h ++ [op]) t n ↔ (KnownTo X h t n ∧ op ≠ .clear t) ∨ ∃ m, op = .get t m ∧ X.upper m = X.upper n ∧ World.found X h t m ≠ none := by
      constructor
      · rintro ⟨h1, m, h2, e, a, b, c⟩
        rcases List.eq_nil_or_concat h2 with rfl | ⟨h3, o, rfl⟩
        · have := List.append_inj' e rfl
          obtain ⟨rfl, e2⟩ := this
          cases e2
          exact .inr ⟨m, rfl, a, b⟩
        · rw [List.concat_eq_append] at e c
          have : h ++ [op] = (h1 ++ .get t m :: h3) ++ [o] := by rw [e]; simp
          obtain ⟨rfl, e2⟩ := List.append_inj' this rfl
          cases e2
          exact .inl ⟨⟨h1, m, h3, rfl, a, b, fun hc => c (by simp [hc])⟩, fun hc => c (by simp [hc])⟩
      · rintro (⟨⟨h1, m, h2, rfl, a, b, c⟩, hne⟩ | ⟨m, rfl, a, b⟩)
        · exact ⟨h1, m, h2 ++ [op], by simp, a, b, by simp [c]; exact fun hc => hne hc.symm⟩
        · exact ⟨h, m, [], rfl, a, b, by simp⟩
    rw [last, hstep]; have ih := ih.symm; simp only [ih]
    by_cases hcl : op = .clear t
    · subst hcl
      simp [World.step, LocalCache.clear]
    by_cases hg : ∃ m, op = .get t m
    · obtain ⟨m, rfl⟩ := hg
      have hf : ∀ m, World.found X h t m = (LocalCache.get X (World.after X h).reg ((World.after X h).caches t) m).2 := fun _ => rfl
      simp only [hf]
      generalize World.after X h = w
      simp only [World.step, if_true, ne_eq, reduceCtorEq, not_false_eq_true, and_true, CacheOp.get.injEq, true_and]
      constructor
      · intro hc
        by_cases hold : (w.caches t).cache (X.upper n) = none
        · right
          refine ⟨m, rfl, ?_⟩
          simp only [LocalCache.get] at hc ⊢
          cases hk : (w.caches t).cache (X.upper m) with
          | some f => rw [hk] at hc; exact absurd hold hc
          | none =>
            rw [hk] at hc
            cases hl : w.reg.lookup (X.upper m) with
            | none => rw [hl] at hc; exact absurd hold hc
            | some f =>
              rw [hl] at hc
              simp only at hc ⊢
              by_cases e : X.upper n = X.upper m
              · exact ⟨e.symm, by simp⟩
              · rw [if_neg e] at hc; exact absurd hold hc
        · exact .inl hold
      · rintro (hc | ⟨m', rfl, e, hf⟩)
        · simp only [LocalCache.get]
          cases hk : (w.caches t).cache (X.upper m) with
          | some f => exact hc
          | none =>
            cases hl : w.reg.lookup (X.upper m) with
            | none => exact hc
            | some f =>
              simp only
              split
              · simp
              · exact hc
        · simp only [LocalCache.get] at hf ⊢
          cases hk : (w.caches t).cache (X.upper m) with
          | some f => simp only; rw [← e, hk]; simp
          | none =>
            rw [hk] at hf
            cases hl : w.reg.lookup (X.upper m) with
            | none => rw [hl] at hf; exact absurd rfl hf
            | some f => simp [e]
    · rw [World.cache_other X (World.after X h) op t (fun n hn => hg ⟨n, hn⟩) hcl]
      constructor
      · exact fun hc => .inl ⟨hc, hcl⟩
      · rintro (⟨hc, -⟩ | ⟨m, rfl, -⟩)
        · exact hc
        · exact absurd ⟨m, rfl⟩ hg

/-- **C143.** What is counted: a lookup is a hit exactly if the thread has found the name before, since it last cleared its cache; otherwise a miss if a function is found, and not counted if none is. Clearing
sets both to zero, and what other threads do, or what happens to the registry, changes neither. -/
theorem C143_counted (X : Ext) (h : List CacheOp) (t : ℕ) (op : CacheOp) :
    let c := (World.after X h).caches t
    let d := (World.after X (h ++ [op])).caches t
    (∀ n, op = .get t n → KnownTo X h t n → d.hits = c.hits + 1 ∧ d.misses = c.misses) ∧
    (∀ n, op = .get t n → ¬ KnownTo X h t n → World.found X h t n ≠ none → d.hits = c.hits ∧ d.misses = c.misses + 1) ∧
    (∀ n, op = .get t n → World.found X h t n = none → d.hits = c.hits ∧ d.misses = c.misses) ∧
    (op = .clear t → d.hits = 0 ∧ d.misses = 0) ∧ ((∀ n, op ≠ .get t n) → op ≠ .clear t → d.hits = c.hits ∧ d.misses = c.misses) := by
  intro c d
  have hd : d = ((World.after X h).step X op).1.caches t := by
    show (World.after X (h ++ [op])).caches t = _
    unfold World.after; rw [List.foldl_append]; rfl
  refine ⟨?_, ?_, ?_, ?_, ?_⟩
  · rintro n rfl hk
    obtain ⟨f, hf⟩ := Option.ne_none_iff_exists'.1 ((World.cached_iff X h t n).2 hk)
    rw [hd]
    simp only [World.step, if_true, LocalCache.get, hf]
    exact ⟨rfl, rfl⟩
  · rintro n rfl hk hfd
    have hc : ((World.after X h).caches t).cache (X.upper n) = none := by
      by_contra hc; exact hk ((World.cached_iff X h t n).1 hc)
    simp only [World.found, World.step, LocalCache.get, hc] at hfd
    rw [hd]
    simp only [World.step, if_true, LocalCache.get, hc]
    cases hl : (World.after X h).reg.lookup (X.upper n) with
    | none => rw [hl] at hfd; exact absurd rfl hfd
    | some f => exact ⟨rfl, rfl⟩
  · rintro n rfl hfd
    simp only [World.found, World.step, LocalCache.get] at hfd
    rw [hd]
    simp only [World.step, if_true, LocalCache.get]
    cases hc : ((World.after X h).caches t).cache (X.upper n) with
    | some f => rw [hc] at hfd; cases hfd
    | none =>
      rw [hc] at hfd
      cases hl : (World.after X h).reg.lookup (X.upper n) with
      | some f => rw [hl] at hfd; cases hfd
      | none => exact ⟨rfl, rfl⟩
  · rintro rfl
    rw [hd]
    simp [World.step, LocalCache.clear]
  · intro h1 h2
    rw [hd, World.cache_other X _ op t h1 h2]
    exact ⟨rfl, rfl⟩

/-- A function looked up four times in one thread: three hits of four, 75 percent; the other thread has used nothing. -/
example (X : Ext) :
    ((World.after X [.reg (.register sampleFn), .get 1 c!"double", .get 1 c!"double", .get 1 c!"double", .get 1 c!"double"]).caches 1).hitRate = .fin 75 ∧
    ((World.after X [.reg (.register sampleFn), .get 1 c!"double", .get 1 c!"double", .get 1 c!"double", .get 1 c!"double"]).caches 2).hitRate = .zero false := by
  constructor <;> kernel_rfl
