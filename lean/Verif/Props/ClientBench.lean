import Verif.Model.ClientBench
import Verif.Props.Client
import Verif.Props.Bench
import Verif.Props.Monotone
import Verif.Props.OrderStats
import Mathlib.Data.List.Sort
/-! C116: the benchmark mode of the client of the TCP server. -/

namespace Client.Spec

/-- An argument of a benchmark: one of a normal run, or a number of iterations. -/
inductive BenchWord where
  | word (w : Word)
  | iterations (text : Str) (n : Nat)

/-- How it is written. -/
def BenchWord.words : BenchWord → List Str
  | .word w => w.words
  | .iterations t _ => [t]

/-- A text that is read as the value or as the number. -/
def BenchWord.ok (X : Ext) : BenchWord → Prop
  | .word w => w.ok X
  | .iterations t n => Str.parseUsize t = some n

/-- The arguments of a normal run among them. -/
def plain (ws : List BenchWord) : List Word := ws.filterMap fun
  | .word w => some w
  | .iterations _ _ => none

/-- The last number of iterations given. -/
def iterations (ws : List BenchWord) (default : Nat) : Nat := (ws.reverse.findSome? fun
  | .word _ => none
  | .iterations _ n => some n).getD default

/-- The times of the answers that arrived. -/
def times (answers : List (Option Sample)) : List Nat := answers.filterMap fun a => a.map Sample.ms

end Client.Spec

namespace Client
open Client.Spec _root_.Spec

/-! ### The arguments -/

theorem parseUsize_plain {t : Str} {n : Nat} (h : Str.parseUsize t = some n) : ∀ c ∈ t, c = '+' ∨ Str.asciiDigit c = true := by
  have go : ∀ (b : Str) (k m : Nat), Str.digitsGo k b = some m → ∀ c ∈ b, Str.asciiDigit c = true := by
    intro b
    induction b with
    | nil => intro k m _ c hc; simp at hc
    | cons d b ih =>
      intro k m h c hc
      rw [Str.digitsGo] at h
      split at h
      · rename_i hd
        rcases List.mem_cons.1 hc with rfl | hc
        · exact hd
        · exact ih _ _ h c hc
      · cases h
  have use : ∀ b : Str, (if b.isEmpty then none else match Str.digitsGo 0 b with | some n => if n < 2 ^ 64 then some n else none | none => none) = some n →
      ∀ c ∈ b, Str.asciiDigit c = true := by
    intro b hb
    split at hb
    · cases hb
    · cases hd : Str.digitsGo 0 b with
      | none => rw [hd] at hb; cases hb
      | some m => exact go b 0 m hd
  unfold Str.parseUsize at h
  dsimp only at h
  split at h
  · rename_i rest
    intro c hc
    rcases List.mem_cons.1 hc with rfl | hc
    · exact .inl rfl
    · exact .inr (use _ h c hc)
  · exact fun c hc => .inr (use _ h c hc)

theorem splitOnce_eq : ∀ s name text : Str, Str.splitOnce c!"=" s = some (name, text) → s = name ++ '=' :: text ∧ '=' ∉ name
  | [], _, _, h => by cases h
  | c :: s, name, text, h => by
    by_cases hc : c = '='
    · subst hc
      rw [show '=' :: s = '=' :: ([] ++ s) from rfl, splitOnce_here] at h
      cases h
      exact ⟨rfl, by simp⟩
    · rw [Str.splitOnce, stripPrefix_first hc] at h
      dsimp only at h
      cases hr : Str.splitOnce c!"=" s with
      | none => rw [hr] at h; cases h
      | some r =>
        obtain ⟨a, b⟩ := r
        rw [hr] at h
        cases h
        obtain ⟨h1, h2⟩ := splitOnce_eq s a b hr
        exact ⟨by rw [h1]; rfl, by simp [Ne.symm hc, h2]⟩

theorem iterations_cons (w : BenchWord) (ws : List BenchWord) (d : Nat) :
    iterations (w :: ws) d = iterations ws (match w with | .word _ => d | .iterations _ n => n) := by
  unfold iterations
  rw [List.reverse_cons, List.findSome?_append]
  cases w <;> cases (List.findSome? _ ws.reverse) <;> simp

theorem benchArgs_words (X : Ext) : ∀ (ws : List BenchWord) (a : Args) (n : Nat), (∀ w ∈ ws, w.ok X) →
    benchArgs X (ws.flatMap BenchWord.words) a n = (parseArgs X ((plain ws).flatMap Word.words) a).map fun b => (b, iterations ws n)
  | [], a, n, _ => rfl
  | w :: ws, a, n, h => by
    have hw := h w (by simp)
    have ih := fun a n => benchArgs_words X ws a n fun v hv => h v (by simp [hv])
    rw [iterations_cons, List.flatMap_cons]
    cases w with
    | iterations t m =>
      have hp := parseUsize_plain hw
      have hd : ∀ s : Str, (∃ c ∈ s, c ≠ '+' ∧ Str.asciiDigit c = false) → t ≠ s := by
        rintro s ⟨c, hc, h1, h2⟩ rfl
        rcases hp c hc with h | h
        · exact h1 h
        · rw [h] at h2; cases h2
      have hs : Str.splitOnce c!"=" t = none := by
        have : '=' ∉ t := fun hm => by
          rcases hp _ hm with h | h
          · exact absurd h (by decide)
          · exact absurd h (by decide)
        exact splitOnce_none '=' [] t fun c hc h => this (h ▸ hc)
      show benchArgs X (t :: ws.flatMap BenchWord.words) a n = _
      rw [benchArgs.eq_def]
      dsimp only
      rw [if_neg (hd _ ⟨'j', by decide, by decide, by decide⟩), if_neg (hd _ ⟨'j', by decide, by decide, by decide⟩), if_neg (hd _ ⟨'t', by decide, by decide, by decide⟩), hs]
      dsimp only
      rw [show Str.parseUsize t = some m from hw]
      exact ih a m
    | word w =>
      have e : plain (.word w :: ws) = w :: plain ws := rfl
      rw [e, List.flatMap_cons]
      cases w with
      | outputJson =>
        simp only [BenchWord.words, Word.words, List.cons_append, List.nil_append]
        rw [benchArgs.eq_def, parseArgs.eq_def]
        dsimp only
        rw [if_neg (by decide), if_pos rfl, if_neg (by decide), if_pos rfl]
        exact ih _ n
      | json t =>
        simp only [BenchWord.words, Word.words, List.cons_append, List.nil_append]
        rw [benchArgs.eq_def, parseArgs.eq_def]
        dsimp only
        rw [if_pos rfl, if_pos rfl]
        exact ih _ n
      | token t =>
        simp only [BenchWord.words, Word.words, List.cons_append, List.nil_append]
        rw [benchArgs.eq_def, parseArgs.eq_def]
        dsimp only
        rw [if_neg (by decide), if_neg (by decide), if_pos rfl, if_neg (by decide), if_neg (by decide), if_pos rfl]
        exact ih _ n
      | set m t j =>
        obtain ⟨h1, h2⟩ := hw
        have hm : '=' ∈ m ++ '=' :: t := by simp
        have d1 : m ++ '=' :: t ≠ c!"--json" := fun h => absurd (h ▸ hm) (by decide)
        have d2 : m ++ '=' :: t ≠ c!"--output-json" := fun h => absurd (h ▸ hm) (by decide)
        have d3 : m ++ '=' :: t ≠ c!"--token" := fun h => absurd (h ▸ hm) (by decide)
        have d4 : Str.splitOnce c!"=" (m ++ '=' :: t) = some (m, t) := by
          rw [splitOnce_over '=' [] m ('=' :: t) fun c hc h => h1 (h ▸ hc), show '=' :: t = '=' :: ([] ++ t) from rfl, splitOnce_here]
          simp
        simp only [BenchWord.words, Word.words, List.cons_append, List.nil_append]
        rw [benchArgs.eq_def, parseArgs.eq_def]
        dsimp only
        rw [if_neg d1, if_neg d2, if_neg d3, d4, if_neg d1, if_neg d2, if_neg d3]
        dsimp only
        rw [h2]
        exact ih _ n

/-- **C116, the request.** The benchmark makes, as many times as the last number among its arguments says or else a hundred times, the request that a normal run with
its other arguments makes; where that run ends before a request is made, so does the benchmark. -/
theorem C116_request (X : Ext) (env : Option Str) (expr : Str) (ws : List BenchWord) (h : ∀ w ∈ ws, w.ok X) (hb : expr ≠ c!"--benchmark") :
    match benchPlan X env (expr :: ws.flatMap BenchWord.words) with
    | .ok (q, n) => n = iterations ws 100 ∧ ∀ exchange, run X exchange env (expr :: (plain ws).flatMap Word.words) = outcome (exchange q)
    | .error o => ∀ exchange, run X exchange env (expr :: (plain ws).flatMap Word.words) = o := by
  unfold benchPlan run
  dsimp only
  simp only [hb, and_false, if_false]
  rw [benchArgs_words X ws _ _ h]
  cases hp : parseArgs X ((plain ws).flatMap Word.words) ⟨none, false, env, []⟩ with
  | error o => exact fun _ => rfl
  | ok a =>
    simp only [Except.map]
    cases hr : request X expr a with
    | error o => exact fun _ => rfl
    | ok q => exact ⟨rfl, fun _ => rfl⟩

theorem benchArgs_ok (X : Ext) : ∀ (k : Nat) (args : List Str) (a : Args) (n : Nat) (r : Args × Nat), args.length ≤ k → benchArgs X args a n = .ok r →
    ∃ ws : List BenchWord, args = ws.flatMap BenchWord.words ∧ ∀ w ∈ ws, w.ok X := by
  intro k
  induction k with
  | zero =>
    intro args a n r hl _
    cases args with
    | nil => exact ⟨[], rfl, by simp⟩
    | cons s as => simp at hl
  | succ k ih =>
    intro args a n r hl h
    cases args with
    | nil => exact ⟨[], rfl, by simp⟩
    | cons s rest =>
      simp only [List.length_cons] at hl
      have use : ∀ (w : BenchWord) (front : List Str) (rest : List Str) (b : Args) (m : Nat), w.words = front → w.ok X → rest.length ≤ k → benchArgs X rest b m = .ok r →
          ∃ ws : List BenchWord, front ++ rest = ws.flatMap BenchWord.words ∧ ∀ w ∈ ws, w.ok X := by
        intro w front rest b m hw hok hl h
        obtain ⟨ws, e, hws⟩ := ih rest b m r hl h
        refine ⟨w :: ws, by rw [List.flatMap_cons, hw, ← e], ?_⟩
        intro u hu
        rcases List.mem_cons.1 hu with rfl | hu
        · exact hok
        · exact hws u hu
      rw [benchArgs.eq_def] at h
      dsimp only at h
      by_cases h1 : s = c!"--json"
      · rw [if_pos h1] at h
        cases rest with
        | nil => cases h
        | cons t rest =>
          simp only [List.length_cons] at hl
          exact h1 ▸ use (.word (.json t)) _ rest _ _ rfl trivial (by omega) h
      rw [if_neg h1] at h
      by_cases h2 : s = c!"--output-json"
      · rw [if_pos h2] at h
        exact h2 ▸ use (.word .outputJson) _ rest _ _ rfl trivial (by omega) h
      rw [if_neg h2] at h
      by_cases h3 : s = c!"--token"
      · rw [if_pos h3] at h
        cases rest with
        | nil => cases h
        | cons t rest =>
          simp only [List.length_cons] at hl
          exact h3 ▸ use (.word (.token t)) _ rest _ _ rfl trivial (by omega) h
      rw [if_neg h3] at h
      cases hs : Str.splitOnce c!"=" s with
      | some q =>
        obtain ⟨name, text⟩ := q
        rw [hs] at h
        dsimp only at h
        cases hv : parseValue X text with
        | error f => rw [hv] at h; cases h
        | ok j =>
          rw [hv] at h
          have e := splitOnce_eq s name text hs
          rw [e.1]
          exact use (.word (.set name text j)) _ rest _ _ rfl ⟨e.2, hv⟩ (by omega) h
      | none =>
        rw [hs] at h
        dsimp only at h
        cases hp : Str.parseUsize s with
        | none => rw [hp] at h; cases h
        | some m =>
          rw [hp] at h
          exact use (.iterations s m) _ rest _ _ rfl hp (by omega) h

/-- **C116, what is accepted.** Only arguments of these forms lead to requests. -/
theorem C116_accepts (X : Ext) (env : Option Str) (args : List Str) (q : Tcp.Request) (n : Nat) (h : benchPlan X env args = .ok (q, n)) :
    ∃ (expr : Str) (ws : List BenchWord), args = expr :: ws.flatMap BenchWord.words ∧ ∀ w ∈ ws, w.ok X := by
  cases args with
  | nil => cases h
  | cons expr rest =>
    unfold benchPlan at h
    dsimp only at h
    cases hb : benchArgs X rest ⟨none, false, env, []⟩ 100 with
    | error o => rw [hb] at h; cases h
    | ok r =>
      obtain ⟨ws, e, hw⟩ := benchArgs_ok X _ rest _ _ r (Nat.le_refl _) hb
      exact ⟨expr, ws, by rw [e], hw⟩

/-! ### The statistics -/

theorem tally_eq : ∀ (answers : List (Option Sample)) (t : Tally),
    answers.foldl Tally.add t = ⟨t.durations ++ answers.map (fun | some s => F64.ofNat s.ms | none => f64Max),
      t.serverTimes ++ answers.map (fun | some s => s.serverMs | none => .zero false),
      t.successful + (answers.filter fun a => a.any Sample.success).length,
      t.failed + (answers.filter fun a => !a.any Sample.success).length⟩
  | [], t => by simp
  | a :: answers, t => by
    rw [List.foldl_cons, tally_eq answers]
    cases a with
    | none => simp [Tally.add]; omega
    | some s => cases hs : s.success <;> simp [Tally.add, hs] <;> omega

theorem ofNat_exact {n : Nat} (h : n ≤ 2 ^ 53) : F64.ofNat n = F64.ofIntExact n := F64.ofInt_exact n (by rw [abs_of_nonneg (by omega)]; exact_mod_cast h)

theorem ofNat_not_nan (n : Nat) : F64.ofNat n ≠ .nan := F64.round_ne_nan _ _

theorem key_ofNat {n : Nat} (h : n ≤ 2 ^ 53) : F64.key (F64.ofNat n) = toLex (0, (n : ℚ)) := by
  rw [ofNat_exact h]
  unfold F64.ofIntExact
  split
  · rename_i h0
    have : n = 0 := by omega
    subst this; simp [F64.key, F64.rank, F64.toRat]
  · simp [F64.key, F64.rank, F64.toRat]

theorem fle_ofNat {m n : Nat} (hm : m ≤ 2 ^ 53) (hn : n ≤ 2 ^ 53) : F64.fle (F64.ofNat m) (F64.ofNat n) = decide (m ≤ n) := by
  rw [Bool.eq_iff_iff, F64.fle_iff, key_ofNat hm, key_ofNat hn, Prod.Lex.toLex_le_toLex]
  simp [ofNat_not_nan]

theorem flt_ofNat {m n : Nat} (hm : m ≤ 2 ^ 53) (hn : n ≤ 2 ^ 53) : F64.flt (F64.ofNat m) (F64.ofNat n) = decide (m < n) := by
  rw [Bool.eq_iff_iff, F64.flt_iff, key_ofNat hm, key_ofNat hn, Prod.Lex.toLex_lt_toLex]
  simp [ofNat_not_nan]

theorem key_fin (q : ℚ) : F64.key (.fin q) = toLex (0, q) := rfl

theorem key_max : F64.key f64Max = toLex (0, ((2 ^ 1024 - 2 ^ 971 : Nat) : ℚ)) := by rw [f64Max, key_fin]

theorem small_lt_max {n : Nat} (h : n ≤ 2 ^ 53) : (n : ℚ) < ((2 ^ 1024 - 2 ^ 971 : Nat) : ℚ) := by
  have : n < 2 ^ 1024 - 2 ^ 971 := Nat.lt_of_le_of_lt h (by decide +kernel)
  exact_mod_cast this

theorem flt_max {n : Nat} (h : n ≤ 2 ^ 53) : F64.flt (F64.ofNat n) f64Max = true := by
  rw [F64.flt_iff, key_ofNat h, key_max, Prod.Lex.toLex_lt_toLex]
  exact ⟨ofNat_not_nan n, by simp [f64Max], .inr ⟨rfl, small_lt_max h⟩⟩

theorem fne_max {n : Nat} (h : n ≤ 2 ^ 53) : F64.fne (F64.ofNat n) f64Max = true := by
  unfold F64.fne
  rw [Bool.not_eq_true', Bool.eq_false_iff]
  intro he
  rw [F64.feq_iff, key_ofNat h, key_max] at he
  have := congrArg (fun x => (ofLex x).2) he.2.2
  exact absurd this (ne_of_lt (small_lt_max h))

theorem fne_max_self : F64.fne f64Max f64Max = false := by
  unfold F64.fne; rw [F64.feq_refl (by simp [f64Max])]; rfl

theorem valid_eq (answers : List (Option Sample)) (h : ∀ n ∈ times answers, n ≤ 2 ^ 53) :
    (answers.map (fun | some s => F64.ofNat s.ms | none => f64Max)).filter (fun d => F64.fne d f64Max) = (times answers).map F64.ofNat := by
  induction answers with
  | nil => rfl
  | cons a answers ih =>
    cases a with
    | none =>
      rw [List.map_cons, List.filter_cons_of_neg (p := fun d => F64.fne d f64Max) (by rw [fne_max_self]; simp)]
      exact ih h
    | some s =>
      have e : times (some s :: answers) = s.ms :: times answers := rfl
      rw [e] at h ⊢
      rw [List.map_cons, List.filter_cons_of_pos (p := fun d => F64.fne d f64Max) (fne_max (h _ (by simp))), List.map_cons, ih fun n hn => h n (by simp [hn])]

theorem insertBy_ofNat (x : Nat) (hx : x ≤ 2 ^ 53) : ∀ l : List Nat, (∀ n ∈ l, n ≤ 2 ^ 53) →
    Arr.insertBy F64.fle (F64.ofNat x) (l.map F64.ofNat) = (l.orderedInsert (· ≤ ·) x).map F64.ofNat
  | [], _ => rfl
  | y :: l, h => by
    rw [List.map_cons, Arr.insertBy, fle_ofNat hx (h y (by simp)), List.orderedInsert]
    by_cases hxy : x ≤ y
    · simp [hxy]
    · simp [hxy, insertBy_ofNat x hx l fun n hn => h n (by simp [hn])]

theorem sortBy_ofNat : ∀ l : List Nat, (∀ n ∈ l, n ≤ 2 ^ 53) → Arr.sortBy F64.fle (l.map F64.ofNat) = (l.insertionSort (· ≤ ·)).map F64.ofNat
  | [], _ => rfl
  | x :: l, h => by
    have hl : ∀ n ∈ l, n ≤ 2 ^ 53 := fun n hn => h n (by simp [hn])
    rw [List.map_cons, Arr.sortBy, sortBy_ofNat l hl, insertBy_ofNat x (h x (by simp))]
    · rfl
    · intro n hn
      exact hl n ((List.perm_insertionSort _ l).mem_iff.1 hn)

theorem fmin_ofNat {a b : Nat} (ha : a ≤ 2 ^ 53) (hb : b ≤ 2 ^ 53) : F64.fmin (F64.ofNat a) (F64.ofNat b) = F64.ofNat (Nat.min a b) := by
  have e : ∀ x y : F64, x ≠ .nan → y ≠ .nan → F64.fmin x y = if F64.flt y x then y else x := by
    intro x y hx hy; cases x <;> cases y <;> first | exact absurd rfl hx | exact absurd rfl hy | rfl
  rw [e _ _ (ofNat_not_nan a) (ofNat_not_nan b), flt_ofNat hb ha]
  by_cases h : b < a
  · simp [h, Nat.min_def, Nat.not_le.2 h]
  · simp [h, Nat.min_def, Nat.not_lt.1 h]

theorem fmax_ofNat {a b : Nat} (ha : a ≤ 2 ^ 53) (hb : b ≤ 2 ^ 53) : F64.fmax (F64.ofNat a) (F64.ofNat b) = F64.ofNat (Nat.max a b) := by
  have e : ∀ x y : F64, x ≠ .nan → y ≠ .nan → F64.fmax x y = if F64.flt x y then y else x := by
    intro x y hx hy; cases x <;> cases y <;> first | exact absurd rfl hx | exact absurd rfl hy | rfl
  rw [e _ _ (ofNat_not_nan a) (ofNat_not_nan b), flt_ofNat ha hb]
  by_cases h : a < b
  · simp [h, Nat.max_def, h.le]
  · by_cases h' : a = b
    · subst h'; simp
    · have : ¬ a ≤ b := by omega
      simp [h, Nat.max_def, this]

theorem fold_min : ∀ (l : List Nat) (a : Nat), a ≤ 2 ^ 53 → (∀ n ∈ l, n ≤ 2 ^ 53) → (l.map F64.ofNat).foldl F64.fmin (F64.ofNat a) = F64.ofNat (l.foldl Nat.min a)
  | [], _, _, _ => rfl
  | x :: l, a, ha, h => by
    rw [List.map_cons, List.foldl_cons, List.foldl_cons, fmin_ofNat ha (h x (by simp))]
    exact fold_min l _ (Nat.le_trans (Nat.min_le_left _ _) ha) fun n hn => h n (by simp [hn])

theorem fold_max : ∀ (l : List Nat) (a : Nat), a ≤ 2 ^ 53 → (∀ n ∈ l, n ≤ 2 ^ 53) → (l.map F64.ofNat).foldl F64.fmax (F64.ofNat a) = F64.ofNat (l.foldl Nat.max a)
  | [], _, _, _ => rfl
  | x :: l, a, ha, h => by
    rw [List.map_cons, List.foldl_cons, List.foldl_cons, fmax_ofNat ha (h x (by simp))]
    exact fold_max l _ (Nat.max_le.2 ⟨ha, h x (by simp)⟩) fun n hn => h n (by simp [hn])

theorem add_ofNat {a b : Nat} (h : a + b ≤ 2 ^ 53) : F64.add (F64.ofNat a) (F64.ofNat b) = F64.ofNat (a + b) := by
  rw [ofNat_exact (by omega : a ≤ 2 ^ 53), ofNat_exact (by omega : b ≤ 2 ^ 53)]
  unfold F64.ofIntExact
  by_cases ha : (a : ℤ) = 0
  · have : a = 0 := by omega
    subst this
    rw [if_pos ha]
    by_cases hb : (b : ℤ) = 0
    · have : b = 0 := by omega
      subst this; rfl
    · rw [if_neg hb, Nat.zero_add, ofNat_exact (by omega)]
      unfold F64.ofIntExact
      rw [if_neg hb]; rfl
  · by_cases hb : (b : ℤ) = 0
    · have : b = 0 := by omega
      subst this
      rw [if_neg ha, if_pos hb, Nat.add_zero, ofNat_exact (by omega)]
      unfold F64.ofIntExact
      rw [if_neg ha]; rfl
    · rw [if_neg ha, if_neg hb]
      unfold F64.add F64.ofNat F64.ofInt
      dsimp only
      congr 1
      push_cast
      rfl

theorem fsum_ofNat (l : List Nat) (h : l.sum ≤ 2 ^ 53) : Stat.fsum (l.map F64.ofNat) = F64.ofNat l.sum := by
  have : ∀ (l : List Nat) (a : Nat), a + l.sum ≤ 2 ^ 53 → (l.map F64.ofNat).foldl F64.add (F64.ofNat a) = F64.ofNat (a + l.sum) := by
    intro l
    induction l with
    | nil => intro a _; rfl
    | cons x l ih =>
      intro a ha
      rw [List.sum_cons] at ha ⊢
      rw [List.map_cons, List.foldl_cons, add_ofNat (by omega), ih _ (by omega), Nat.add_assoc]
  have h0 := this l 0 (by omega)
  rw [Nat.zero_add] at h0
  exact h0

/-- A double below a whole number is below it by at least the least part of the last place. -/
theorem double_gap {R : ℚ} (hR : IsBin64 R) {N : ℕ} (hN : 0 < N) (hN' : N < 2 ^ 53) (h : R < N) : R ≤ N - N / 2 ^ 53 := by
  obtain ⟨m, e, hm, -, -, rfl⟩ := hR
  have hNq : (N : ℚ) ≤ 2 ^ 53 := by exact_mod_cast hN'.le
  have hN1 : (1 : ℚ) ≤ N := by exact_mod_cast hN
  by_cases h1 : 1 ≤ (N : ℚ) - m * 2 ^ e
  · have : (N : ℚ) / 2 ^ 53 ≤ 1 := by rw [div_le_one (by positivity)]; exact hNq
    linarith
  push Not at h1
  have he : e < 0 := by
    by_contra he
    push Not at he
    obtain ⟨k, rfl⟩ := Int.eq_ofNat_of_zero_le he
    have hi : (m : ℚ) * 2 ^ (k : ℤ) = ((m * 2 ^ k : ℤ) : ℚ) := by push_cast; rw [zpow_natCast]
    have hi' : ((m * 2 ^ k : ℤ) : ℚ) < ((N : ℤ) : ℚ) := by rw [← hi]; exact_mod_cast h
    have : m * 2 ^ k + 1 ≤ (N : ℤ) := by exact_mod_cast Int.add_one_le_iff.2 (by exact_mod_cast hi')
    have hq : ((m * 2 ^ k : ℤ) : ℚ) + 1 ≤ N := by exact_mod_cast this
    rw [hi] at h1
    linarith
  have hp : (0 : ℚ) < 2 ^ e := by positivity
  have hm' : (m : ℚ) < 2 ^ 53 := by
    have : m < 2 ^ 53 := lt_of_le_of_lt (le_abs_self m) hm
    exact_mod_cast this
  -- the distance is at least one unit
  obtain ⟨k, hk⟩ := Int.eq_ofNat_of_zero_le (by omega : 0 ≤ -e)
  have he' : (2 : ℚ) ^ e * 2 ^ k = 1 := by
    rw [← zpow_natCast, ← zpow_add₀ (by norm_num), show e + (k : ℤ) = 0 by omega, zpow_zero]
  have hu : (2 : ℚ) ^ e ≤ N - m * 2 ^ e := by
    have hlt : (m : ℚ) < N * 2 ^ k := by
      have := mul_lt_mul_of_pos_right h (by positivity : (0 : ℚ) < 2 ^ k)
      rwa [mul_assoc, he', mul_one] at this
    have hint : m + 1 ≤ (N : ℤ) * 2 ^ k := Int.add_one_le_iff.2 (by exact_mod_cast hlt)
    have hq : (m : ℚ) + 1 ≤ N * 2 ^ k := by exact_mod_cast hint
    have := mul_le_mul_of_nonneg_right hq hp.le
    rw [mul_assoc (N : ℚ), mul_comm ((2 : ℚ) ^ k), he', mul_one] at this
    linarith
  by_cases h53 : 0 ≤ 53 + e
  · obtain ⟨j, hj⟩ := Int.eq_ofNat_of_zero_le h53
    have e2 : (2 : ℚ) ^ 53 * 2 ^ e = 2 ^ j := by
      rw [← zpow_natCast, ← zpow_natCast, ← zpow_add₀ (by norm_num)]
      congr 1
    have hlt : (N : ℚ) - 1 < 2 ^ j := by
      have := mul_lt_mul_of_pos_right hm' hp
      rw [e2] at this
      linarith
    have hle : N ≤ 2 ^ j := by
      have : (N : ℚ) < 2 ^ j + 1 := by linarith
      have : N < 2 ^ j + 1 := by exact_mod_cast this
      omega
    have hle' : (N : ℚ) ≤ 2 ^ j := by exact_mod_cast hle
    rw [← e2] at hle'
    have : (N : ℚ) / 2 ^ 53 ≤ 2 ^ e := by
      rw [div_le_iff₀ (by positivity)]
      linarith
    linarith
  · have e2 : (2 : ℚ) ^ 53 * 2 ^ e ≤ 1 / 2 := by
      rw [← zpow_natCast, ← zpow_add₀ (by norm_num)]
      calc (2 : ℚ) ^ (((53 : ℕ) : ℤ) + e) ≤ 2 ^ (-1 : ℤ) := zpow_le_zpow_right₀ (by norm_num) (by push_cast; omega)
        _ = 1 / 2 := by norm_num
    have h3 : (m : ℚ) * 2 ^ e < 1 / 2 := lt_of_lt_of_le (mul_lt_mul_of_pos_right hm' hp) e2
    have h4 : (N : ℚ) / 2 ^ 53 ≤ N / 2 := by
      apply div_le_div_of_nonneg_left <;> norm_num
    linarith

/-- The place of a percentile, for a share `c` that is the double nearest to `p` hundredths. -/
theorem index_eq {c : ℚ} {p : ℕ} (hp : p ≤ 99) (h1 : c ≤ p / 100) (h2 : (p : ℚ) / 100 * (1 - 1 / 2 ^ 54) < c) (hc : 0 < c) {k : ℕ} (hk : k < 2 ^ 40) :
    (F64.mul (.fin c) (F64.ofNat k)).toUsize = k * p / 100 := by
  have hk53 : k ≤ 2 ^ 53 := by omega
  rw [ofNat_exact hk53]
  unfold F64.ofIntExact
  by_cases h0 : (k : ℤ) = 0
  · have : k = 0 := by omega
    subst this
    rw [if_pos h0]
    simp [F64.mul, F64.toUsize, F64.toIntSat]
  rw [if_neg h0]
  have hk0 : (0 : ℚ) < k := by
    have : 0 < k := by omega
    exact_mod_cast this
  have em : F64.mul (.fin c) (.fin (k : ℤ)) = F64.round (c * (k : ℚ)) := by
    simp only [F64.mul, Int.cast_natCast]
  rw [em]
  set N := k * p / 100 with hN
  have hdiv := Nat.div_add_mod (k * p) 100
  have hmod := Nat.mod_lt (k * p) (by norm_num : 0 < 100)
  have hr : (k : ℚ) * p / 100 = N + ((k * p % 100 : ℕ) : ℚ) / 100 := by
    have : ((100 * N + k * p % 100 : ℕ) : ℚ) = ((k * p : ℕ) : ℚ) := by rw [hN, hdiv]
    push_cast at this ⊢
    linarith
  have hmq : ((k * p % 100 : ℕ) : ℚ) ≤ 99 := by exact_mod_cast (by omega : k * p % 100 ≤ 99)
  have hNk : N ≤ k := by
    have : k * p ≤ k * 99 := Nat.mul_le_mul_left _ hp
    omega
  -- from above
  have hw : IsBin64 ((N : ℚ) + 127 / 128) := by
    refine ⟨128 * N + 127, -7, ?_, by norm_num, by norm_num, ?_⟩
    · rw [abs_of_nonneg (by positivity)]; omega
    · push_cast; rw [show (2 : ℚ) ^ (-7 : ℤ) = 1 / 128 by norm_num]; ring
  have up := F64.key_round_le hw (q := c * k) (by
    have : c * k ≤ p / 100 * k := mul_le_mul_of_nonneg_right h1 hk0.le
    have e : (p : ℚ) / 100 * k = k * p / 100 := by ring
    rw [e, hr] at this
    linarith) false
  -- from below
  have lo : toLex ((0 : ℤ), (N : ℚ)) ≤ F64.key (F64.round (c * k)) := by
    have hb : IsBin64 ((N : ℕ) : ℚ) := by
      have := F64.isBin64_int (N : ℤ) (by rw [abs_of_nonneg (by positivity)]; omega)
      exact_mod_cast this
    by_cases hge : (N : ℚ) ≤ c * k
    · exact F64.le_key_round hb hge false
    push Not at hge
    have hN0 : 0 < N := by
      by_contra hn
      have : N = 0 := by omega
      rw [this] at hge
      have := mul_pos hc hk0
      push_cast at hge
      linarith
    have hN0q : (0 : ℚ) < N := by exact_mod_cast hN0
    have hlow : (N : ℚ) * (1 - 1 / 2 ^ 54) < c * k := by
      have a1 : (p : ℚ) / 100 * (1 - 1 / 2 ^ 54) * k < c * k := mul_lt_mul_of_pos_right h2 hk0
      have a2 : (N : ℚ) ≤ k * p / 100 := by rw [hr]; have : (0 : ℚ) ≤ ((k * p % 100 : ℕ) : ℚ) := by positivity
                                            linarith
      have a3 : (N : ℚ) * (1 - 1 / 2 ^ 54) ≤ k * p / 100 * (1 - 1 / 2 ^ 54) := mul_le_mul_of_nonneg_right a2 (by norm_num)
      calc (N : ℚ) * (1 - 1 / 2 ^ 54) ≤ k * p / 100 * (1 - 1 / 2 ^ 54) := a3
        _ = (p : ℚ) / 100 * (1 - 1 / 2 ^ 54) * k := by ring
        _ < c * k := a1
    have hne : c * k ≠ 0 := (mul_pos hc hk0).ne'
    have hir := F64.round_isRounded hne false
    have near : ∀ R : ℚ, IsBin64 R → (∀ w, IsBin64 w → |c * k - R| ≤ |c * k - w|) → (N : ℚ) ≤ R := by
      intro R hR hn
      by_contra hlt
      push Not at hlt
      have g := double_gap hR hN0 (by omega) hlt
      have d := hn N hb
      rw [abs_of_neg (by linarith : c * (k : ℚ) - N < 0)] at d
      have d' := le_abs_self (c * (k : ℚ) - R)
      have x1 : (N : ℚ) / 2 ^ 53 = 2 * (N * (1 / 2 ^ 54)) := by ring
      rw [x1] at g
      nlinarith
    rw [F64.key, Prod.Lex.toLex_le_toLex]
    cases hx : F64.round (c * (k : ℚ)) with
    | nan => rw [hx] at hir; exact hir.elim
    | inf s =>
      rw [hx] at hir
      cases s with
      | false => left; norm_num [F64.rank]
      | true =>
        have := hir.2.1 rfl
        have := mul_pos hc hk0
        linarith
    | zero s =>
      rw [hx] at hir
      right
      refine ⟨rfl, ?_⟩
      exact near 0 F64.isBin64_zero (fun w hw => by rw [sub_zero]; exact hir.1 w hw)
    | fin v =>
      rw [hx] at hir
      right
      exact ⟨rfl, near v hir.2.1 hir.2.2.2.1⟩
  -- together
  rw [F64.key, Prod.Lex.toLex_le_toLex] at up lo
  cases hx : F64.round (c * (k : ℚ)) with
  | nan => exact absurd hx (F64.round_ne_nan _ _)
  | inf s => rw [hx] at up lo; cases s <;> simp [F64.rank] at up lo
  | zero s =>
    rw [hx] at up lo
    simp only [F64.rank, F64.toRat, lt_irrefl, true_and, false_or] at lo
    have : N = 0 := by
      have : (N : ℚ) ≤ 0 := lo
      have : N ≤ 0 := by exact_mod_cast this
      omega
    simp [F64.toUsize, F64.toIntSat, this]
  | fin v =>
    rw [hx] at up lo
    simp only [F64.rank, F64.toRat, lt_irrefl, true_and, false_or] at lo up
    have ht : F64.truncRat v = N := by
      unfold F64.truncRat
      have hv0 : 0 ≤ v := le_trans (by positivity) lo
      rw [if_pos hv0]
      have : ⌊v⌋ = (N : ℤ) := by
        rw [Int.floor_eq_iff]
        push_cast
        exact ⟨lo, by linarith⟩
      rw [← this]
      rfl
    simp only [F64.toUsize, F64.toIntSat, ht]
    have hu : F64.u64Max = 18446744073709551615 := rfl
    rw [if_neg (by omega), if_neg (by omega)]
    omega

theorem share50 : F64.div (.fin 50) (.fin 100) = .fin (1 / 2) := by decide +kernel
theorem share95 : F64.div (.fin 95) (.fin 100) = .fin (8556839292003942 / 9007199254740992) := by decide +kernel
theorem share99 : F64.div (.fin 99) (.fin 100) = .fin (8917127262193582 / 9007199254740992) := by decide +kernel

theorem percentile_index {l : List Nat} (hl : l ≠ []) (hlen : l.length ≤ 2 ^ 40) {x : F64} {c : ℚ} {p : ℕ} (hx : F64.div x (.fin 100) = .fin c)
    (hp : p ≤ 99) (h1 : c ≤ p / 100) (h2 : (p : ℚ) / 100 * (1 - 1 / 2 ^ 54) < c) (hc : 0 < c) :
    percentile (l.map F64.ofNat) x = .ok (F64.ofNat (l.getD ((l.length - 1) * p / 100) 0)) := by
  have hpos : 0 < l.length := List.length_pos_iff.2 hl
  unfold percentile
  rw [hx]
  dsimp only
  rw [List.length_map, index_eq hp h1 h2 hc (by omega)]
  have hle : (l.length - 1) * p / 100 ≤ l.length - 1 := by
    have : (l.length - 1) * p ≤ (l.length - 1) * 99 := Nat.mul_le_mul_left _ hp
    omega
  rw [Nat.min_eq_left hle, List.getElem?_map, List.getElem?_eq_getElem (by omega)]
  simp only [Option.map_some]
  rw [List.getD_eq_getElem?_getD, List.getElem?_eq_getElem (by omega)]
  rfl

/-- **C116, the statistics.** If the warm-up is answered and at least one answer arrives, the report counts the successes and the failures exactly; the latencies are those of the
answers that arrived: the least, the greatest, the mean (rounded to a double), and the percentiles, which are the times at the places of 50, 95 and 99 hundredths in their order. -/
theorem C116_statistics (warm answers : List (Option Sample)) (hw : ∀ a ∈ warm, a ≠ none) (hne : times answers ≠ []) (hlen : answers.length < 2 ^ 31)
    (hsum : (times answers).sum ≤ 2 ^ 53) :
    ∃ (r : Report) (sorted : List Nat), benchmark warm answers = .report r ∧ sorted.Perm (times answers) ∧ sorted.Pairwise (· ≤ ·) ∧
      r.iterations = answers.length ∧
      r.successful = (answers.filter fun a => a.any Sample.success).length ∧ r.successful + r.failed = r.iterations ∧
      r.min = F64.ofNat (sorted.getD 0 0) ∧ r.max = F64.ofNat (sorted.getD (sorted.length - 1) 0) ∧
      r.p50 = F64.ofNat (sorted.getD ((sorted.length - 1) * 50 / 100) 0) ∧
      r.p95 = F64.ofNat (sorted.getD ((sorted.length - 1) * 95 / 100) 0) ∧
      r.p99 = F64.ofNat (sorted.getD ((sorted.length - 1) * 99 / 100) 0) ∧
      RoundsTo (((times answers).sum : ℚ) / (times answers).length) r.avg := by
  have hle : ∀ n ∈ times answers, n ≤ 2 ^ 53 := fun n hn => Nat.le_trans (List.single_le_sum (by simp) n hn) hsum
  have hwn : warm.any Option.isNone = false := by
    rw [List.any_eq_false]
    intro a ha hn
    exact hw a ha (Option.isNone_iff_eq_none.1 hn)
  have htl : (times answers).length ≤ answers.length := List.length_filterMap_le _ _
  unfold benchmark
  rw [hwn, tally_eq]
  simp only [Bool.false_eq_true, if_false, List.nil_append, Nat.zero_add]
  unfold statistics
  simp only [valid_eq answers hle]
  have he : ((times answers).map F64.ofNat).isEmpty = false := by simpa using hne
  have hnan : F64.nan ∉ (times answers).map F64.ofNat := by
    intro h
    obtain ⟨n, -, hn⟩ := List.mem_map.1 h
    exact ofNat_not_nan n hn
  have hpm := List.perm_insertionSort (· ≤ ·) (times answers)
  have hso := List.pairwise_insertionSort (· ≤ ·) (times answers)
  rw [sortNums_ok _ hnan, sortBy_ofNat _ hle]
  generalize (times answers).insertionSort (· ≤ ·) = sorted at hpm hso
  have hsl := hpm.length_eq
  have hsn : sorted ≠ [] := by
    rintro rfl
    exact hne hpm.nil_eq.symm
  have hs40 : sorted.length ≤ 2 ^ 40 := by omega
  have p50 := percentile_index hsn hs40 (p := 50) share50 (by norm_num) (by norm_num) (by norm_num) (by norm_num)
  have p95 := percentile_index hsn hs40 (p := 95) share95 (by norm_num) (by norm_num) (by norm_num) (by norm_num)
  have p99 := percentile_index hsn hs40 (p := 99) share99 (by norm_num) (by norm_num) (by norm_num) (by norm_num)
  simp only [he, Bool.false_eq_true, if_false, bind, Except.bind, pure, Except.pure, p50, p95, p99]
  have hcount : ∀ l : List (Option Sample), (l.filter fun a => a.any Sample.success).length + (l.filter fun a => !a.any Sample.success).length = l.length := by
    intro l
    induction l with
    | nil => rfl
    | cons a l ih => cases h : a.any Sample.success <;> simp [h] <;> omega
  have hpos : 0 < sorted.length := List.length_pos_iff.2 hsn
  -- the least and the greatest
  obtain ⟨d, ds, hds⟩ := List.exists_cons_of_ne_nil hne
  have hd : d ≤ 2 ^ 53 := hle d (by rw [hds]; simp)
  have hds' : ∀ n ∈ ds, n ≤ 2 ^ 53 := fun n hn => hle n (by rw [hds]; simp [hn])
  obtain ⟨m1, m2⟩ := Bench.foldl_min ds d
  obtain ⟨x1, x2⟩ := Bench.foldl_max ds d
  have emin : ((times answers).map F64.ofNat).foldl F64.fmin f64Max = F64.ofNat (ds.foldl Nat.min d) := by
    rw [hds, List.map_cons, List.foldl_cons]
    have : F64.fmin f64Max (F64.ofNat d) = F64.ofNat d := by
      have e : ∀ x y : F64, x ≠ .nan → y ≠ .nan → F64.fmin x y = if F64.flt y x then y else x := by
        intro x y hx hy; cases x <;> cases y <;> first | exact absurd rfl hx | exact absurd rfl hy | rfl
      rw [e _ _ (by simp [f64Max]) (ofNat_not_nan d), flt_max hd]; rfl
    rw [this, fold_min ds d hd hds']
  have emax : ((times answers).map F64.ofNat).foldl F64.fmax (.zero false) = F64.ofNat (ds.foldl Nat.max d) := by
    rw [hds]
    have := fold_max (d :: ds) 0 (by norm_num) (by rw [← hds]; exact hle)
    rw [show F64.ofNat 0 = .zero false by decide +kernel] at this
    rw [this, List.foldl_cons, show Nat.max 0 d = d from Nat.max_eq_right (Nat.zero_le d)]
  have hmem : ∀ n, n ∈ sorted ↔ n ∈ d :: ds := fun n => by rw [← hds]; exact hpm.mem_iff
  have hget : ∀ i (hi : i < sorted.length), sorted.getD i 0 = sorted[i] := fun i hi => by
    rw [List.getD_eq_getElem?_getD, List.getElem?_eq_getElem hi]; rfl
  have hmono : ∀ i j (hi : i < sorted.length) (hj : j < sorted.length), i ≤ j → sorted[i] ≤ sorted[j] := by
    intro i j hi hj hij
    rcases Nat.lt_or_eq_of_le hij with h | h
    · exact List.pairwise_iff_getElem.1 hso i j hi hj h
    · subst h; exact le_refl _
  have smin : sorted.getD 0 0 = ds.foldl Nat.min d := by
    rw [hget 0 hpos]
    apply Nat.le_antisymm
    · obtain ⟨i, hi, e⟩ := List.getElem_of_mem ((hmem _).2 m1)
      rw [← e]; exact hmono 0 i hpos hi (Nat.zero_le _)
    · exact m2 _ ((hmem _).1 (List.getElem_mem hpos))
  have smax : sorted.getD (sorted.length - 1) 0 = ds.foldl Nat.max d := by
    rw [hget _ (by omega)]
    apply Nat.le_antisymm
    · exact x2 _ ((hmem _).1 (List.getElem_mem _))
    · obtain ⟨i, hi, e⟩ := List.getElem_of_mem ((hmem _).2 x1)
      rw [← e]; exact hmono i _ hi (by omega) (by omega)
  refine ⟨_, sorted, rfl, hpm, hso, rfl, rfl, hcount answers, by rw [smin, emin], by rw [smax, emax], rfl, rfl, rfl, ?_⟩
  rw [fsum_ofNat _ hsum, List.length_map]
  have hl0 : (times answers).length ≠ 0 := fun h => hne (List.length_eq_zero_iff.1 h)
  have e2 : F64.ofNat (times answers).length = .fin ((times answers).length : ℚ) := by
    rw [ofNat_exact (by omega)]
    unfold F64.ofIntExact
    rw [if_neg (by omega)]
    simp
  rw [e2]
  by_cases h0 : (times answers).sum = 0
  · rw [h0, show F64.ofNat 0 = .zero false by decide +kernel]
    simp [F64.div, RoundsTo]
  · have e1 : F64.ofNat (times answers).sum = .fin ((times answers).sum : ℚ) := by
      rw [ofNat_exact hsum]
      unfold F64.ofIntExact
      rw [if_neg (by omega)]
      simp
    rw [e1]
    exact F64.roundsTo_round _ _

/-- **C116, the order.** The least time, the percentiles and the greatest time are in order. -/
theorem C116_order (warm answers : List (Option Sample)) (hw : ∀ a ∈ warm, a ≠ none) (hne : times answers ≠ []) (hlen : answers.length < 2 ^ 31)
    (hsum : (times answers).sum ≤ 2 ^ 53) :
    ∃ r, benchmark warm answers = .report r ∧ F64.fle r.min r.p50 = true ∧ F64.fle r.p50 r.p95 = true ∧ F64.fle r.p95 r.p99 = true ∧ F64.fle r.p99 r.max = true ∧
      F64.fle r.min r.avg = true ∧ F64.fle r.avg r.max = true := by
  obtain ⟨r, sorted, e, hpm, hso, -, -, -, hmin, hmax, h50, h95, h99, havg⟩ := C116_statistics warm answers hw hne hlen hsum
  have hsn : sorted ≠ [] := by
    rintro rfl
    exact hne hpm.nil_eq.symm
  have hpos : 0 < sorted.length := List.length_pos_iff.2 hsn
  have hle : ∀ n ∈ sorted, n ≤ 2 ^ 53 := fun n hn => Nat.le_trans (List.single_le_sum (by simp) n (hpm.mem_iff.1 hn)) hsum
  have hget : ∀ i (hi : i < sorted.length), sorted.getD i 0 = sorted[i] := fun i hi => by
    rw [List.getD_eq_getElem?_getD, List.getElem?_eq_getElem hi]; rfl
  have hmono : ∀ i j, i ≤ j → j < sorted.length → F64.fle (F64.ofNat (sorted.getD i 0)) (F64.ofNat (sorted.getD j 0)) = true := by
    intro i j hij hj
    have hi : i < sorted.length := by omega
    rw [hget i hi, hget j hj, fle_ofNat (hle _ (List.getElem_mem hi)) (hle _ (List.getElem_mem hj)), decide_eq_true_iff]
    rcases Nat.lt_or_eq_of_le hij with h | h
    · exact List.pairwise_iff_getElem.1 hso i j hi hj h
    · subst h; exact le_refl _
  have hb := Bench.sum_bounds (lo := sorted.getD 0 0) (hi := sorted.getD (sorted.length - 1) 0) sorted (by
    intro x hx
    obtain ⟨i, hi, e⟩ := List.getElem_of_mem hx
    rw [← e]
    have a := hmono 0 i (Nat.zero_le _) hi
    have b := hmono i (sorted.length - 1) (by omega) (by omega)
    rw [hget 0 hpos, hget i hi, fle_ofNat (hle _ (List.getElem_mem hpos)) (hle _ (List.getElem_mem hi)), decide_eq_true_iff] at a
    rw [hget i hi, hget _ (by omega : sorted.length - 1 < sorted.length), fle_ofNat (hle _ (List.getElem_mem hi)) (hle _ (List.getElem_mem _)), decide_eq_true_iff] at b
    rw [hget 0 hpos, hget _ (by omega : sorted.length - 1 < sorted.length)]
    exact ⟨a, b⟩)
  rw [hpm.sum_eq, hpm.length_eq] at hb
  have hl : (0 : ℚ) < (times answers).length := by
    have : 0 < (times answers).length := List.length_pos_iff.2 hne
    exact_mod_cast this
  have hval : ∀ n : ℕ, n ≤ 2 ^ 53 → RoundsTo (n : ℚ) (F64.ofNat n) := fun n hn => by
    have := F64.roundsTo_round ((n : ℤ) : ℚ) false
    exact_mod_cast this
  refine ⟨r, e, ?_, ?_, ?_, ?_, ?_, ?_⟩
  · rw [hmin, h50]; exact hmono _ _ (Nat.zero_le _) (by omega)
  · rw [h50, h95]; exact hmono _ _ (by omega) (by omega)
  · rw [h95, h99]; exact hmono _ _ (by omega) (by omega)
  · rw [h99, hmax]; exact hmono _ _ (by omega) (by omega)
  · rw [hmin, F64.fle_atMost]
    refine F64.roundsTo_mono (hval _ ?_) havg ?_
    · rw [hget 0 hpos]; exact hle _ (List.getElem_mem _)
    · rw [le_div_iff₀ hl]
      exact_mod_cast (by rw [Nat.mul_comm]; exact hb.1)
  · rw [hmax, F64.fle_atMost]
    refine F64.roundsTo_mono havg (hval _ ?_) ?_
    · rw [hget _ (by omega)]; exact hle _ (List.getElem_mem _)
    · rw [div_le_iff₀ hl]
      exact_mod_cast (by rw [Nat.mul_comm, hpm.length_eq]; exact hb.2)

/-- **C116, failures.** Without an answer to each request of the warm-up the benchmark ends there; without any answer afterwards, also if none was asked for, it says that
all requests failed. -/
theorem C116_failures (warm answers : List (Option Sample)) :
    (none ∈ warm → benchmark warm answers = .warmupFailed) ∧
    ((∀ a ∈ warm, a ≠ none) → times answers = [] → benchmark warm answers = .allFailed) := by
  unfold benchmark
  constructor
  · intro h
    rw [if_pos (List.any_eq_true.2 ⟨none, h, rfl⟩)]
  · intro hw ht
    have hwn : warm.any Option.isNone = false := by
      rw [List.any_eq_false]
      intro a ha hn
      exact hw a ha (Option.isNone_iff_eq_none.1 hn)
    rw [hwn, tally_eq]
    simp only [Bool.false_eq_true, if_false, List.nil_append, Nat.zero_add]
    unfold statistics
    simp only [valid_eq answers (by rw [ht]; simp), ht, List.map_nil, List.isEmpty_nil, if_true]

/-- **C116 fails for the server's times:** if none of them is positive, their average is NaN, and the least of them is the greatest double. -/
theorem C116_server_times (warm answers : List (Option Sample)) (hw : ∀ a ∈ warm, a ≠ none) (hne : times answers ≠ []) (hlen : answers.length < 2 ^ 31)
    (hsum : (times answers).sum ≤ 2 ^ 53) (h0 : ∀ s, some s ∈ answers → F64.fgt s.serverMs (.zero false) = false) :
    ∃ r, benchmark warm answers = .report r ∧ r.serverAvg = .nan ∧ r.serverMin = f64Max := by
  obtain ⟨r, sorted, e, -⟩ := C116_statistics warm answers hw hne hlen hsum
  refine ⟨r, e, ?_⟩
  have hwn : warm.any Option.isNone = false := by
    rw [List.any_eq_false]
    intro a ha hn
    exact hw a ha (Option.isNone_iff_eq_none.1 hn)
  unfold benchmark at e
  rw [hwn, tally_eq] at e
  simp only [Bool.false_eq_true, if_false, List.nil_append, Nat.zero_add] at e
  unfold statistics at e
  have hs : (answers.map (fun | some s => s.serverMs | none => .zero false)).filter (fun d => F64.fgt d (.zero false)) = [] := by
    rw [List.filter_eq_nil_iff]
    intro d hd
    obtain ⟨a, ha, rfl⟩ := List.mem_map.1 hd
    cases a with
    | none => decide
    | some s => simp [h0 s ha]
  simp only [hs] at e
  split at e
  · cases e
  · split at e
    · cases e
    · cases e
      exact ⟨show (Stat.fsum []).div (F64.ofNat ([] : List F64).length) = .nan by decide +kernel, rfl⟩

/-- A case: three answers, one without success, and one failure on the way. -/
example : (match benchmark (List.replicate 10 (some ⟨1, .fin 1, true⟩)) [some ⟨4, .fin 1, true⟩, none, some ⟨2, .fin 1, false⟩, some ⟨9, .fin 2, true⟩] with
    | .report r => some (r.successful, r.failed, r.p50, r.p99, r.max)
    | _ => none) = some (2, 2, .fin 4, .fin 4, .fin 9) := by decide +kernel

example (X : Ext) : (benchPlan X none [c!":a + 1", c!"5", c!"a=2", c!"7"]).map (·.2) = .ok 7 := by kernel_rfl

end Client
