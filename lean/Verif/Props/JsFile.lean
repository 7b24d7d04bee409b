import Verif.Lemmas.JsonNumbers
import Verif.Props.HttpFiles
import Verif.Props.HttpRead
import Verif.Props.Texts
/-! C131: what function a file defines, from the comments in it. -/

open Http

namespace JsFile

namespace Spec

/-- The line is the comment that gives this value for the key, white space at the ends aside. -/
def Says (key value line : Str) : Prop := ∃ rest, _root_.Spec.Trimmed line (c!"// @" ++ key ++ c!":" ++ rest) ∧ _root_.Spec.Trimmed rest value

/-- The last of the lines about the key gives this value. -/
def Last (key value : Str) (ls : List Str) : Prop := ∃ before l after, ls = before ++ l :: after ∧ Says key value l ∧ ∀ l' ∈ after, ∀ v, ¬ Says key v l'

/-- No line is about the key. -/
def Silent (key : Str) (ls : List Str) : Prop := ∀ l ∈ ls, ∀ v, ¬ Says key v l

/-- A number of arguments: digits, after a plus sign or not, for a number of 64 bits. -/
def Count (t : Str) (n : Nat) : Prop := ∃ ds, (t = ds ∨ t = '+' :: ds) ∧ ds ≠ [] ∧ (∀ c ∈ ds, Str.asciiDigit c = true) ∧ HttpRead.Spec.decimal ds = n ∧ n < 2 ^ 64

/-- The lines define the function. -/
structure Declares (ls : List Str) (f : JsFunction) : Prop where
  name : Last c!"name" f.name ls
  fewest : Silent c!"min_args" ls ∧ f.minArgs = 1 ∨ ∃ t, Last c!"min_args" t ls ∧ Count t f.minArgs
  most : (Silent c!"max_args" ls ∨ Last c!"max_args" c!"unlimited" ls) ∧ f.maxArgs = none ∨ ∃ t n, Last c!"max_args" t ls ∧ Count t n ∧ f.maxArgs = some n
  shown : Silent c!"example" ls ∧ f.example_ = none ∨ ∃ t, Last c!"example" t ls ∧ f.example_ = some t
  fewestAll : ∀ l ∈ ls, ∀ t, Says c!"min_args" t l → ∃ n, Count t n
  mostAll : ∀ l ∈ ls, ∀ t, Says c!"max_args" t l → t = c!"unlimited" ∨ ∃ n, Count t n

end Spec

open JsFile.Spec

/-! ### Trimming and numbers -/

theorem trimmed_iff (s t : Str) : _root_.Spec.Trimmed s t ↔ Str.strip s = t := by
  constructor
  · rintro ⟨⟨a, b, rfl, ha, hb⟩, h1, h2⟩
    cases t with
    | nil =>
      rw [List.append_nil]
      unfold Str.strip Str.trim
      rw [List.dropWhile_eq_nil_iff.2 (fun c hc => (isWs_iff c).2 ((List.mem_append.1 hc).elim (ha c) (hb c)))]
      rfl
    | cons x t =>
      have := _root_.strip_pad a (x :: t) b (fun c hc => (isWs_iff c).2 (ha c hc)) (fun c hc => (isWs_iff c).2 (hb c hc))
        ⟨⟨x, rfl, Bool.eq_false_iff.2 fun h => h1 x (by simp) ((isWs_iff x).1 h)⟩,
          ⟨_, List.getLast?_eq_some_getLast (by simp), Bool.eq_false_iff.2 fun h => h2 _ (List.getLast?_eq_some_getLast (by simp)) ((isWs_iff _).1 h)⟩⟩
      rw [List.append_assoc]
      exact this
  · rintro rfl
    exact trim_spec s

theorem count_iff (t : Str) (n : Nat) : Count t n ↔ Str.parseUsize t = some n := by
  have go : ∀ (b : Str) (k m : Nat), Str.digitsGo k b = some m → ∀ c ∈ b, Str.asciiDigit c = true := by
    intro b
    induction b with
    | nil => intro k m _ c hc; simp at hc
    | cons d b ih =>
      intro k m h c hc
      rw [Str.digitsGo] at h
      split at h
      · rename_i hd
        rcases List.mem_cons.1 hc with rfl | hc
        · exact hd
        · exact ih _ _ h c hc
      · cases h
  have use : ∀ b : Str, (if b.isEmpty then none else match Str.digitsGo 0 b with | some n => if n < 2 ^ 64 then some n else none | none => none) = some n ↔
      b ≠ [] ∧ (∀ c ∈ b, Str.asciiDigit c = true) ∧ HttpRead.Spec.decimal b = n ∧ n < 2 ^ 64 := by
    intro b
    constructor
    · intro hb
      split at hb
      · cases hb
      · rename_i hne
        cases hd : Str.digitsGo 0 b with
        | none => rw [hd] at hb; cases hb
        | some m =>
          rw [hd] at hb
          have hds := go b 0 m hd
          rw [HttpRead.digitsGo_decimal b 0 hds, Option.some.injEq] at hd
          simp only at hb
          split at hb
          · rename_i hlt
            cases hb
            exact ⟨by rintro rfl; exact hne rfl, hds, hd, hlt⟩
          · cases hb
    · rintro ⟨hne, hds, rfl, hlt⟩
      rw [if_neg (by simpa using hne), HttpRead.digitsGo_decimal b 0 hds]
      exact if_pos hlt
  unfold Count
  cases t with
  | nil =>
    rw [show Str.parseUsize [] = none from rfl]
    simp only [reduceCtorEq, iff_false]
    rintro ⟨ds, h | h, hne, -⟩
    · exact hne h.symm
    · cases h
  | cons c t =>
    by_cases hc : c = '+'
    · subst hc
      refine Iff.trans ?_ (use t).symm
      constructor
      · rintro ⟨ds, h | h, h1, h2, h3⟩
        · subst h
          exact absurd (h2 '+' (by simp)) (by decide)
        · cases h; exact ⟨h1, h2, h3⟩
      · rintro h
        exact ⟨t, .inr rfl, h⟩
    · have : Str.parseUsize (c :: t) = (if (c :: t).isEmpty then none else match Str.digitsGo 0 (c :: t) with | some n => if n < 2 ^ 64 then some n else none | none => none) := by
        unfold Str.parseUsize
        dsimp only
        split
        · rename_i h; exact absurd (List.cons.inj h).1 hc
        · rfl
      rw [this]
      refine Iff.trans ?_ (use (c :: t)).symm
      constructor
      · rintro ⟨ds, h | h, h1⟩
        · subst h; exact h1
        · exact absurd (List.cons.inj h).1 hc
      · rintro h
        exact ⟨_, .inl rfl, h⟩

/-! ### Lines -/

/-- The value a line gives for a key. -/
def said (key l : Str) : Option Str := (Str.stripPrefix (Str.strip l) (c!"// @" ++ key ++ c!":")).map Str.strip

theorem stripPrefix_iff (s p r : Str) : Str.stripPrefix s p = some r ↔ s = p ++ r := by
  induction p generalizing s with
  | nil => simp [Str.stripPrefix]
  | cons x p ih =>
    cases s with
    | nil => simp [Str.stripPrefix]
    | cons c s =>
      rw [Str.stripPrefix]
      by_cases h : c = x
      · rw [if_pos h, ih]; simp [h]
      · rw [if_neg h]; simp [h]

theorem says_iff (key v l : Str) : Says key v l ↔ said key l = some v := by
  unfold Says said
  simp only [trimmed_iff, Option.map_eq_some_iff, stripPrefix_iff]

/-- The last value given for a key. -/
def lastSaid (key : Str) (ls : List Str) : Option Str := (ls.filterMap (said key)).getLast?

theorem lastSaid_cons (key l : Str) (ls : List Str) : lastSaid key (l :: ls) = (lastSaid key ls).or (said key l) := by
  unfold lastSaid
  cases hf : said key l with
  | none => rw [List.filterMap_cons_none hf]; simp
  | some a =>
    rw [List.filterMap_cons_some hf, List.getLast?_cons]
    cases (ls.filterMap (said key)).getLast? <;> rfl

theorem silent_iff (key : Str) (ls : List Str) : Silent key ls ↔ lastSaid key ls = none := by
  unfold Silent lastSaid
  simp only [says_iff, List.getLast?_eq_none_iff, List.filterMap_eq_nil_iff]
  constructor
  · intro h l hl
    cases hs : said key l with
    | none => rfl
    | some v => exact absurd hs (h l hl v)
  · intro h l hl v
    rw [h l hl]; simp

theorem last_iff (key v : Str) (ls : List Str) : Last key v ls ↔ lastSaid key ls = some v := by
  induction ls with
  | nil => simp [Last, lastSaid]
  | cons l ls ih =>
    rw [lastSaid_cons]
    constructor
    · rintro ⟨before, l', after, h, h1, h2⟩
      cases before with
      | nil =>
        cases h
        rw [(silent_iff key ls).1 h2, Option.none_or]
        exact (says_iff _ _ _).1 h1
      | cons b before =>
        cases h
        rw [ih.1 ⟨before, l', after, rfl, h1, h2⟩]
        rfl
    · intro h
      cases hs : lastSaid key ls with
      | none =>
        rw [hs, Option.none_or] at h
        exact ⟨[], l, ls, rfl, (says_iff _ _ _).2 h, (silent_iff key ls).2 hs⟩
      | some w =>
        rw [hs, Option.some_or] at h
        obtain ⟨before, l', after, rfl, h1, h2⟩ := ih.2 (hs.trans h)
        exact ⟨l :: before, l', after, rfl, h1, h2⟩

/-- A line is about one key only. -/
theorem said_one {k k' l v : Str} (hk : k ≠ k') (h1 : ':' ∉ k) (h2 : ':' ∉ k') (h : said k l = some v) : said k' l = none := by
  cases hs : said k' l with
  | none => rfl
  | some w =>
    exfalso
    unfold said at h hs
    simp only [Option.map_eq_some_iff, stripPrefix_iff] at h hs
    obtain ⟨r, h, -⟩ := h
    obtain ⟨r', h', -⟩ := hs
    rw [h] at h'
    simp only [List.append_assoc] at h'
    have h' := List.append_cancel_left h'
    have key : ∀ (a b r r' : Str), ':' ∉ a → ':' ∉ b → a ++ ([':'] ++ r) = b ++ ([':'] ++ r') → a = b := by
      intro a
      induction a with
      | nil =>
        intro b r r' _ hb h
        cases b with
        | nil => rfl
        | cons y b => exact absurd (List.cons.inj h).1 (by rintro rfl; simp at hb)
      | cons x a ih =>
        intro b r r' ha hb h
        cases b with
        | nil => exact absurd (List.cons.inj h).1 (by rintro rfl; simp at ha)
        | cons y b =>
          obtain ⟨rfl, h2⟩ := List.cons.inj h
          rw [ih b r r' (fun h => ha (by simp [h])) (fun h => hb (by simp [h])) h2]
    exact hk (key _ _ _ _ h1 h2 h')

/-! ### The loop -/

theorem jsMeta_cons (l : Str) (ls : List Str) (m : JsMeta) : jsMeta (l :: ls) m =
    match said c!"name" l with
    | some v => jsMeta ls { m with name := some v }
    | none => match said c!"min_args" l with
      | some v => (match Str.parseUsize v with
        | some n => jsMeta ls { m with minArgs := n }
        | none => fail "Invalid min_args value")
      | none => match said c!"max_args" l with
        | some v =>
          (if v = c!"unlimited" then jsMeta ls { m with maxArgs := none }
          else match Str.parseUsize v with
            | some n => jsMeta ls { m with maxArgs := some n }
            | none => fail "Invalid max_args value")
        | none => match said c!"example" l with
          | some v => jsMeta ls { m with example_ := some v }
          | none => jsMeta ls m := by
  rw [jsMeta]
  have hn : said c!"name" l = (Str.stripPrefix (Str.strip l) c!"// @name:").map Str.strip := rfl
  have hi : said c!"min_args" l = (Str.stripPrefix (Str.strip l) c!"// @min_args:").map Str.strip := rfl
  have ha : said c!"max_args" l = (Str.stripPrefix (Str.strip l) c!"// @max_args:").map Str.strip := rfl
  have hd : said c!"description" l = (Str.stripPrefix (Str.strip l) c!"// @description:").map Str.strip := rfl
  have he : said c!"example" l = (Str.stripPrefix (Str.strip l) c!"// @example:").map Str.strip := rfl
  have hx : ∀ v, said c!"description" l = some v → said c!"example" l = none := fun v h => said_one (by decide) (by decide) (by decide) h
  rw [hn, hi, ha, he]
  rw [hd, he] at hx
  cases h1 : Str.stripPrefix (Str.strip l) c!"// @name:" with
  | some r => rfl
  | none =>
    cases h2 : Str.stripPrefix (Str.strip l) c!"// @min_args:" with
    | some r => rfl
    | none =>
      cases h3 : Str.stripPrefix (Str.strip l) c!"// @max_args:" with
      | some r => rfl
      | none =>
        cases h4 : Str.stripPrefix (Str.strip l) c!"// @description:" with
        | some r =>
          rw [h4] at hx
          rw [hx _ rfl]
          rfl
        | none =>
          cases h5 : Str.stripPrefix (Str.strip l) c!"// @example:" <;> rfl

/-- The limit a line about the most arguments gives. -/
def limitOf (t : Str) : Option Nat := if t = c!"unlimited" then none else Str.parseUsize t

/-- The numbers of arguments can all be read. -/
def Readable (ls : List Str) : Prop :=
  (∀ l ∈ ls, ∀ t, said c!"min_args" l = some t → ∃ n, Str.parseUsize t = some n) ∧
  (∀ l ∈ ls, ∀ t, said c!"max_args" l = some t → t = c!"unlimited" ∨ ∃ n, Str.parseUsize t = some n)

/-- What has been found after the lines. -/
def found (ls : List Str) (m : JsMeta) : JsMeta :=
  ⟨(lastSaid c!"name" ls).or m.name, ((lastSaid c!"min_args" ls).bind Str.parseUsize).getD m.minArgs, ((lastSaid c!"max_args" ls).map limitOf).getD m.maxArgs,
    (lastSaid c!"example" ls).or m.example_⟩

theorem readable_cons {l : Str} {ls : List Str} : Readable (l :: ls) ↔
    (∀ t, said c!"min_args" l = some t → ∃ n, Str.parseUsize t = some n) ∧
    (∀ t, said c!"max_args" l = some t → t = c!"unlimited" ∨ ∃ n, Str.parseUsize t = some n) ∧ Readable ls := by
  unfold Readable
  simp only [List.forall_mem_cons]
  tauto

theorem readable_last {ls : List Str} (h : Readable ls) {t : Str} (ht : lastSaid c!"min_args" ls = some t) : ∃ n, Str.parseUsize t = some n := by
  obtain ⟨before, l, after, rfl, h1, -⟩ := (last_iff _ _ _).2 ht
  exact h.1 l (by simp) t ((says_iff _ _ _).1 h1)

theorem jsMeta_ok (ls : List Str) (m : JsMeta) (h : Readable ls) : jsMeta ls m = .ok (found ls m) := by
  induction ls generalizing m with
  | nil => rfl
  | cons l ls ih =>
    obtain ⟨h1, h2, h3⟩ := readable_cons.1 h
    rw [jsMeta_cons]
    unfold found
    simp only [lastSaid_cons]
    cases hn : said c!"name" l with
    | some v =>
      have e1 : said c!"min_args" l = none := said_one (by decide) (by decide) (by decide) hn
      have e2 : said c!"max_args" l = none := said_one (by decide) (by decide) (by decide) hn
      have e3 : said c!"example" l = none := said_one (by decide) (by decide) (by decide) hn
      simp only [ih _ h3, found, e1, e2, e3, Option.or_none]
      cases lastSaid c!"name" ls <;> rfl
    | none =>
      cases hi : said c!"min_args" l with
      | some v =>
        have e2 : said c!"max_args" l = none := said_one (by decide) (by decide) (by decide) hi
        have e3 : said c!"example" l = none := said_one (by decide) (by decide) (by decide) hi
        obtain ⟨n, hp⟩ := h1 v hi
        simp only [hp, ih _ h3, found, e2, e3, Option.or_none]
        cases hl : lastSaid c!"min_args" ls with
        | none => simp [hp]
        | some t => obtain ⟨k, hk⟩ := readable_last h3 hl; simp [hk]
      | none =>
        cases ha : said c!"max_args" l with
        | some v =>
          have e3 : said c!"example" l = none := said_one (by decide) (by decide) (by decide) ha
          have key : ∀ x, x = limitOf v → found ls { m with maxArgs := x } =
              ⟨(lastSaid c!"name" ls).or m.name, ((lastSaid c!"min_args" ls).bind Str.parseUsize).getD m.minArgs, (((lastSaid c!"max_args" ls).or (some v)).map limitOf).getD m.maxArgs,
                (lastSaid c!"example" ls).or m.example_⟩ := by
            rintro x rfl
            unfold found
            cases lastSaid c!"max_args" ls <;> rfl
          simp only [e3, Option.or_none]
          rw [← key _ rfl]
          by_cases hv : v = c!"unlimited"
          · rw [if_pos hv, ih _ h3, limitOf, if_pos hv]
          · obtain ⟨n, hp⟩ := (h2 v ha).resolve_left hv
            rw [if_neg hv, hp]
            simp only [ih _ h3]
            rw [limitOf, if_neg hv, hp]
        | none =>
          cases he : said c!"example" l with
          | some v =>
            simp only [ih _ h3, found, Option.or_none]
            cases lastSaid c!"example" ls <;> rfl
          | none => simp only [ih _ h3, found, Option.or_none]

theorem jsMeta_bad (ls : List Str) (m : JsMeta) (h : ¬ Readable ls) :
    jsMeta ls m = fail "Invalid min_args value" ∧ (∃ l ∈ ls, ∃ t, said c!"min_args" l = some t ∧ Str.parseUsize t = none) ∨
    jsMeta ls m = fail "Invalid max_args value" ∧ (∃ l ∈ ls, ∃ t, said c!"max_args" l = some t ∧ t ≠ c!"unlimited" ∧ Str.parseUsize t = none) := by
  induction ls generalizing m with
  | nil => exact absurd ⟨by simp, by simp⟩ h
  | cons l ls ih =>
    have later : ∀ m, (∀ t, said c!"min_args" l = some t → ∃ n, Str.parseUsize t = some n) → (∀ t, said c!"max_args" l = some t → t = c!"unlimited" ∨ ∃ n, Str.parseUsize t = some n) →
        jsMeta ls m = fail "Invalid min_args value" ∧ (∃ l' ∈ l :: ls, ∃ t, said c!"min_args" l' = some t ∧ Str.parseUsize t = none) ∨
        jsMeta ls m = fail "Invalid max_args value" ∧ (∃ l' ∈ l :: ls, ∃ t, said c!"max_args" l' = some t ∧ t ≠ c!"unlimited" ∧ Str.parseUsize t = none) := by
      intro m h1 h2
      rcases ih m fun h3 => h (readable_cons.2 ⟨h1, h2, h3⟩) with ⟨e, l', hl, hh⟩ | ⟨e, l', hl, hh⟩
      · exact .inl ⟨e, l', by simp [hl], hh⟩
      · exact .inr ⟨e, l', by simp [hl], hh⟩
    rw [jsMeta_cons]
    cases hn : said c!"name" l with
    | some v =>
      have e1 : said c!"min_args" l = none := said_one (by decide) (by decide) (by decide) hn
      have e2 : said c!"max_args" l = none := said_one (by decide) (by decide) (by decide) hn
      exact later _ (by simp [e1]) (by simp [e2])
    | none =>
      cases hi : said c!"min_args" l with
      | some v =>
        have e2 : said c!"max_args" l = none := said_one (by decide) (by decide) (by decide) hi
        dsimp only
        cases hp : Str.parseUsize v with
        | none => exact .inl ⟨rfl, l, by simp, v, hi, hp⟩
        | some n => exact later _ (by intro t ht; rw [hi] at ht; cases ht; exact ⟨n, hp⟩) (by simp [e2])
      | none =>
        cases ha : said c!"max_args" l with
        | some v =>
          dsimp only
          by_cases hv : v = c!"unlimited"
          · rw [if_pos hv]
            exact later _ (by simp [hi]) (by intro t ht; rw [ha] at ht; cases ht; exact .inl hv)
          · rw [if_neg hv]
            cases hp : Str.parseUsize v with
            | none => exact .inr ⟨rfl, l, by simp, v, ha, hv, hp⟩
            | some n => exact later _ (by simp [hi]) (by intro t ht; rw [ha] at ht; cases ht; exact .inr ⟨n, hp⟩)
        | none =>
          cases said c!"example" l <;> exact later _ (by simp [hi]) (by simp [ha])

/-! ### Texts of lines -/

theorem strip_cr (l : Str) : Str.strip (Str.stripCr l.reverse) = Str.strip l := by
  rcases List.eq_nil_or_concat l with rfl | ⟨l, c, rfl⟩
  · rfl
  · rw [List.concat_eq_append, List.reverse_append]
    by_cases hc : c = '\r'
    · subst hc
      have h1 : Str.stripCr ('\r' :: l.reverse) = l := by rw [Str.stripCr, List.reverse_reverse]
      rw [show (['\r'] : Str).reverse ++ l.reverse = '\r' :: l.reverse from rfl, h1]
      symm
      obtain ⟨⟨a, b, e, ha, hb⟩, h2, h3⟩ := (trimmed_iff l _).2 rfl
      refine (trimmed_iff _ _).1 ⟨⟨a, b ++ ['\r'], by rw [← List.append_assoc, ← e], ha, fun c hc => ?_⟩, h2, h3⟩
      rcases List.mem_append.1 hc with hc | hc
      · exact hb c hc
      · rw [List.mem_singleton.1 hc]; unfold _root_.Spec.White; decide
    · have h1 : Str.stripCr (c :: l.reverse) = l ++ [c] := by
        rw [Str.stripCr.eq_def]
        split
        · rename_i h; exact absurd (List.cons.inj h).1 hc
        · simp
      rw [show ([c] : Str).reverse ++ l.reverse = c :: l.reverse from rfl, h1]

theorem said_strip {k l l' : Str} (h : Str.strip l = Str.strip l') : said k l = said k l' := by unfold said; rw [h]

theorem linesGo_line (l : Str) (h : '\n' ∉ l) (acc rest : Str) : Str.linesGo acc (l ++ '\n' :: rest) = Str.stripCr (l.reverse ++ acc) :: Str.linesGo [] rest := by
  induction l generalizing acc with
  | nil => rw [List.nil_append, Str.linesGo, if_pos rfl]; rfl
  | cons c l ih =>
    rw [List.cons_append, Str.linesGo, if_neg (by rintro rfl; simp at h), ih (fun hh => h (by simp [hh]))]
    simp

theorem linesGo_end (l : Str) (h : '\n' ∉ l) (acc : Str) : Str.linesGo acc l = if (l.reverse ++ acc).isEmpty then [] else [acc.reverse ++ l] := by
  induction l generalizing acc with
  | nil => simp [Str.linesGo]
  | cons c l ih =>
    rw [Str.linesGo, if_neg (by rintro rfl; simp at h), ih (fun hh => h (by simp [hh]))]
    simp

/-- The lines of a text, as far as the comments go. -/
theorem lines_said (ls : List Str) (h : ∀ l ∈ ls, '\n' ∉ l) (k : Str) : (Str.lines (c!"\n".intercalate ls)).filterMap (said k) = ls.filterMap (said k) := by
  unfold Str.lines
  induction ls with
  | nil => rfl
  | cons l ls ih =>
    cases ls with
    | nil =>
      rw [List.intercalate_singleton, linesGo_end l (h l (by simp))]
      cases l with
      | nil => rfl
      | cons c l => simp
    | cons l' ls =>
      rw [show c!"\n".intercalate (l :: l' :: ls) = l ++ '\n' :: c!"\n".intercalate (l' :: ls) by simp [List.intercalate], linesGo_line l (h l (by simp)),
        List.append_nil, List.filterMap_cons, List.filterMap_cons (a := l), ih (fun x hx => h x (by simp [hx])), said_strip (strip_cr l)]

theorem forall_said {ls ls' : List Str} {k : Str} (h : ls.filterMap (said k) = ls'.filterMap (said k)) (P : Str → Prop) :
    (∀ l ∈ ls, ∀ t, said k l = some t → P t) ↔ ∀ l ∈ ls', ∀ t, said k l = some t → P t := by
  have key : ∀ ls : List Str, (∀ l ∈ ls, ∀ t, said k l = some t → P t) ↔ ∀ t ∈ ls.filterMap (said k), P t := by
    intro ls
    simp only [List.mem_filterMap]
    exact ⟨fun h t ⟨l, hl, ht⟩ => h l hl t ht, fun h l hl t ht => h t ⟨l, hl, ht⟩⟩
  rw [key, key, h]

theorem readable_lines (ls : List Str) (h : ∀ l ∈ ls, '\n' ∉ l) : Readable (Str.lines (c!"\n".intercalate ls)) ↔ Readable ls :=
  and_congr (forall_said (lines_said ls h _) fun t => ∃ n, Str.parseUsize t = some n) (forall_said (lines_said ls h _) fun t => t = c!"unlimited" ∨ ∃ n, Str.parseUsize t = some n)

theorem lastSaid_lines (ls : List Str) (h : ∀ l ∈ ls, '\n' ∉ l) (k : Str) : lastSaid k (Str.lines (c!"\n".intercalate ls)) = lastSaid k ls := by
  unfold lastSaid; rw [lines_said ls h]

theorem found_lines (ls : List Str) (h : ∀ l ∈ ls, '\n' ∉ l) (m : JsMeta) : found (Str.lines (c!"\n".intercalate ls)) m = found ls m := by
  unfold found; simp only [lastSaid_lines ls h]

theorem readable_iff (ls : List Str) : Readable ls ↔
    (∀ l ∈ ls, ∀ t, Says c!"min_args" t l → ∃ n, Count t n) ∧ ∀ l ∈ ls, ∀ t, Says c!"max_args" t l → t = c!"unlimited" ∨ ∃ n, Count t n := by
  unfold Readable
  simp only [says_iff, count_iff]

/-- **C131.** The function a file defines is the one its comments describe: a line `// @name: …` gives the name, `// @min_args: …` and `// @max_args: …` the numbers of arguments (at least one
and without a limit if they are missing), `// @example: …` the example, of several such lines the last. White space around lines and values does not count, nor does anything else in the file. -/
theorem C131_defines (ls : List Str) (hl : ∀ l ∈ ls, '\n' ∉ l) (f : JsFunction) :
    parseJs (c!"\n".intercalate ls) = .ok f ↔ Declares ls f ∧ f.code = c!"\n".intercalate ls := by
  unfold parseJs
  by_cases hr : Readable ls
  · rw [jsMeta_ok _ _ ((readable_lines ls hl).2 hr), found_lines ls hl]
    simp only [bind, Except.bind, found, Option.or_none]
    constructor
    · intro h
      cases hn : lastSaid c!"name" ls with
      | none => rw [hn] at h; cases h
      | some name =>
        rw [hn] at h
        simp only [pure, Except.pure, Except.ok.injEq] at h
        subst h
        refine ⟨{ name := (last_iff _ _ _).2 hn, fewest := ?_, most := ?_, shown := ?_, fewestAll := ((readable_iff ls).1 hr).1, mostAll := ((readable_iff ls).1 hr).2 }, rfl⟩
        · cases hi : lastSaid c!"min_args" ls with
          | none => exact .inl ⟨(silent_iff _ _).2 hi, rfl⟩
          | some t =>
            obtain ⟨n, hp⟩ := readable_last hr hi
            exact .inr ⟨t, (last_iff _ _ _).2 hi, (count_iff _ _).2 (by simp [hp])⟩
        · cases hi : lastSaid c!"max_args" ls with
          | none => exact .inl ⟨.inl ((silent_iff _ _).2 hi), rfl⟩
          | some t =>
            by_cases ht : t = c!"unlimited"
            · exact .inl ⟨.inr ((last_iff _ _ _).2 (ht ▸ hi)), by simp [limitOf, ht]⟩
            · obtain ⟨before, l, after, e, h1, -⟩ := (last_iff _ _ _).2 hi
              obtain ⟨n, hp⟩ := (hr.2 l (by simp [e]) t ((says_iff _ _ _).1 h1)).resolve_left ht
              exact .inr ⟨t, n, (last_iff _ _ _).2 hi, (count_iff _ _).2 hp, by simp [limitOf, ht, hp]⟩
        · cases hi : lastSaid c!"example" ls with
          | none => exact .inl ⟨(silent_iff _ _).2 hi, rfl⟩
          | some t => exact .inr ⟨t, (last_iff _ _ _).2 hi, rfl⟩
    · rintro ⟨h, hc⟩
      rw [(last_iff _ _ _).1 h.name]
      simp only [pure, Except.pure, Except.ok.injEq]
      obtain ⟨name, mi, ma, ex, code⟩ := f
      simp only [JsFunction.mk.injEq, true_and]
      refine ⟨?_, ?_, ?_, hc.symm⟩
      · rcases h.fewest with ⟨h1, h2⟩ | ⟨t, h1, h2⟩
        · rw [(silent_iff _ _).1 h1]; exact h2.symm
        · rw [(last_iff _ _ _).1 h1, Option.bind_some, (count_iff _ _).1 h2]; rfl
      · rcases h.most with ⟨h1 | h1, h2⟩ | ⟨t, n, h1, h2, h3⟩
        · rw [(silent_iff _ _).1 h1]; exact h2.symm
        · rw [(last_iff _ _ _).1 h1]; exact h2.symm
        · rw [(last_iff _ _ _).1 h1, Option.map_some, limitOf, if_neg, (count_iff _ _).1 h2]
          · exact h3.symm
          · rintro rfl
            have h2 := (count_iff _ _).1 h2
            rw [show Str.parseUsize c!"unlimited" = none by decide] at h2
            cases h2
      · rcases h.shown with ⟨h1, h2⟩ | ⟨t, h1, h2⟩
        · rw [(silent_iff _ _).1 h1]; exact h2.symm
        · rw [(last_iff _ _ _).1 h1]; exact h2.symm
  · constructor
    · intro h
      rcases jsMeta_bad (Str.lines (c!"\n".intercalate ls)) {} (fun h => hr ((readable_lines ls hl).1 h)) with ⟨e, -⟩ | ⟨e, -⟩ <;> rw [e] at h <;> cases h
    · rintro ⟨h, -⟩
      exact absurd ((readable_iff ls).2 ⟨h.fewestAll, h.mostAll⟩) hr

/-- Every text is the text of its lines. -/
theorem C131_lines (code : Str) : ∃ ls : List Str, (∀ l ∈ ls, '\n' ∉ l) ∧ c!"\n".intercalate ls = code := by
  induction code with
  | nil => exact ⟨[], by simp, rfl⟩
  | cons c code ih =>
    obtain ⟨ls, h1, h2⟩ := ih
    by_cases hc : c = '\n'
    · cases ls with
      | nil => exact ⟨[[], []], by simp, by rw [← h2, hc]; rfl⟩
      | cons l ls => exact ⟨[] :: l :: ls, by simpa using h1, by rw [← h2, hc]; simp [List.intercalate]⟩
    · cases ls with
      | nil => exact ⟨[[c]], by simpa using Ne.symm hc, by rw [← h2]; rfl⟩
      | cons l ls =>
        refine ⟨(c :: l) :: ls, ?_, ?_⟩
        · intro x hx
          rcases List.mem_cons.1 hx with rfl | hx
          · simp [Ne.symm hc, h1 l (by simp)]
          · exact h1 x (by simp [hx])
        · rw [← h2]
          cases ls <;> simp [List.intercalate]

/-- **C131.** A file that defines no function is refused with one of three messages, each for its reason; reading the comments never panics. -/
theorem C131_refused (ls : List Str) (hl : ∀ l ∈ ls, '\n' ∉ l) (e : Fail) (h : parseJs (c!"\n".intercalate ls) = .error e) :
    e = .err "JavaScript function must have @name annotation" [] none ∧ Silent c!"name" ls ∨
    e = .err "Invalid min_args value" [] none ∧ (∃ l ∈ ls, ∃ t, Says c!"min_args" t l ∧ ∀ n, ¬ Count t n) ∨
    e = .err "Invalid max_args value" [] none ∧ ∃ l ∈ ls, ∃ t, Says c!"max_args" t l ∧ t ≠ c!"unlimited" ∧ ∀ n, ¬ Count t n := by
  have back : ∀ k (P : Str → Prop), (∃ l ∈ Str.lines (c!"\n".intercalate ls), ∃ t, said k l = some t ∧ P t) → ∃ l ∈ ls, ∃ t, Says k t l ∧ P t := by
    rintro k P ⟨l, hm, t, ht, hp⟩
    have : t ∈ (Str.lines (c!"\n".intercalate ls)).filterMap (said k) := List.mem_filterMap.2 ⟨l, hm, ht⟩
    rw [lines_said ls hl] at this
    obtain ⟨l', hl', ht'⟩ := List.mem_filterMap.1 this
    exact ⟨l', hl', t, (says_iff _ _ _).2 ht', hp⟩
  have none_count : ∀ t, Str.parseUsize t = none → ∀ n, ¬ Count t n := by
    intro t ht n hn
    rw [count_iff, ht] at hn
    cases hn
  unfold parseJs at h
  by_cases hr : Readable ls
  · rw [jsMeta_ok _ _ ((readable_lines ls hl).2 hr), found_lines ls hl] at h
    simp only [bind, Except.bind, found, Option.or_none] at h
    cases hn : lastSaid c!"name" ls with
    | none => rw [hn] at h; cases h; exact .inl ⟨rfl, (silent_iff _ _).2 hn⟩
    | some name => rw [hn] at h; cases h
  · rcases jsMeta_bad (Str.lines (c!"\n".intercalate ls)) {} (fun h => hr ((readable_lines ls hl).1 h)) with ⟨e', hh⟩ | ⟨e', hh⟩ <;> rw [e'] at h <;> cases h
    · refine .inr (.inl ⟨rfl, back _ (fun t => ∀ n, ¬ Count t n) ?_⟩)
      obtain ⟨l, h1, t, h2, h3⟩ := hh
      exact ⟨l, h1, t, h2, none_count t h3⟩
    · refine .inr (.inr ⟨rfl, back _ (fun t => t ≠ c!"unlimited" ∧ ∀ n, ¬ Count t n) ?_⟩)
      obtain ⟨l, h1, t, h2, h3, h4⟩ := hh
      exact ⟨l, h1, t, h2, h3, none_count t h4⟩

/-- **C131.** A file defines at most one function. -/
theorem C131_one {ls : List Str} {f g : JsFunction} (hl : ∀ l ∈ ls, '\n' ∉ l) (hf : Declares ls f) (hg : Declares ls g) (hc : f.code = c!"\n".intercalate ls)
    (hc' : g.code = c!"\n".intercalate ls) : f = g := by
  have h1 := (C131_defines ls hl f).2 ⟨hf, hc⟩
  rw [(C131_defines ls hl g).2 ⟨hg, hc'⟩] at h1
  exact (Except.ok.inj h1).symm

/-! ### Files as they are written -/

/-- A value that can be written on a line. -/
def Spec.Plain (t : Str) : Prop := '\n' ∉ t ∧ _root_.Spec.Trimmed t t

/-- The comments for a function. -/
def Spec.comments (f : JsFunction) : List Str :=
  [c!"// @name: " ++ f.name, c!"// @min_args: " ++ Nat.toDigits 10 f.minArgs, c!"// @max_args: " ++ (match f.maxArgs with | some n => Nat.toDigits 10 n | none => c!"unlimited")] ++
    (match f.example_ with | some t => [c!"// @example: " ++ t] | none => [])

/-- A line that no comment of a function begins. -/
def Spec.Body (l : Str) : Prop := ∀ key ∈ [c!"name", c!"min_args", c!"max_args", c!"example"], ∀ v, ¬ Says key v l

theorem says_comment (k t : Str) (ht : Plain t) : Says k t (c!"// @" ++ k ++ c!": " ++ t) := by
  obtain ⟨-, -, h1, h2⟩ := ht
  rcases List.eq_nil_or_concat t with rfl | ⟨u, x, rfl⟩
  · refine ⟨[], ⟨⟨[], [' '], by simp, by simp, by simp [_root_.Spec.White]⟩, ?_, ?_⟩, ⟨⟨[], [], rfl, by simp, by simp⟩, by simp, by simp⟩⟩
    · intro c hc; simp at hc; subst hc; unfold _root_.Spec.White; decide
    · intro c hc
      rw [List.append_nil, List.getLast?_concat] at hc
      cases hc
      unfold _root_.Spec.White; decide
  · refine ⟨' ' :: u.concat x, ⟨⟨[], [], by simp, by simp, by simp⟩, ?_, ?_⟩, ⟨⟨[' '], [], by simp, by simp [_root_.Spec.White], by simp⟩, h1, h2⟩⟩
    · intro c hc; simp at hc; subst hc; unfold _root_.Spec.White; decide
    · intro c hc
      refine h2 c ?_
      rw [List.concat_eq_append] at hc ⊢
      rw [show c!"// @" ++ k ++ c!":" ++ ' ' :: (u ++ [x]) = (c!"// @" ++ k ++ c!":" ++ ' ' :: u) ++ [x] by simp, List.getLast?_concat] at hc
      rw [List.getLast?_concat]
      exact hc

theorem digits_count (n : Nat) (h : n < 2 ^ 64) : Count (Nat.toDigits 10 n) n := by
  refine ⟨_, .inl rfl, Nat.toDigits_ne_nil, fun c hc => ?_, ?_, h⟩
  · have := (JsonText.toDigits_digits n).2 c hc
    simp only [Str.asciiDigit, Bool.and_eq_true, decide_eq_true_eq]
    exact this
  · unfold HttpRead.Spec.decimal
    have := Nat.ofDigitChars_ten_toDigits (n := n)
    rw [Nat.ofDigitChars_eq_foldl] at this
    exact this

theorem digits_plain (n : Nat) : Plain (Nat.toDigits 10 n) := by
  have hc : ∀ c ∈ Nat.toDigits 10 n, Str.asciiDigit c = true := by
    intro c hc
    have := (JsonText.toDigits_digits n).2 c hc
    simp only [Str.asciiDigit, Bool.and_eq_true, decide_eq_true_eq]
    exact this
  have hw : ∀ c ∈ Nat.toDigits 10 n, ¬ _root_.Spec.White c := fun c h hw => by
    have h1 := (HttpRead.digit_facts (hc c h)).2.2
    rw [(isWs_iff c).2 hw] at h1
    cases h1
  exact ⟨fun h => absurd (hc _ h) (by decide), ⟨⟨[], [], by simp, by simp, by simp⟩, fun c h => hw c (List.mem_of_mem_head? h), fun c h => hw c (List.mem_of_mem_getLast? h)⟩⟩

theorem lastSaid_append (k : Str) (a b : List Str) : lastSaid k (a ++ b) = (lastSaid k b).or (lastSaid k a) := by
  unfold lastSaid
  rw [List.filterMap_append, List.getLast?_append]

/-- **C131.** Writing the comments for a function above its code and reading the file gives the function: its name, its numbers of arguments and its example. -/
theorem C131_written (f : JsFunction) (hn : Plain f.name) (hi : f.minArgs < 2 ^ 64) (ha : ∀ n, f.maxArgs = some n → n < 2 ^ 64) (he : ∀ t, f.example_ = some t → Plain t)
    (body : List Str) (hb : ∀ l ∈ body, '\n' ∉ l ∧ Body l) (hc : f.code = c!"\n".intercalate (comments f ++ body)) : parseJs f.code = .ok f := by
  have limit : Plain (match f.maxArgs with | some n => Nat.toDigits 10 n | none => c!"unlimited") := by
    cases f.maxArgs with
    | some n => exact digits_plain n
    | none => exact ⟨by decide, ⟨⟨[], [], rfl, by simp, by simp⟩, by unfold _root_.Spec.White; decide, by unfold _root_.Spec.White; decide⟩⟩
  have line : ∀ k t : Str, '\n' ∉ k → Plain t → '\n' ∉ c!"// @" ++ k ++ c!": " ++ t := by
    intro k t hk ht
    simp [hk, ht.1]
  have s1 := (says_iff _ _ _).1 (says_comment c!"name" f.name hn)
  have s2 := (says_iff _ _ _).1 (says_comment c!"min_args" _ (digits_plain f.minArgs))
  have s3 := (says_iff _ _ _).1 (says_comment c!"max_args" _ limit)
  have quiet : ∀ k ∈ [c!"name", c!"min_args", c!"max_args", c!"example"], lastSaid k body = none := fun k hk => (silent_iff _ _).1 fun l hl v => (hb l hl).2 k hk v
  have no : ∀ {k l v : Str} (k' : Str), said k l = some v → k ≠ k' → ':' ∉ k → ':' ∉ k' → said k' l = none := fun k' h h1 h2 h3 => said_one h1 h2 h3 h
  have whole : ∀ k ∈ [c!"name", c!"min_args", c!"max_args", c!"example"], lastSaid k (comments f ++ body) = lastSaid k (comments f) := by
    intro k hk
    rw [lastSaid_append, quiet k hk, Option.none_or]
  have tail : ∀ k, k ≠ c!"example" → ':' ∉ k → lastSaid k (match f.example_ with | some t => [c!"// @example: " ++ t] | none => []) = none := by
    intro k hk hk'
    cases h : f.example_ with
    | none => rfl
    | some t =>
      have := no k ((says_iff _ _ _).1 (says_comment c!"example" t (he t h))) hk.symm (by decide) hk'
      simp only [lastSaid, List.filterMap_cons]
      rw [show c!"// @example: " ++ t = c!"// @" ++ c!"example" ++ c!": " ++ t from rfl, this]
      rfl
  have three : ∀ k, lastSaid k (comments f) = (lastSaid k (match f.example_ with | some t => [c!"// @example: " ++ t] | none => [])).or
      (((none.or (said k (c!"// @" ++ c!"max_args" ++ c!": " ++ (match f.maxArgs with | some n => Nat.toDigits 10 n | none => c!"unlimited")))).or
        (said k (c!"// @" ++ c!"min_args" ++ c!": " ++ Nat.toDigits 10 f.minArgs))).or (said k (c!"// @" ++ c!"name" ++ c!": " ++ f.name))) := by
    intro k
    unfold comments
    rw [lastSaid_append, lastSaid_cons, lastSaid_cons, lastSaid_cons]
    rfl
  have e1 : lastSaid c!"name" (comments f) = some f.name := by
    rw [three, tail _ (by decide) (by decide), no c!"name" s3 (by decide) (by decide) (by decide), no c!"name" s2 (by decide) (by decide) (by decide), s1]
    rfl
  have e2 : lastSaid c!"min_args" (comments f) = some (Nat.toDigits 10 f.minArgs) := by
    rw [three, tail _ (by decide) (by decide), no c!"min_args" s3 (by decide) (by decide) (by decide), s2]
    rfl
  have e3 : lastSaid c!"max_args" (comments f) = some (match f.maxArgs with | some n => Nat.toDigits 10 n | none => c!"unlimited") := by
    rw [three, tail _ (by decide) (by decide), s3]
    rfl
  have e4 : lastSaid c!"example" (comments f) = f.example_ := by
    rw [three, no c!"example" s3 (by decide) (by decide) (by decide), no c!"example" s2 (by decide) (by decide) (by decide), no c!"example" s1 (by decide) (by decide) (by decide)]
    cases h : f.example_ with
    | none => rfl
    | some t =>
      have s4 := (says_iff _ _ _).1 (says_comment c!"example" t (he t h))
      simp only [lastSaid, List.filterMap_cons]
      rw [show c!"// @example: " ++ t = c!"// @" ++ c!"example" ++ c!": " ++ t from rfl, s4]
      rfl
  have lines : ∀ l ∈ comments f ++ body, '\n' ∉ l := by
    intro l hl
    rcases List.mem_append.1 hl with hl | hl
    · unfold comments at hl
      rcases List.mem_append.1 hl with hl | hl
      · simp only [List.mem_cons, List.not_mem_nil, or_false] at hl
        rcases hl with rfl | rfl | rfl
        · exact line c!"name" _ (by decide) hn
        · exact line c!"min_args" _ (by decide) (digits_plain _)
        · exact line c!"max_args" _ (by decide) limit
      · cases h : f.example_ with
        | none => rw [h] at hl; cases hl
        | some t => rw [h] at hl; rw [List.mem_singleton.1 hl]; exact line c!"example" t (by decide) (he t h)
    · exact (hb l hl).1
  -- what a line of the file can say about the numbers of arguments
  have only : ∀ (k v : Str), k ∈ [c!"name", c!"min_args", c!"max_args", c!"example"] → k ≠ c!"name" → k ≠ c!"example" → ∀ l ∈ comments f ++ body, Says k v l →
      (l = c!"// @min_args: " ++ Nat.toDigits 10 f.minArgs ∨ l = c!"// @max_args: " ++ (match f.maxArgs with | some n => Nat.toDigits 10 n | none => c!"unlimited")) := by
    intro k v hk hk1 hk2 l hl hs
    have hkc : ':' ∉ k := by
      simp only [List.mem_cons, List.not_mem_nil, or_false] at hk
      rcases hk with rfl | rfl | rfl | rfl <;> decide
    have hs' := (says_iff _ _ _).1 hs
    rcases List.mem_append.1 hl with hl | hl
    · unfold comments at hl
      rcases List.mem_append.1 hl with hl | hl
      · simp only [List.mem_cons, List.not_mem_nil, or_false] at hl
        rcases hl with rfl | rfl | rfl
        · rw [show said k (c!"// @name: " ++ f.name) = none from no k s1 hk1.symm (by decide) hkc] at hs'; cases hs'
        · exact .inl rfl
        · exact .inr rfl
      · cases h : f.example_ with
        | none => rw [h] at hl; cases hl
        | some t =>
          rw [h] at hl
          rw [List.mem_singleton.1 hl, show said k (c!"// @example: " ++ t) = none from
            no k ((says_iff _ _ _).1 (says_comment c!"example" t (he t h))) hk2.symm (by decide) hkc] at hs'
          cases hs'
    · exact absurd hs ((hb l hl).2 k hk v)
  rw [hc]
  refine (C131_defines _ lines f).2 ⟨{ name := ?_, fewest := ?_, most := ?_, shown := ?_, fewestAll := ?_, mostAll := ?_ }, hc⟩
  · exact (last_iff _ _ _).2 ((whole _ (by simp)).trans e1)
  · exact .inr ⟨_, (last_iff _ _ _).2 ((whole _ (by simp)).trans e2), digits_count _ hi⟩
  · have h3 := (last_iff _ _ _).2 ((whole c!"max_args" (by simp)).trans e3)
    cases h : f.maxArgs with
    | none => rw [h] at h3; exact .inl ⟨.inr h3, rfl⟩
    | some n => rw [h] at h3; exact .inr ⟨_, n, h3, digits_count n (ha n h), rfl⟩
  · have h4 := (whole c!"example" (by simp)).trans e4
    cases h : f.example_ with
    | none => rw [h] at h4; exact .inl ⟨(silent_iff _ _).2 h4, rfl⟩
    | some t => rw [h] at h4; exact .inr ⟨t, (last_iff _ _ _).2 h4, rfl⟩
  · intro l hl t hs
    have hs' := (says_iff _ _ _).1 hs
    rcases only _ t (by simp) (by decide) (by decide) l hl hs with rfl | rfl
    · rw [show said c!"min_args" (c!"// @min_args: " ++ Nat.toDigits 10 f.minArgs) = _ from s2] at hs'
      cases hs'
      exact ⟨_, digits_count _ hi⟩
    · rw [show ∀ t : Str, said c!"min_args" (c!"// @max_args: " ++ t) = said c!"min_args" (c!"// @" ++ c!"max_args" ++ c!": " ++ t) from fun _ => rfl,
        no c!"min_args" s3 (by decide) (by decide) (by decide)] at hs'
      cases hs'
  · intro l hl t hs
    have hs' := (says_iff _ _ _).1 hs
    rcases only _ t (by simp) (by decide) (by decide) l hl hs with rfl | rfl
    · rw [show said c!"max_args" (c!"// @min_args: " ++ Nat.toDigits 10 f.minArgs) = none from no c!"max_args" s2 (by decide) (by decide) (by decide)] at hs'
      cases hs'
    · rw [show ∀ t : Str, said c!"max_args" (c!"// @max_args: " ++ t) = said c!"max_args" (c!"// @" ++ c!"max_args" ++ c!": " ++ t) from fun _ => rfl, s3, Option.some.injEq] at hs'
      rw [← hs']
      cases h : f.maxArgs with
      | none => exact .inl rfl
      | some n => exact .inr ⟨n, digits_count n (ha n h)⟩

/-! ### Samples -/

/-- A file with an indented comment, a carriage return, a name given twice and a comment with a key that is none. -/
def sampleLines : List Str := [c!"// @name: OLD", c!"  // @name:  TAX_RATE\r", c!"// @min_args:+2", c!"// @version: 3", c!"// @max_args: unlimited", c!"function execute(args) { return 1; }", []]

theorem sample_parses : parseJs (c!"\n".intercalate sampleLines) = .ok ⟨c!"TAX_RATE", 2, none, none, c!"\n".intercalate sampleLines⟩ := by kernel_rfl

/-- The hypotheses of `C131_defines`, met. -/
example : Declares sampleLines ⟨c!"TAX_RATE", 2, none, none, c!"\n".intercalate sampleLines⟩ := ((C131_defines sampleLines (by decide) _).1 sample_parses).1

/-- Those of `C131_written`. -/
example : parseJs c!"// @name: ADD\n// @min_args: 2\n// @max_args: 10\n// @example: ADD(1, 2) returns 3\nfunction execute(a) { return a[0] + a[1]; }" =
    .ok ⟨c!"ADD", 2, some 10, some c!"ADD(1, 2) returns 3", c!"// @name: ADD\n// @min_args: 2\n// @max_args: 10\n// @example: ADD(1, 2) returns 3\nfunction execute(a) { return a[0] + a[1]; }"⟩ :=
  C131_written ⟨c!"ADD", 2, some 10, some c!"ADD(1, 2) returns 3", _⟩ ⟨by decide, (trimmed_iff _ _).2 (by decide)⟩ (by decide) (by rintro n h; cases h; decide)
    (by rintro t h; cases h; exact ⟨by decide, (trimmed_iff _ _).2 (by decide)⟩) [c!"function execute(a) { return a[0] + a[1]; }"]
    (by
      intro l hl
      rw [List.mem_singleton.1 hl]
      refine ⟨by decide, fun k hk v hs => ?_⟩
      have := (says_iff _ _ _).1 hs
      revert this
      simp only [List.mem_cons, List.not_mem_nil, or_false] at hk
      rcases hk with rfl | rfl | rfl | rfl <;>
        · intro this
          have h : ∀ k ∈ [c!"name", c!"min_args", c!"max_args", c!"example"], said k c!"function execute(a) { return a[0] + a[1]; }" = none := by decide +kernel
          rw [h _ (by simp)] at this
          cases this) rfl

/-- Those of `C131_refused`, for each message. -/
example : parseJs c!"//@name: F" = fail "JavaScript function must have @name annotation" ∧ parseJs c!"// @name: F\n// @min_args: two" = fail "Invalid min_args value" ∧
    parseJs c!"// @name: F\n// @max_args: -1" = fail "Invalid max_args value" := ⟨by kernel_rfl, by kernel_rfl, by kernel_rfl⟩

/-- A line anywhere in the file counts, inside a text of the program as well; an empty name is a name; so is a limit below the fewest arguments. Such files are accepted. -/
theorem C131_anywhere :
    parseJs c!"// @name: F\nfunction execute(args) { return `\n// @name: G\n`; }" = .ok ⟨c!"G", 1, none, none, c!"// @name: F\nfunction execute(args) { return `\n// @name: G\n`; }"⟩ ∧
    parseJs c!"// @name:" = .ok ⟨[], 1, none, none, c!"// @name:"⟩ ∧
    parseJs c!"// @name: F\n// @max_args: 0" = .ok ⟨c!"F", 1, some 0, none, c!"// @name: F\n// @max_args: 0"⟩ := ⟨by kernel_rfl, by kernel_rfl, by kernel_rfl⟩

end JsFile
