import Verif.Lemmas.ParseMono
import Verif.Model.Lib
import Verif.Base.KernelRfl
/-! C01, C02, C05: what `parse` does with an arbitrary text. -/

open Lib

namespace Parser

/-- Whether a text makes the lexer panic: it starts with one `=` (and not two). -/
def LoneEq (s : Str) : Prop := ∃ r, s = '=' :: r ∧ ∀ r', r ≠ '=' :: r'

theorem init_cases (n : Nat) (s : Str) (hn : s.length + 1 < n) :
    (LoneEq s ∧ ∃ w, init (Toks.of n (Lx.init s)) = .error (some (.panic w))) ∨
    (¬ LoneEq s ∧ ∃ st, init (Toks.of n (Lx.init s)) = .ok st ∧ st.rest.Clean ∧ size st ≤ s.length) := by
  cases n with
  | zero => omega
  | succ n =>
    have hb := (Lx.init s).next_ok
    rw [Toks.of]
    cases hx : (Lx.init s).next with
    | error f =>
      rw [hx] at hb
      cases f with
      | err m a p =>
        right
        refine ⟨?_, _, rfl, trivial, by simp [size]⟩
        rintro ⟨r, rfl, hr⟩
        have : (Lx.init ('=' :: r)).next = Lx.equals r 0 := by
          simp [Lx.next, Lx.init, Lx.skipWs, Lx.isSpace, Lx.token, Str.asciiDigit, Str.asciiAlpha, Lx.simple,
            Lx.symbol]
        rw [this] at hx
        unfold Lx.equals at hx
        split at hx
        · exact hr _ rfl
        · simp [Lx.two, panics] at hx
      | panic w =>
        left
        obtain ⟨_, r, hr, hr'⟩ := hb
        exact ⟨⟨r, hr, hr'⟩, w, rfl⟩
    | ok v =>
      rw [hx] at hb
      obtain ⟨t, l⟩ := v
      right
      constructor
      · rintro ⟨r, rfl, hr⟩
        have : (Lx.init ('=' :: r)).next = Lx.equals r 0 := by
          simp [Lx.next, Lx.init, Lx.skipWs, Lx.isSpace, Lx.token, Str.asciiDigit, Str.asciiAlpha, Lx.simple,
            Lx.symbol]
        rw [this] at hx
        unfold Lx.equals at hx
        split at hx
        · exact hr _ rfl
        · simp [Lx.two, panics] at hx
      · simp only at hb
        rcases hb with hb | hb
        · subst hb
          exact ⟨_, rfl, trivial, by simp [size]⟩
        · have h1 : (Lx.init s).rest.length = s.length := rfl
          by_cases ht : t = .eof
          · subst ht
            exact ⟨_, rfl, trivial, by simp [size]⟩
          refine ⟨⟨t, l.lastStart, Toks.of n l⟩, ?_, ?_, ?_⟩
          · simp [init]
          · exact Toks.of_clean n l (by omega) (by omega)
          · have := Toks.of_size n l
            simp only [size, ht, if_false]; omega

theorem init_stable (n m : Nat) (s : Str) (hn : s.length < n) (hm : s.length < m) :
    init (Toks.of n (Lx.init s)) = init (Toks.of m (Lx.init s)) := by
  rw [Toks.of_stable n m (Lx.init s) hn hm]

/-- The three outcomes of parsing a text. -/
theorem parseText_cases (s : Str) :
    (LoneEq s ∧ ∃ w, ∀ n, fuelFor s ≤ n → parseTextWith n s = .error (some (.panic w))) ∨
    (¬ LoneEq s ∧ ∃ e st, st.rest.Clean ∧ ∀ n, fuelFor s ≤ n → parseTextWith n s = .ok (e, st)) ∨
    (¬ LoneEq s ∧ ∃ m a p, ∀ n, fuelFor s ≤ n → parseTextWith n s = .error (some (.err m a p))) := by
  have hf : s.length + 1 < fuelFor s := by unfold fuelFor; omega
  rcases init_cases (fuelFor s) s hf with ⟨h, w, hw⟩ | ⟨h, st, hi, hc, hs⟩
  · left
    refine ⟨h, w, fun n hn => ?_⟩
    unfold parseTextWith
    rw [init_stable n (fuelFor s) s (by omega) (by omega), hw]; rfl
  · right
    have hg := program_good (fuelFor s) st hc (by unfold fuelFor; omega)
    have hst : ∀ n, fuelFor s ≤ n → parseTextWith n s = program (fuelFor s) st := by
      intro n hn
      unfold parseTextWith
      rw [init_stable n (fuelFor s) s (by omega) (by omega), hi]
      show program n st = _
      apply program_stable _ _ _ hn
      intro hx; rw [hx] at hg; exact hg
    revert hg hst
    cases program (fuelFor s) st with
    | ok v => intro hg hst; left; exact ⟨h, v.1, v.2, hg.1, hst⟩
    | error f =>
      cases f with
      | none => intro hg; exact hg.elim
      | some f =>
        cases f with
        | panic w => intro hg; exact hg.elim
        | err m a p => intro _ hst; right; exact ⟨h, m, a, p, hst⟩

theorem dropWhile_len (p : Char → Bool) (s : Str) : (s.dropWhile p).length ≤ s.length :=
  (List.dropWhile_sublist _).length_le

theorem stripEq_len (s : Str) : (stripEq s).length ≤ s.length := by
  unfold stripEq Str.trimStart
  have := dropWhile_len Str.isWs s
  split
  · rename_i rest h; rw [h] at this; simp at this; omega
  · simp

theorem fuel_strip (s : Str) (n : Nat) (h : fuelFor s ≤ n) : fuelFor (stripEq s) ≤ n := by
  have := stripEq_len s
  unfold fuelFor at *; omega

end Parser

/-- A text makes `parse` panic exactly when, after optional whitespace, it starts with `==` not
followed by a third `=`. -/
def StartsWithDoubleEq (s : Str) : Prop :=
  ∃ ws r, s = ws ++ '=' :: '=' :: r ∧ ws.all Str.isWs = true ∧ ∀ r', r ≠ '=' :: r'

theorem Parser.dropWhile_split (p : Char → Bool) (s : Str) :
    ∃ ws, s = ws ++ s.dropWhile p ∧ ws.all p = true := by
  refine ⟨s.takeWhile p, List.takeWhile_append_dropWhile.symm, ?_⟩
  rw [List.all_eq_true]
  intro c hc
  induction s with
  | nil => simp at hc
  | cons d ds ih =>
    rw [List.takeWhile_cons] at hc
    split at hc
    · rcases List.mem_cons.1 hc with h | h
      · subst h; assumption
      · exact ih h
    · simp at hc

theorem Parser.dropWhile_ws (ws : Str) (c : Char) (r : Str) (h : ws.all Str.isWs = true)
    (hc : Str.isWs c = false) : (ws ++ c :: r).dropWhile Str.isWs = c :: r := by
  induction ws with
  | nil => simp [hc]
  | cons d ds ih =>
    simp only [List.all_cons, Bool.and_eq_true] at h
    simp [h.1, ih h.2]

theorem Parser.loneEq_stripEq (s : Str) : Parser.LoneEq (stripEq s) ↔ StartsWithDoubleEq s := by
  constructor
  · rintro ⟨r, h, hr⟩
    unfold stripEq Str.trimStart at h
    obtain ⟨ws, hs, hw⟩ := Parser.dropWhile_split Str.isWs s
    split at h
    · rename_i rest hd
      subst h
      rw [hd] at hs
      exact ⟨ws, r, hs, hw, hr⟩
    · rename_i hne
      subst h
      exfalso
      apply hne r
      simp [Str.isWs]
  · rintro ⟨ws, r, rfl, hw, hr⟩
    refine ⟨r, ?_, hr⟩
    unfold stripEq Str.trimStart
    rw [Parser.dropWhile_ws ws '=' ('=' :: r) hw (by decide)]
    rfl

/-- C01. For every text there is one result (a tree, an error, or the panic of C02) that the
parser computes with every amount of fuel from `fuelFor` on: parsing takes a number
of steps linear in the length of the text, and `parse` returns that result. -/
theorem C01_parse_terminates (s : Str) :
    ∃ r : Res Expr, parse s = r ∧ ∀ fuel, Parser.fuelFor s ≤ fuel → parseWith fuel s = r.mapError some := by
  have hall : ∃ r : Res Expr, ∀ fuel, Parser.fuelFor s ≤ fuel → parseWith fuel s = r.mapError some := by
    rcases Parser.parseText_cases (stripEq s) with ⟨_, w, h⟩ | ⟨_, e, st, _, h⟩ | ⟨_, m, a, p, h⟩
    · refine ⟨.error (.panic w), fun n hn => ?_⟩
      unfold parseWith; rw [h n (Parser.fuel_strip s n hn)]; rfl
    · refine ⟨.ok e, fun n hn => ?_⟩
      unfold parseWith; rw [h n (Parser.fuel_strip s n hn)]; rfl
    · refine ⟨.error (.err m a p), fun n hn => ?_⟩
      unfold parseWith; rw [h n (Parser.fuel_strip s n hn)]; rfl
  obtain ⟨r, h⟩ := hall
  refine ⟨r, ?_, h⟩
  unfold parse
  rw [h _ (Nat.le_refl _)]
  cases r <;> rfl

/-- A concrete, nested case of C01. -/
example : (parse c!"f(g(1), [2, {a: 3}])[1:2].h?").isOk = true := by kernel_rfl

/-- C02, exactly: `parse` panics iff the text starts with `==` (after whitespace, and not `===`). -/
theorem C02_parse_panics_iff (s : Str) :
    (∃ w, parse s = .error (.panic w)) ↔ StartsWithDoubleEq s := by
  rw [← Parser.loneEq_stripEq]
  have hb : Parser.fuelFor (stripEq s) ≤ Parser.fuelFor s := Parser.fuel_strip s _ (Nat.le_refl _)
  rcases Parser.parseText_cases (stripEq s) with ⟨hl, w, h⟩ | ⟨hl, e, st, _, h⟩ | ⟨hl, m, a, p, h⟩
  · refine ⟨fun _ => hl, fun _ => ⟨w, ?_⟩⟩
    unfold parse parseWith; rw [h _ hb]; rfl
  · refine ⟨?_, fun h => absurd h hl⟩
    rintro ⟨w, hw⟩
    unfold parse parseWith at hw; rw [h _ hb] at hw; simp [bind, Except.bind, pure, Except.pure] at hw
  · refine ⟨?_, fun h => absurd h hl⟩
    rintro ⟨w, hw⟩
    unfold parse parseWith at hw; rw [h _ hb] at hw; simp [bind, Except.bind] at hw

/-- C02 fails: the text `==1` makes `parse` panic (subtraction overflow). -/
theorem C02_parse_can_panic : ∃ s w, parse s = .error (.panic w) :=
  ⟨c!"==1", "attempt to subtract with overflow", by kernel_rfl⟩

/-- C02, partial: every text that does not start with `==` gives `Ok` or `Err`. Missing: the texts
that do, which panic. -/
theorem C02_parse_never_panics_partial (s : Str) (h : ¬ StartsWithDoubleEq s) :
    (∃ e, parse s = .ok e) ∨ (∃ m a p, parse s = .error (.err m a p)) := by
  have := mt (C02_parse_panics_iff s).1 h
  cases hp : parse s with
  | ok e => exact .inl ⟨e, rfl⟩
  | error f =>
    cases f with
    | err m a p => exact .inr ⟨m, a, p, rfl⟩
    | panic w => exact absurd ⟨w, hp⟩ this

/-- The hypothesis of the partial theorem holds of ordinary formulas. -/
example : ¬ StartsWithDoubleEq c!"= 1 == 2" ∧ (parse c!"= 1 == 2").isOk = true := by
  refine ⟨?_, by kernel_rfl⟩
  rw [← C02_parse_panics_iff]
  rintro ⟨w, hw⟩
  have : parse c!"= 1 == 2" =
    .ok (.binary (.number (F64.ofNat 1)) .eq (.number (F64.ofNat 2))) := by kernel_rfl
  rw [this] at hw; simp at hw

/-- C05 fails: text after a complete program is silently dropped. -/
theorem C05_trailing_text_is_ignored :
    parse c!"1 2" = parse c!"1" ∧ parse c!"(1 + 2) )) [" = parse c!"(1 + 2)" ∧
    parse c!"1 2" = .ok (.number (F64.ofNat 1)) :=
  ⟨by kernel_rfl, by kernel_rfl, by kernel_rfl⟩

/-- C05 fails in particular for a ternary whose condition is a property: `?` is taken as part of the
name and the branches are dropped. -/
theorem C05_ternary_on_property_is_dropped : parse c!":x.ok ? 1 : 2" = parse c!":x.ok?" := by kernel_rfl

/-- C05 fails for the error report too: a bad first token is reported as an unexpected end of input. -/
theorem C05_first_token_error_is_swallowed : parse c!"#" = parse c!"" := by kernel_rfl
