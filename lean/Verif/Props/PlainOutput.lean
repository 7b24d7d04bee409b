import Verif.Model.CliOutput
import Verif.Props.CacheKeys
import Verif.Props.JsonDocs
/-! C113: what `sk` prints. -/

namespace PlainOutput.Spec

/-- An ASCII control character. -/
def Control (c : Char) : Prop := c.val < 0x20 ∨ c.val = 0x7F

end PlainOutput.Spec

namespace PlainOutput
open Cli PlainOutput.Spec _root_.Spec

/-! ### No control characters -/

theorem nc_of_digit {c : Char} (h : c.isDigit = true) : ¬ Control c := by
  simp only [Char.isDigit, Bool.and_eq_true, decide_eq_true_eq, ge_iff_le] at h
  rintro (hc | hc)
  · exact absurd (UInt32.lt_of_lt_of_le hc (by exact UInt32.le_trans (by decide) h.1)) (UInt32.lt_irrefl _)
  · rw [hc] at h; exact absurd h.2 (by decide)

theorem nc_hex (n : ℕ) : ∀ c ∈ Nat.toDigits 16 n, ¬ Control c := by
  intro c hc
  obtain ⟨d, rfl⟩ := hex_chars n c hc
  have : ∀ d : Fin 16, ¬ ((Nat.digitChar d).val < 0x20 ∨ (Nat.digitChar d).val = 0x7F) := by decide
  exact this d

theorem nc_lit {s : Str} (h : s.all (fun c => decide (¬ (c.val < 0x20 ∨ c.val = 0x7F))) = true) : ∀ c ∈ s, ¬ Control c := by
  intro c hc
  simpa [Control] using List.all_eq_true.1 h c hc

theorem nc_append {s t : Str} (hs : ∀ c ∈ s, ¬ Control c) (ht : ∀ c ∈ t, ¬ Control c) : ∀ c ∈ s ++ t, ¬ Control c := by
  intro c hc
  rcases List.mem_append.1 hc with h | h
  · exact hs c h
  · exact ht c h

theorem nc_char (X : Ext) (c : Char) : ∀ d ∈ X.dbgChar c, ¬ Control d := by
  by_cases hp : (if Str.isAscii c then decide (0x20 ≤ c.val) && decide (c.val ≠ 0x7F) else X.plainUni c) = true ∧ X.dbgChar c = [c]
  · rw [hp.2]
    intro d hd
    rw [List.mem_singleton.1 hd]
    have h := hp.1
    by_cases ha : Str.isAscii c = true
    · rw [if_pos ha, Bool.and_eq_true, decide_eq_true_eq, decide_eq_true_eq] at h
      rintro (hc | hc)
      · exact absurd (UInt32.lt_of_lt_of_le hc h.1) (UInt32.lt_irrefl _)
      · exact h.2 hc
    · simp only [Str.isAscii, decide_eq_true_eq] at ha
      rintro (hc | hc)
      · exact ha (UInt32.lt_trans hc (by decide))
      · exact ha (by rw [hc]; decide)
  · have : X.dbgChar c ∈ [c!"\\0", c!"\\t", c!"\\r", c!"\\n", c!"\\\\", c!"\\\""] ∨ X.dbgChar c = c!"\\u{" ++ (Nat.toDigits 16 c.toNat ++ c!"}") := by
      unfold Ext.dbgChar at hp ⊢
      split_ifs <;> simp_all
    rcases this with h | h
    · simp only [List.mem_cons, List.not_mem_nil, or_false] at h
      rcases h with h | h | h | h | h | h <;> rw [h] <;> exact nc_lit (by decide)
    · rw [h]
      exact nc_append (nc_lit (by decide)) (nc_append (nc_hex _) (nc_lit (by decide)))

theorem nc_str (X : Ext) (s : Str) : ∀ c ∈ X.dbgStr s, ¬ Control c := by
  intro c hc
  unfold Ext.dbgStr at hc
  rcases List.mem_cons.1 hc with rfl | hc
  · simp [Control]
  rcases List.mem_append.1 hc with hc | hc
  · obtain ⟨a, -, ha⟩ := List.mem_flatMap.1 hc
    exact nc_char X a c ha
  · exact nc_lit (s := c!"\"") (by decide) c hc

theorem nc_int (t : Int) : ∀ c ∈ Str.showInt t, ¬ Control c := by
  intro c hc
  rcases showInt_chars t c hc with rfl | h
  · simp [Control]
  · exact nc_of_digit h

mutual
theorem nc_dbg (X : Ext) (hn : ∀ a, ∀ c ∈ X.dbgNum a, ¬ Control c) : ∀ v : Value, ∀ c ∈ X.dbg v, ¬ Control c
  | .num n => nc_append (nc_lit (by decide)) (nc_append (hn n) (nc_lit (by decide)))
  | .arr vs => nc_append (nc_lit (by decide)) (nc_append (nc_items X hn vs) (nc_lit (by decide)))
  | .bool true => nc_lit (s := c!"Boolean(true)") (by decide)
  | .bool false => nc_lit (s := c!"Boolean(false)") (by decide)
  | .str s => nc_append (nc_lit (by decide)) (nc_append (nc_str X s) (nc_lit (by decide)))
  | .null => nc_lit (s := c!"Null") (by decide)
  | .cur n => nc_append (nc_lit (by decide)) (nc_append (hn n) (nc_lit (by decide)))
  | .dt t => nc_append (nc_lit (by decide)) (nc_append (nc_int t) (nc_lit (by decide)))
  | .json s => nc_append (nc_lit (by decide)) (nc_append (nc_str X s) (nc_lit (by decide)))
theorem nc_items (X : Ext) (hn : ∀ a, ∀ c ∈ X.dbgNum a, ¬ Control c) : ∀ vs : List Value, ∀ c ∈ X.dbgItems vs, ¬ Control c
  | [] => nc_lit (s := c!"]") (by decide)
  | v :: vs => nc_append (nc_dbg X hn v) (nc_rest X hn vs)
theorem nc_rest (X : Ext) (hn : ∀ a, ∀ c ∈ X.dbgNum a, ¬ Control c) : ∀ vs : List Value, ∀ c ∈ X.dbgRest vs, ¬ Control c
  | [] => nc_lit (s := c!"]") (by decide)
  | v :: vs => nc_append (nc_lit (s := c!", ") (by decide)) (nc_append (nc_dbg X hn v) (nc_rest X hn vs))
end

/-! ### Runs -/

theorem parseArgs_plain (X : Ext) : ∀ (n : ℕ) (rest : List Str) (a : Args), rest.length ≤ n → c!"--output-json" ∉ rest → a.outputJson = false →
    (∀ a', parseArgs X rest a = .ok a' → a'.outputJson = false) ∧ (∀ o, parseArgs X rest a = .error o → o = .refused ∨ o = .panicked) := by
  intro n
  induction n with
  | zero =>
    intro rest a hl _ ha
    cases rest with
    | nil => exact ⟨fun a' h => by rw [parseArgs] at h; cases h; exact ha, fun o h => by rw [parseArgs] at h; cases h⟩
    | cons s rest => simp at hl
  | succ n ih =>
    intro rest a hl hm ha
    cases rest with
    | nil => exact ⟨fun a' h => by rw [parseArgs] at h; cases h; exact ha, fun o h => by rw [parseArgs] at h; cases h⟩
    | cons s rest =>
      simp only [List.mem_cons, not_or] at hm
      simp only [List.length_cons] at hl
      rw [parseArgs.eq_def]
      dsimp only
      by_cases h1 : s = c!"--json"
      · rw [if_pos h1]
        cases rest with
        | nil => exact ⟨fun a' h => by (dsimp only at h; cases h), fun o h => by (dsimp only at h; cases h; exact .inl rfl)⟩
        | cons j rest =>
          simp only [List.mem_cons, not_or] at hm
          simp only [List.length_cons] at hl
          exact ih rest _ (by omega) hm.2.2 ha
      · rw [if_neg h1, if_neg (Ne.symm hm.1)]
        cases Str.splitOnce c!"=" s with
        | none => exact ⟨fun a' h => by (dsimp only at h; cases h), fun o h => by (dsimp only at h; cases h; exact .inl rfl)⟩
        | some p =>
          dsimp only
          cases parseValue X p.2 with
          | error f => exact ⟨fun a' h => by (dsimp only at h; cases h), fun o h => by (dsimp only at h; cases h; exact .inr rfl)⟩
          | ok v => exact ih rest _ (by omega) hm.2 ha

theorem outcome_json (b : Bool) (r : Res Value) (v : Value) (c : Bool) (h : Cli.outcome b r = .printed v c) : b = c := by
  unfold Cli.outcome at h
  split at h <;> cases h
  rfl

theorem run_plain (X : Ext) (reg : Registry) (args : List Str) (h : c!"--output-json" ∉ args.tail) {v : Value} {b : Bool} (hr : run X reg args = .printed v b) : b = false := by
  cases args with
  | nil => unfold run at hr; cases hr
  | cons expr rest =>
    obtain ⟨h1, h2⟩ := parseArgs_plain X _ rest {} (Nat.le_refl _) h rfl
    unfold run at hr
    dsimp only at hr
    cases hp : parseArgs X rest {} with
    | error o =>
      rw [hp] at hr
      rcases h2 o hp with rfl | rfl <;> cases hr
    | ok a =>
      rw [hp] at hr
      have := h1 a hp
      dsimp only at hr
      rw [this] at hr
      split at hr
      · split at hr
        · split at hr
          · exact (outcome_json _ _ _ _ hr).symm
          · cases hr
        · exact (outcome_json _ _ _ _ hr).symm
      · split at hr
        · exact (outcome_json _ _ _ _ hr).symm
        · exact (outcome_json _ _ _ _ hr).symm

/-- **C113, the result.** Two runs without `--output-json` that print the same text, and not nothing, had the same result. -/
theorem C113_determines (X : Ext) (hX : NumbersApart X) (pretty : Json → Str) (time time' : Str) (reg reg' : Registry) (args args' : List Str)
    (ha : c!"--output-json" ∉ args.tail) (ha' : c!"--output-json" ∉ args'.tail) (v : Value) (b : Bool) (hv : run X reg args = .printed v b)
    (h : (run X reg args).stdout X pretty time = (run X reg' args').stdout X pretty time') : run X reg' args' = .printed v false := by
  have hb := run_plain X reg args ha hv
  subst hb
  rw [hv] at h
  change plainOutput X v = _ at h
  cases hr : run X reg' args' with
  | printed w c =>
    have hc := run_plain X reg' args' ha' hr
    subst hc
    rw [hr] at h
    have h' : X.dbg v ++ ['\n'] = X.dbg w ++ ['\n'] := h
    rw [(dbg_code hX v w h').1]
  | refused => rw [hr] at h; exact absurd h (by simp [plainOutput, Outcome.stdout])
  | failed f => rw [hr] at h; exact absurd h (by simp [plainOutput, Outcome.stdout])
  | panicked => rw [hr] at h; exact absurd h (by simp [plainOutput, Outcome.stdout])

/-- **C113, the form.** A run without `--output-json` that succeeds prints one line, whose only control character is the one that ends it, whatever the result contains;
one that does not succeed prints nothing. -/
theorem C113_one_line (X : Ext) (hn : ∀ a, ∀ c ∈ X.dbgNum a, ¬ Control c) (pretty : Json → Str) (time : Str) (reg : Registry) (args : List Str)
    (ha : c!"--output-json" ∉ args.tail) :
    ((run X reg args).status = 0 → ∃ line, (run X reg args).stdout X pretty time = line ++ ['\n'] ∧ line ≠ [] ∧ ∀ c ∈ line, ¬ Control c) ∧
    ((run X reg args).status ≠ 0 → (run X reg args).stdout X pretty time = []) := by
  cases hr : run X reg args with
  | printed w c =>
    have hc := run_plain X reg args ha hr
    subst hc
    refine ⟨fun _ => ⟨X.dbg w, rfl, ?_, nc_dbg X hn w⟩, fun h => absurd rfl h⟩
    cases w <;> simp [Ext.dbg]
  | refused => exact ⟨fun h => absurd h (by decide), fun _ => rfl⟩
  | failed f => exact ⟨fun h => absurd h (by simp [Outcome.status]), fun _ => rfl⟩
  | panicked => exact ⟨fun h => absurd h (by decide), fun _ => rfl⟩

/-- **C113, contrast.** With `--output-json` different results are printed the same: an array in an array, and its debug text in an array; money in an array and the number. -/
theorem C113_json_ambiguous (X : Ext) (pretty : Json → Str) (time : Str) (n : F64) :
    (Outcome.printed (.arr [.arr []]) true).stdout X pretty time = (Outcome.printed (.arr [.str c!"Array([])"]) true).stdout X pretty time ∧
    (Outcome.printed (.arr [.cur n]) true).stdout X pretty time = (Outcome.printed (.arr [.num n]) true).stdout X pretty time := ⟨by kernel_rfl, by kernel_rfl⟩

/-- Texts that are printed. -/
example (X : Ext) : X.dbg (.arr [.bool true, .str c!"a\"\n\x01'", .dt (-5), .null, .arr [], .json c!"{}"]) =
    c!"Array([Boolean(true), String(\"a\\\"\\n\\u{1}'\"), DateTime(-5), Null, Array([]), Json(\"{}\")])" := by kernel_rfl

/-- A case of C113: a program that prints a text with a line break in it. -/
example (X : Ext) (pretty : Json → Str) : (run X Registry.empty [c!":s", c!"s='a\nb'"]).stdout X pretty [] = c!"String(\"a\\nb\")\n" := by kernel_rfl

end PlainOutput
