import Verif.Lemmas.ErrorPos
import Verif.Props.Parsing
/-! C91: the position in a parse error is a place in the text. -/

open Lib Parser Spec

namespace Spec

/-- `rest` is what remains of `s` after an optional leading `=` (which may follow blanks). -/
def AfterEq (s rest : Str) : Prop := s = rest ∨ ∃ ws, s = ws ++ '=' :: rest ∧ ∀ c ∈ ws, Str.isWs c = true

end Spec

theorem stripEq_after (s : Str) : AfterEq s (stripEq s) := by
  unfold stripEq Str.trimStart
  split
  · rename_i rest h
    refine .inr ⟨s.takeWhile Str.isWs, ?_, ?_⟩
    · rw [← h, List.takeWhile_append_dropWhile]
    · intro c hc
      have : ∀ (l : Str), c ∈ l.takeWhile Str.isWs → Str.isWs c = true := by
        intro l
        induction l with
        | nil => simp
        | cons d l ih =>
          rw [List.takeWhile_cons]
          split
          · rename_i hd
            intro hm
            rcases List.mem_cons.1 hm with rfl | hm
            · exact hd
            · exact ih hm
          · simp
      exact this s hc
  · exact .inl rfl

theorem parse_failAt {s : Str} {f : Fail} (h : parse s = .error f) : Lx.FailAt (stripEq s) f := by
  have ha := parseText_at (stripEq s) (fuelFor s)
  unfold parse parseWith at h
  rcases hp : parseTextWith (fuelFor s) (stripEq s) with (_ | g) | ⟨e, st⟩
  · rw [hp] at h
    simp only [bind, Except.bind] at h
    cases h
    trivial
  · rw [hp] at h ha
    simp only [bind, Except.bind] at h
    cases h
    exact ha
  · rw [hp] at h
    simp only [bind, Except.bind, pure, Except.pure] at h
    exact nomatch h

/-- **C91.** The position in an error of `parse` is the byte at which a character of the text starts, where
the text is counted from after the optional leading `=`. The only exceptions are a text with nothing in it
(position 0) and strings that are never closed (the end of the text). -/
theorem C91_position_partial (s : Str) (m : String) (a : List Str) (q : Int)
    (h : parse s = .error (.err m a (some q))) :
    ∃ (t : Str) (p : Nat), AfterEq s t ∧ q = p ∧
      (CharAt t p ∨
        (p = Str.byteLen t ∧ (t = [] ∨ m = "Unterminated string literal" ∨ m = "Unterminated escape in string"))) := by
  rcases parse_failAt h with ⟨p, hq, hc | ⟨ht, h0⟩⟩ | ⟨hm, hq⟩
  · exact ⟨_, p, stripEq_after s, hq, .inl hc⟩
  · exact ⟨_, p, stripEq_after s, hq, .inr ⟨by rw [ht, h0]; rfl, .inl ht⟩⟩
  · exact ⟨_, _, stripEq_after s, hq, .inr ⟨rfl, .inr hm⟩⟩

/-- So it never lies outside the text that was given. -/
theorem C91_inside (s : Str) (m : String) (a : List Str) (q : Int) (h : parse s = .error (.err m a (some q))) :
    0 ≤ q ∧ q ≤ Str.byteLen s := by
  obtain ⟨t, p, ht, rfl, hp⟩ := C91_position_partial s m a q h
  have hl : Str.byteLen t ≤ Str.byteLen s := by
    rcases ht with rfl | ⟨ws, rfl, _⟩
    · exact Nat.le_refl _
    · rw [Str.byteLen_app, Str.byteLen]; omega
  have hp' : p ≤ Str.byteLen t := by
    rcases hp with ⟨x, c, y, rfl, rfl⟩ | ⟨rfl, _⟩
    · rw [Str.byteLen_app]; omega
    · exact Nat.le_refl _
  omega

/-- An error of `parse` without a position is one about the name of a type. -/
theorem C91_no_position (s : Str) (m : String) (a : List Str) (h : parse s = .error (.err m a none)) :
    m = "Unknown cast type" ∨ m = "Expected type name after '::'" := parse_failAt h

/-- The hypotheses are met: a missing `)` in the middle of a text with wide characters, -/
example : parse c!"F('é' 3)" = .error (.err "Expected ',' or ')' in argument list" [] (some 7)) := by kernel_rfl

/-- an unclosed string, -/
example : parse c!"1 + 'é" = .error (.err "Unterminated string literal" [] (some 7)) := by kernel_rfl

/-- an unknown type. -/
example : parse c!"1::Thing" = .error (.err "Unknown cast type" [] none) := by kernel_rfl

/-- What the position does not tell: with a leading `=` it is not a place in the text that was given but one
in what follows, so that the same mistake is reported at the same place with and without it; -/
theorem C91_shifted : parse c!"1 + * 2" = .error (.err "Unexpected token: {:?}" [] (some 4)) ∧
    parse c!"   = 1 + * 2" = .error (.err "Unexpected token: {:?}" [] (some 5)) := ⟨by kernel_rfl, by kernel_rfl⟩

/-- an error at the end of the text is reported at its last token. -/
theorem C91_end : parse c!"12 + (345" = .error (.err "Expected ')'" [] (some 6)) := by kernel_rfl

/-- an `=` is reported one byte early (here at the blank before it), -/
theorem C91_equals : parse c!"1 + = 2" = .error (.err "Unexpected token: {:?}" [] (some 3)) := by kernel_rfl

/-- and an unknown character at the start is reported as if the text were empty. -/
theorem C91_first : parse c!" #" = parse [] ∧ parse c!"1 + #" = .error (.err "Unexpected character" [] (some 4)) := ⟨by kernel_rfl, by kernel_rfl⟩
