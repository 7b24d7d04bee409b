import Verif.Lemmas.TextNames
import Verif.Props.Syntax
import Verif.Props.Forms
/-! C05, C82: exactly what of a text is parsed, and which functions a text can call. -/

open Lib Spec

/-- A token that would continue a program: `;`, `?` or a binary operator. -/
def Spec.Continues (t : Token) : Prop := t = .semi ∨ t = .qmark ∨ ∃ op, t = opTok op

theorem not_continues {t : Token} (h : t ≠ .semi) (hs : Parser.strength t = 0 ∨ 10 ≤ Parser.strength t) : ¬ Continues t := by
  rintro (h' | h' | ⟨op, h'⟩)
  · exact h h'
  · subst h'; simp [Parser.strength] at hs
  · subst h'; cases op <;> simp [opTok, Parser.strength] at hs

/-- C05, what is true of it. Whatever `parse` accepts is a program of the language written down, possibly after a
`=` and followed by a `;`, and the tree is the tree of that program. Only the text after it is not accounted for: it is
known to start with a token that is not `;`, `?` or a binary operator. Missing: that nothing follows
(false, see `C05_tail_is_dropped`). -/
theorem C05_prefix_partial (text : Str) (v : Expr) (h : parse text = .ok v) :
    ∃ body e es rest, Body text body ∧ v = progExpr e es ∧ SpellsTo (progToks e es) body rest ∧
      (Blank rest ∨ Spells [.semi] rest ∨ ∃ t, StartsWith t rest ∧ ¬ Continues t) := by
  obtain ⟨e, es, tr, rfl, rest, h1, h2⟩ := Parser.parse_shape h
  rcases h2 with ⟨rfl, hb⟩ | ⟨rfl, hb⟩ | ⟨rfl, t, ht, h3, h4⟩
  · obtain ⟨mid, h5, h6⟩ := Parser.spellsTo_split h1
    refine ⟨_, e, es, mid, Parser.stripEq_body text, rfl, h5, .inr (.inl ?_)⟩
    have := Parser.spells_of_to h6 (.done hb)
    simpa using this
  · rw [List.append_nil] at h1
    exact ⟨_, e, es, rest, Parser.stripEq_body text, rfl, h1, .inl hb⟩
  · rw [List.append_nil] at h1
    exact ⟨_, e, es, rest, Parser.stripEq_body text, rfl, h1, .inr (.inr ⟨t, ht, not_continues h3 h4⟩)⟩

/-- The hypothesis of `C05_prefix_partial`, with a text of each of the three kinds. -/
example : parse c!"=1 + 2" = .ok (.binary (.number (F64.ofNat 1)) .add (.number (F64.ofNat 2))) ∧
    parse c!":x := 1; :x;" = .ok (.seq [.assign c!"x" (.number (F64.ofNat 1)), .var c!"x"]) ∧
    parse c!"NOT(:a) ]]" = .ok (.call c!"NOT" [.var c!"a"]) := ⟨by kernel_rfl, by kernel_rfl, by kernel_rfl⟩

/-- C05 fails for every program: a text that goes on, after a complete program, with a number, a name, a string, a
closing bracket, a comma, a `:` or another token that cannot continue it (`stops`) is parsed as if it ended there. What
comes after that token does not even have to be readable. -/
theorem C05_tail_is_dropped (e : Src) (es : List Src) (text rest : Str) (t : Token)
    (h : SpellsTo (progToks e es) text rest) (ht : StartsWith t rest) (hs : stops t = true) :
    parse text = .ok (progExpr e es) := Parser.parse_tail h ht hs

/-- The hypotheses of `C05_tail_is_dropped` can be met: `NULL )"`. -/
example : SpellsTo (progToks .null []) c!"NULL )\"" c!" )\"" ∧ StartsWith .rparen c!" )\"" ∧ stops .rparen = true := by
  refine ⟨?_, ⟨c!"\"", ?_⟩, rfl⟩
  · have h1 : Written .null c!"NULL" := .null (by unfold SameWord; decide)
    have := SpellsTo.tok (ws := []) (r := c!" )\"") (by simp [Blank]) h1
      (show NextIs _ _ by simp [NextIs]; unfold nameChar nameStart; decide) .done
    simpa [progToks, Src.toks] using this
  · exact .tok (ws := [' ']) (s := c!")") (r := c!"\"") (by simp [Blank]) (.symbol (by simp [symbols])) trivial .done

/-- C05. A `;` after the last statement changes nothing. -/
theorem C05_final_semicolon (e : Src) (es : List Src) (text : Str) (h : Spells (progToks e es ++ [.semi]) text) :
    parse text = .ok (progExpr e es) := Parser.parse_semi h

/-- C05 fails after a cast as well: a second cast, an index, a property or a method call applied to a cast without
parentheses is dropped. -/
theorem C05_after_cast_is_dropped :
    parse c!":x::int::float" = parse c!":x::int" ∧ parse c!":x::array[0]" = parse c!":x::array" ∧
    parse c!":x::string.upper()" = parse c!":x::string" ∧ parse c!":x::int" = .ok (.cast (.var c!"x") .integer) :=
  ⟨by kernel_rfl, by kernel_rfl, by kernel_rfl, by kernel_rfl⟩

theorem isName_up {s : Str} (h : IsName s) : '.' ∉ s.map Str.asciiUpC := by
  have key : ∀ c, nameChar c → Str.asciiUpC c ≠ '.' := by
    intro c hc he
    by_cases h : 'a' ≤ c ∧ c ≤ 'z'
    · obtain ⟨n, h1, h2, rfl⟩ := Str.char_range h
      have : ∀ n, n ≤ 122 → 97 ≤ n → Str.asciiUpC (Char.ofNat n) ≠ '.' := by decide
      exact this n h2 h1 he
    · unfold Str.asciiUpC at he
      rw [if_neg h] at he
      subst he; revert hc; unfold nameChar nameStart; decide
  obtain ⟨c, r, rfl, h1, h2⟩ := h
  intro hm
  rw [List.map_cons, List.mem_cons] at hm
  rcases hm with hm | hm
  · exact key c (.inl h1) hm.symm
  · obtain ⟨d, hd, he⟩ := List.mem_map.1 hm
    exact key d (h2 d hd) he

/-- C82. Every function called anywhere in a parsed text is called by a name in upper case: a letter or underscore, then
letters, digits and underscores. -/
theorem C82_called_names (text : Str) (v : Expr) (h : parse text = .ok v) (f : Str) (hf : f ∈ calls v) :
    ∃ n, IsName n ∧ f = n.map Str.asciiUpC := by
  obtain ⟨e, es, tr, rfl, rest, h1, _⟩ := Parser.parse_shape h
  rcases Parser.named_prog e es f hf with ⟨n, h2, h3⟩ | h2
  · exact ⟨n, Parser.spelled_ident h1 (List.mem_append_left _ h2), h3⟩
  · refine ⟨f, ?_, ?_⟩
    · simp only [List.mem_cons, List.not_mem_nil, or_false] at h2
      rcases h2 with rfl | rfl | rfl <;> refine ⟨_, _, rfl, ?_, ?_⟩ <;>
        first | (unfold nameStart; decide) | (unfold nameChar nameStart; decide)
    · simp only [List.mem_cons, List.not_mem_nil, or_false] at h2
      rcases h2 with rfl | rfl | rfl <;> rfl

/-- C82 fails for the functions with a dot in their name: they are registered as built in functions, but no text
calls them. -/
theorem C82_dotted_functions_cannot_be_called (text : Str) (v : Expr) (h : parse text = .ok v) :
    ∀ f ∈ [c!"MODE.SNGL", c!"STDEV.P", c!"VAR.P", c!"PERCENTILE.INC", c!"QUARTILE.INC"], f ∈ builtinNames ∧ f ∉ calls v := by
  have hd : ∀ f, '.' ∈ f → f ∉ calls v := by
    intro f hf hc
    obtain ⟨n, h1, h2⟩ := C82_called_names text v h f hc
    rw [h2] at hf
    exact isName_up h1 hf
  intro f hf
  refine ⟨?_, hd f ?_⟩
  · revert f; decide +kernel
  · revert f; decide +kernel

/-- What happens instead: the text up to the dot is a parse error, it is not a call. -/
theorem C82_dotted_call_fails :
    parse c!"STDEV.P(1, 2)" = .error (.err "Unexpected identifier (expected function call)" [] (some 5)) := by kernel_rfl

/-- A concrete case of `C82_called_names`. -/
example : parse c!"=sum(1, ...:xs.map(abs(:x))) > 2 ? true : if(false, 1, 2)" =
      .ok (.call c!"__TERNARY__" [.binary (.call c!"SUM" [.number (F64.ofNat 1), .spread (.method (.var c!"xs") c!"map" [.call c!"ABS" [.var c!"x"]] false)]) .gt (.number (F64.ofNat 2)),
        .call c!"__CONST_TRUE__" [], .call c!"IF" [.call c!"__CONST_FALSE__" [], .number (F64.ofNat 1), .number (F64.ofNat 2)]]) := by
  kernel_rfl

/-- C82, the other direction. Every name other than `true`, `false` and `null` can be called. -/
theorem C82_every_name_can_be_called (n : Str) (h : IsName n)
    (h' : ¬ SameWord n c!"true" ∧ ¬ SameWord n c!"false" ∧ ¬ SameWord n c!"null") :
    parse (n ++ c!"()") = .ok (.call (n.map Str.asciiUpC) []) := by
  have hp : ProgText (.call n []) [] (n ++ c!"()") := by
    unfold ProgText
    rw [progToks, Src.toks, argToks, commas]
    refine .tok (ws := []) (s := n) (r := c!"()") (by simp [Blank]) (.name h h'.1 h'.2.1 h'.2.2) ?_ ?_
    · show NextIs _ _
      simp [NextIs]; unfold nameChar nameStart; decide
    · refine .tok (ws := []) (s := c!"(") (r := c!")") (by simp [Blank]) (.symbol (by simp [symbols])) trivial ?_
      exact .tok (ws := []) (s := c!")") (r := []) (by simp [Blank]) (.symbol (by simp [symbols])) trivial (.done (by simp [Blank]))
  have := C03_print_parse _ _ _ hp
  rw [this, progExpr, Src.toExpr, argExprs]

/-- So the functions with a dot are the only built in ones that cannot be called. -/
theorem C82_other_builtins_can_be_called (f : Str) (hf : f ∈ builtinNames)
    (hd : f ∉ [c!"MODE.SNGL", c!"STDEV.P", c!"VAR.P", c!"PERCENTILE.INC", c!"QUARTILE.INC"]) :
    ∃ text, parse text = .ok (.call f []) := by
  have key : ∀ f ∈ builtinNames, f ∉ [c!"MODE.SNGL", c!"STDEV.P", c!"VAR.P", c!"PERCENTILE.INC", c!"QUARTILE.INC"] →
      parse (f ++ c!"()") = .ok (.call f []) := by
    intro f hf hd
    have h1 : f.map Str.asciiUpC = f := by revert f; decide +kernel
    have h2 : f.map Str.asciiLowC ≠ c!"true" ∧ f.map Str.asciiLowC ≠ c!"false" ∧ f.map Str.asciiLowC ≠ c!"null" := by
      clear h1; revert f; decide +kernel
    have h3 : ∃ c r, f = c :: r ∧ nameStart c ∧ ∀ d ∈ r, nameChar d := by
      have : f ≠ [] ∧ (∀ c ∈ f.head?, nameStart c) ∧ ∀ d ∈ f.tail, nameChar d := by
        clear h1 h2; revert f; unfold nameChar nameStart; decide +kernel
      cases f with
      | nil => exact absurd rfl this.1
      | cons c r => exact ⟨c, r, rfl, this.2.1 c rfl, this.2.2⟩
    have := C82_every_name_can_be_called f h3 h2
    rw [h1] at this
    exact this
  exact ⟨_, key f hf hd⟩
