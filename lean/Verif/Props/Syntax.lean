import Verif.Lemmas.Front
/-! C03, C04, C06, C07, C08: the text of a program and its tree. -/

open Lib Spec

/-- C03. Every program written with the documented precedence and associativity, parentheses where
precedence requires them and anywhere else one likes (`Src.paren`), and any whitespace, is parsed to exactly its tree. (No token is left over: the tree
is that of the whole text.) -/
theorem C03_print_parse (e : Src) (es : List Src) (text : Str) (h : ProgText e es text) :
    parse text = .ok (progExpr e es) := Parser.parse_progText h

/-- C03: the grammar is unambiguous: however a text is read, it stands for one program. -/
theorem C03_unambiguous (e e' : Src) (es es' : List Src) (text : Str) (h : ProgText e es text) (h' : ProgText e' es' text) :
    progExpr e es = progExpr e' es' :=
  Except.ok.inj ((C03_print_parse e es text h).symm.trans (C03_print_parse e' es' text h'))

/-- A token that can be written at all. -/
def Spec.Writable (t : Token) : Prop := ∃ s, Written t s

/-- A token that can be written has a spelling that a space may follow. -/
theorem Spec.written_space {t : Token} (h : Writable t) : ∃ s, Written t s ∧ ∀ r, NoGlue t s (' ' :: r) := by
  have h1 : ¬ nameChar ' ' := by unfold nameChar nameStart; decide
  obtain ⟨s, h⟩ := h
  cases h with
  | @number s q x hn hx =>
    cases hn with
    | int ds hne hd =>
      refine ⟨s, .number (.int s hne hd) hx, fun r => ⟨by simp [NextIs], by simp, fun h => ?_⟩⟩
      exact absurd (hd '.' (List.mem_of_getLast? h)) (by decide)
    | dec ip fp hne hip hfp =>
      cases fp with
      | nil =>
        have hip' : ip ≠ [] := by simpa using hne
        refine ⟨ip, .number (.int ip hip' hip) (by simpa [natOf] using hx), fun r => ⟨by simp [NextIs], by simp, fun h => ?_⟩⟩
        exact absurd (hip '.' (List.mem_of_getLast? h)) (by decide)
      | cons f fp =>
        refine ⟨_, .number (.dec ip (f :: fp) hne hip hfp) hx, fun r => ⟨by simp [NextIs], by simp, fun h => ?_⟩⟩
        have : '.' ∈ f :: fp := by
          rw [List.getLast?_append_cons, List.getLast?_cons_cons] at h
          exact List.mem_of_getLast? h
        exact absurd (hfp '.' this) (by decide)
  | symbol h => 
    refine ⟨s, .symbol h, fun r => ?_⟩
    simp only [symbols, List.mem_cons, Prod.mk.injEq, List.not_mem_nil, or_false] at h
    unfold NoGlue
    split <;> simp [NextIs] <;> simp_all
  | name h2 h3 h4 h5 => exact ⟨s, .name h2 h3 h4 h5, fun r => by simp [NoGlue, NextIs, h1]⟩
  | tru h => exact ⟨s, .tru h, fun r => by simp [NoGlue, NextIs, h1]⟩
  | fls h => exact ⟨s, .fls h, fun r => by simp [NoGlue, NextIs, h1]⟩
  | null h => exact ⟨s, .null h, fun r => by simp [NoGlue, NextIs, h1]⟩
  | string h h2 => exact ⟨_, .string h h2, fun r => by simp [NoGlue]⟩

theorem Spec.spells_exists : ∀ ts : List Token, (∀ t ∈ ts, Writable t) → ∃ text, Spells ts (' ' :: text)
  | [], _ => ⟨[], .done (by simp [Blank])⟩
  | t :: ts, h => by
    obtain ⟨text, ih⟩ := Spec.spells_exists ts (fun u hu => h u (by simp [hu]))
    obtain ⟨s, hs, hg⟩ := written_space (h t (by simp))
    exact ⟨s ++ ' ' :: text, .tok (ws := [' ']) (by simp [Blank]) hs (hg text) ih⟩

/-- The hypothesis of C03 can be met for every program whose tokens can be written: put a space between
tokens. -/
theorem C03_every_program_has_a_text (e : Src) (es : List Src) (h : ∀ t ∈ progToks e es, Writable t) :
    ∃ text, ProgText e es text ∧ parse text = .ok (progExpr e es) := by
  obtain ⟨text, ht⟩ := spells_exists _ h
  exact ⟨_, ht, C03_print_parse e es _ ht⟩

section
open Token
private theorem isName_of (s : Str) (c : Char) (r : Str) (h : s = c :: r) (h1 : nameStart c)
    (h2 : ∀ d ∈ r, nameChar d) : IsName s := ⟨c, r, h, h1, h2⟩

/-- A concrete case of C03: `-:x^2*(1+y(3))`, written without any whitespace. -/
example : ProgText (.bin (.un .minus (.bin (.var c!"x") .pow (.num (F64.ofNat 2)))) .mul
      (.bin (.num (F64.ofNat 1)) .add (.call c!"y" [(false, .num (F64.ofNat 3))]))) [] c!"-:x^2*(1+y(3))" := by
  have two : Written (.number (F64.ofNat 2)) c!"2" :=
    .number (.int _ (by simp) (by simp [Digits])) (Lx.denotes_round _)
  have one : Written (.number (F64.ofNat 1)) c!"1" :=
    .number (.int _ (by simp) (by simp [Digits])) (Lx.denotes_round _)
  have three : Written (.number (F64.ofNat 3)) c!"3" :=
    .number (.int _ (by simp) (by simp [Digits])) (Lx.denotes_round _)
  have name : ∀ c, ('x' ≤ c ∧ c ≤ 'y') → Written (.ident [c]) [c] := by
    intro c hc
    refine .name ⟨c, [], rfl, .inl ⟨Char.le_trans (by decide) hc.1, Char.le_trans hc.2 (by decide)⟩, by simp⟩ ?_ ?_ ?_ <;>
      simp [SameWord]
  have sym : ∀ t s, (t, s) ∈ symbols → Written t s := fun t s h => .symbol h
  show Spells [.minus, .colon, .ident c!"x", .caret, .number (F64.ofNat 2), .star, .lparen, .number (F64.ofNat 1),
    .plus, .ident c!"y", .lparen, .number (F64.ofNat 3), .rparen, .rparen] _
  have hx : ¬ nameChar '^' := by unfold nameChar nameStart; decide
  have hy : ¬ nameChar '(' := by unfold nameChar nameStart; decide
  refine .tok (ws := []) (s := c!"-") (by simp [Blank]) (sym _ _ (by simp [symbols])) (by simp [NoGlue]) ?_
  refine .tok (ws := []) (s := c!":") (by simp [Blank]) (sym _ _ (by simp [symbols])) (by simp [NoGlue, NextIs]) ?_
  refine .tok (ws := []) (s := c!"x") (by simp [Blank]) (name 'x' (by decide)) (by simp [NoGlue, NextIs, hx]) ?_
  refine .tok (ws := []) (s := c!"^") (by simp [Blank]) (sym _ _ (by simp [symbols])) (by simp [NoGlue]) ?_
  refine .tok (ws := []) (s := c!"2") (by simp [Blank]) two (by simp [NoGlue, NextIs]) ?_
  refine .tok (ws := []) (s := c!"*") (by simp [Blank]) (sym _ _ (by simp [symbols])) (by simp [NoGlue]) ?_
  refine .tok (ws := []) (s := c!"(") (by simp [Blank]) (sym _ _ (by simp [symbols])) (by simp [NoGlue]) ?_
  refine .tok (ws := []) (s := c!"1") (by simp [Blank]) one (by simp [NoGlue, NextIs]) ?_
  refine .tok (ws := []) (s := c!"+") (by simp [Blank]) (sym _ _ (by simp [symbols])) (by simp [NoGlue]) ?_
  refine .tok (ws := []) (s := c!"y") (by simp [Blank]) (name 'y' (by decide)) (by simp [NoGlue, NextIs, hy]) ?_
  refine .tok (ws := []) (s := c!"(") (by simp [Blank]) (sym _ _ (by simp [symbols])) (by simp [NoGlue]) ?_
  refine .tok (ws := []) (s := c!"3") (by simp [Blank]) three (by simp [NoGlue, NextIs]) ?_
  refine .tok (ws := []) (s := c!")") (by simp [Blank]) (sym _ _ (by simp [symbols])) (by simp [NoGlue]) ?_
  refine .tok (ws := []) (s := c!")") (by simp [Blank]) (sym _ _ (by simp [symbols])) (by simp [NoGlue]) ?_
  exact .done (by simp [Blank])
end

/-- Parentheses that are not needed are not in the tree, whatever is inside. -/
example (e : Src) (text : Str) (h : ProgText (.paren (.paren e)) [] text) : parse text = .ok e.toExpr :=
  C03_print_parse _ _ _ h

/-- C04. Two texts made of the same tokens, with whatever whitespace before each token and at the end, have
the same parse: the same tree, or the same error. This holds of every token sequence, well formed or not, that does not
start with `=` (see `C04_leading_eq`). -/
theorem C04_whitespace (ts : List Token) (a b : Str) (ha : Spells ts a) (hb : Spells ts b)
    (h : ts.head? ≠ some .eq) : SameParse (parse a) (parse b) := Parser.sameParse_spells ha hb h

/-- C04, the leading `=`: it can be put before any text, after any whitespace, without changing the parse. The text
itself must not start with `=`, which would then be stripped instead. -/
theorem C04_leading_eq (ws text : Str) (hws : ∀ c ∈ ws, Str.isWs c = true)
    (ht : ¬ ∃ ws' r, text = ws' ++ '=' :: r ∧ ∀ c ∈ ws', Str.isWs c = true) :
    parse (ws ++ '=' :: text) = parse text := by
  refine Parser.parse_eqPrefix ws text (List.all_eq_true.2 hws) ?_
  intro r hr
  obtain ⟨w, h1, h2⟩ := Parser.dropWhile_split Str.isWs text
  rw [hr] at h1
  exact ht ⟨w, r, h1, List.all_eq_true.1 h2⟩

/-- A concrete case of C04: an ill-formed token sequence, two layouts, the same error. -/
example : Spells [.lparen, .plus, .rparen] c!"(+)" ∧ Spells [.lparen, .plus, .rparen] c!"  ( +\n) " ∧
    (parse c!"(+)").isOk = false := by
  have sym : ∀ t s, (t, s) ∈ symbols → Written t s := fun t s h => .symbol h
  refine ⟨?_, ?_, by kernel_rfl⟩
  · refine .tok (ws := []) (s := c!"(") (by simp [Blank]) (sym _ _ (by simp [symbols])) (by simp [NoGlue]) ?_
    refine .tok (ws := []) (s := c!"+") (by simp [Blank]) (sym _ _ (by simp [symbols])) (by simp [NoGlue]) ?_
    refine .tok (ws := []) (s := c!")") (by simp [Blank]) (sym _ _ (by simp [symbols])) (by simp [NoGlue]) ?_
    exact .done (by simp [Blank])
  · refine .tok (ws := c!"  ") (s := c!"(") (by simp [Blank]) (sym _ _ (by simp [symbols])) (by simp [NoGlue]) ?_
    refine .tok (ws := c!" ") (s := c!"+") (by simp [Blank]) (sym _ _ (by simp [symbols])) (by simp [NoGlue]) ?_
    refine .tok (ws := c!"\n") (s := c!")") (by simp [Blank]) (sym _ _ (by simp [symbols])) (by simp [NoGlue]) ?_
    exact .done (by simp [Blank])

/-- A concrete case of the leading `=`. -/
example : parse c!" \t= 1 + 2" = parse c!" 1 + 2" := by kernel_rfl

theorem Spec.progText_one {e : Src} {t : Token} {s : Str} (he : e.toks = [t]) (h : Written t s) :
    ProgText e [] s := by
  unfold ProgText progToks
  rw [he]
  have := Spells.tok (ws := []) (r := []) (by simp [Blank]) h (by unfold NoGlue; split <;> simp [NextIs])
    (Spells.done (ws := []) (by simp [Blank]))
  simpa using this

/-- C06. The text of a numeral of exact value `q` (`12`, `12.5`, `.5`, `12.`; any number of digits) evaluates to the
double nearest to `q`, ties to even, infinity on overflow. `Denotes` determines that double
(`C06_denotes_unique`), so both conversion paths of the lexer agree with it. -/
theorem C06_numeric_literals (X : Ext) (s : Str) (q : ℚ) (h : Numeral s q) :
    ∃ x, Denotes q x ∧ evaluate X s = .ok (.num x) := by
  refine ⟨F64.round q, Lx.denotes_round q, ?_⟩
  have : parse s = .ok (.number (F64.round q)) := C03_print_parse (.num (F64.round q)) [] s
    (progText_one (by rw [Src.toks]) (.number h (Lx.denotes_round q)))
  unfold evaluate
  rw [this]
  rfl

/-- The double a numeral denotes is determined by its value. -/
theorem C06_denotes_unique (q : ℚ) (x y : F64) (hx : Denotes q x) (hy : Denotes q y) : x = y :=
  (Lx.denotes_unique hx).trans (Lx.denotes_unique hy).symm

/-- A concrete case of C06, of the short path and of the general one. -/
example : Numeral c!"0.1" (1 / 10) ∧ Numeral c!"12345678901" 12345678901 := by
  constructor
  · have h := Numeral.dec c!"0" c!"1" (by simp) (by simp [Digits]) (by simp [Digits])
    have e : ((natOf c!"0" : ℚ) + natOf c!"1" / 10 ^ (c!"1").length) = 1 / 10 := by decide +kernel
    rw [e] at h; exact h
  · have h := Numeral.int c!"12345678901" (by simp) (by simp [Digits])
    have e : ((natOf c!"12345678901" : ℕ) : ℚ) = 12345678901 := by decide +kernel
    rw [e] at h; exact h

/-- C07, escapes in general: the quoted text `w` evaluates to the string `m` it stands for, for both quotes. -/
theorem C07_quoted_text (X : Ext) (q : Char) (w m : Str) (hq : q = '"' ∨ q = '\'') (h : Quoted q w m) :
    evaluate X (q :: (w ++ [q])) = .ok (.str m) := by
  have : parse (q :: (w ++ [q])) = .ok (.strLit m) := C03_print_parse (.str m) [] _
    (progText_one (by rw [Src.toks]) (.string hq h))
  unfold evaluate
  rw [this]
  rfl

/-- C07. For every string `s`, the literal of `s` evaluates to exactly `s`, for both quotes. -/
theorem C07_string_literal_transparent (X : Ext) (q : Char) (s : Str) (hq : q = '"' ∨ q = '\'') :
    evaluate X (literal q s) = .ok (.str s) := by
  apply C07_quoted_text X q _ _ hq
  induction s with
  | nil => exact .nil
  | cons c s ih =>
    rw [List.flatMap_cons]
    by_cases hc : c = q ∨ c = '\\'
    · rw [if_pos hc]
      have hm : escMeaning c = c := by
        unfold escMeaning
        rcases hc with rfl | rfl
        · rcases hq with rfl | rfl <;> rfl
        · rfl
      have := Quoted.esc (q := q) c ih
      rw [hm] at this
      exact this
    · rw [if_neg hc]
      rw [not_or] at hc
      exact Quoted.plain c hc.1 hc.2 ih

/-- A concrete case of C07: quotes, backslashes, a newline and a non-ASCII character. -/
example (X : Ext) : evaluate X c!"\"a\\\"b\\\\n\né'\"" = .ok (.str c!"a\"b\\n\né'") := by kernel_rfl

theorem Spec.map_low_idem (s : Str) : (s.map Str.asciiLowC).map Str.asciiLowC = s.map Str.asciiLowC := by
  rw [List.map_map]; congr 1; exact funext Str.asciiLowC_idem

theorem Spec.map_up_idem (s : Str) : (s.map Str.asciiUpC).map Str.asciiUpC = s.map Str.asciiUpC := by
  rw [List.map_map]; congr 1; exact funext Str.asciiUpC_idem

mutual
theorem Spec.canon_toExpr : (e : Src) → e.canon.toExpr = e.toExpr
  | .num n => by simp only [Src.canon]
  | .str s => by simp only [Src.canon]
  | .null => by simp only [Src.canon]
  | .tru => by simp only [Src.canon]
  | .fls => by simp only [Src.canon]
  | .var x => by simp only [Src.canon]
  | .un op e => by simp only [Src.canon, Src.toExpr, Spec.canon_toExpr e]
  | .bin l op r => by simp only [Src.canon, Src.toExpr, Spec.canon_toExpr l, Spec.canon_toExpr r]
  | .tern c t e => by simp only [Src.canon, Src.toExpr, Spec.canon_toExpr c, Spec.canon_toExpr t, Spec.canon_toExpr e]
  | .assign x v => by simp only [Src.canon, Src.toExpr, Spec.canon_toExpr v]
  | .call name args => by simp only [Src.canon, Src.toExpr, Spec.map_up_idem, Spec.canon_args args]
  | .arr items => by simp only [Src.canon, Src.toExpr, Spec.canon_items items]
  | .obj ms c => by simp only [Src.canon, Src.toExpr, Spec.canon_members ms]
  | .paren e => by simp only [Src.canon, Src.toExpr, Spec.canon_toExpr e]
  | .prop t p => by simp only [Src.canon, Src.toExpr, Spec.canon_toExpr t]
  | .safeProp t p => by simp only [Src.canon, Src.toExpr, Spec.canon_toExpr t]
  | .meth t name args => by
    simp only [Src.canon, Src.toExpr, Spec.map_low_idem, Spec.canon_args args, Spec.canon_toExpr t]
  | .pred t name => by simp only [Src.canon, Src.toExpr, Spec.map_low_idem, Spec.canon_toExpr t]
  | .safeMeth t name args => by
    simp only [Src.canon, Src.toExpr, Spec.map_low_idem, Spec.canon_args args, Spec.canon_toExpr t]
  | .index t i => by simp only [Src.canon, Src.toExpr, Spec.canon_toExpr t, Spec.canon_toExpr i]
  | .slice t a b => by simp only [Src.canon, Src.toExpr, Spec.canon_toExpr t, Spec.canon_opt a, Spec.canon_opt b]
  | .cast e ty name h => by simp only [Src.canon, Src.toExpr, Spec.canon_toExpr e]
theorem Spec.canon_args : (l : List (Bool × Src)) → argExprs (canonArgs l) = argExprs l
  | [] => rfl
  | (sp, e) :: rest => by simp only [canonArgs, argExprs, Spec.canon_toExpr e, Spec.canon_args rest]
theorem Spec.canon_items : (l : List Src) → itemExprs (canonItems l) = itemExprs l
  | [] => rfl
  | e :: rest => by simp only [canonItems, itemExprs, Spec.canon_toExpr e, Spec.canon_items rest]
theorem Spec.canon_members : (l : List (Key × Src)) → memberExprs (canonMembers l) = memberExprs l
  | [] => rfl
  | (k, e) :: rest => by simp only [canonMembers, memberExprs, Spec.canon_toExpr e, Spec.canon_members rest]
theorem Spec.canon_opt : (o : Option Src) → optExpr (canonOpt o) = optExpr o
  | none => rfl
  | some e => by simp only [canonOpt, optExpr, Spec.canon_toExpr e]
end

/-- C08. Two texts of programs that differ only in the case of function, method and type names, in the case of
`TRUE`, `FALSE` and `NULL` (`Written` allows any case for them), and in whitespace, have the same tree. -/
theorem C08_names_case_insensitive (a b : Src) (ta tb : Str) (h : SameButCase a b) (ha : ProgText a [] ta)
    (hb : ProgText b [] tb) : parse ta = parse tb ∧ parse ta = .ok a.toExpr := by
  have e : a.toExpr = b.toExpr := by rw [← canon_toExpr a, ← canon_toExpr b, h]
  have h1 : parse ta = .ok a.toExpr := C03_print_parse a [] ta ha
  have h2 : parse tb = .ok b.toExpr := C03_print_parse b [] tb hb
  exact ⟨by rw [h1, h2, e], h1⟩

/-- C08 for variables: the spelling is kept, and the variable read is the one of exactly that spelling. -/
theorem C08_variables_case_sensitive (X : Ext) (x : Str) (env : Env) (hx : IsName x)
    (h1 : ¬ SameWord x c!"true") (h2 : ¬ SameWord x c!"false") (h3 : ¬ SameWord x c!"null") :
    parse (':' :: x) = .ok (.var x) ∧ ∀ v, env x = some v → evaluateWith X (':' :: x) env = .ok v := by
  have hp : parse (':' :: x) = .ok (.var x) := by
    refine C03_print_parse (.var x) [] _ ?_
    unfold ProgText progToks
    rw [Src.toks]
    obtain ⟨c, r, rfl, hc, hr⟩ := hx
    have hcc : c ≠ ':' ∧ c ≠ '=' := by
      constructor <;> (rintro rfl; revert hc; unfold nameStart; decide)
    have := Spells.tok (ws := []) (r := []) (by simp [Blank]) (Written.name ⟨c, r, rfl, hc, hr⟩ h1 h2 h3)
      (by simp [NoGlue, NextIs]) (Spells.done (ws := []) (by simp [Blank]))
    have := Spells.tok (ws := []) (s := c!":") (t := .colon) (by simp [Blank]) (.symbol (by simp [symbols]))
      (by simp [NoGlue, NextIs, hcc]) this
    simpa using this
  refine ⟨hp, fun v hv => ?_⟩
  unfold evaluateWith
  rw [hp]
  simp only [bind, Except.bind]
  show evalVars X (.var x) env = _
  simp [evalVars, Eval.eval, hv]

/-- A concrete case of C08. -/
example : SameButCase (.call c!"Sum" [(false, .tru), (false, .meth (.var c!"Xs") c!"Map" [])])
      (.call c!"sUM" [(false, .tru), (false, .meth (.var c!"Xs") c!"maP" [])]) ∧
    parse c!"Sum(true, :Xs.Map())" = parse c!"sUM( TRUE,:Xs.maP() )" ∧
    parse c!":Xs" ≠ parse c!":xs" := by
  refine ⟨rfl, by kernel_rfl, ?_⟩
  have h1 : parse c!":Xs" = .ok (.var c!"Xs") := by kernel_rfl
  have h2 : parse c!":xs" = .ok (.var c!"xs") := by kernel_rfl
  rw [h1, h2]; simp
