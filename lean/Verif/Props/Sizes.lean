import Verif.Props.Lambda
import Verif.Props.Grammar
import Verif.Props.JsonText
/-! C140: how large trees and results are, compared with the text of the expression. -/

open Lib Spec

namespace Sizes

namespace Spec

mutual
/-- The number of nodes of a tree. -/
def nodes : Expr → Nat
  | .number _ => 1
  | .strLit _ => 1
  | .null => 1
  | .var _ => 1
  | .unary _ e => nodes e + 1
  | .binary l _ r => nodes l + nodes r + 1
  | .prop t _ => nodes t + 1
  | .safeProp t _ => nodes t + 1
  | .safeCall t _ args => nodes t + nodesAll args + 1
  | .call _ args => nodesAll args + 1
  | .spread e => nodes e + 1
  | .array items => nodesAll items + 1
  | .object ms => nodesMembers ms + 1
  | .method t _ args _ => nodes t + nodesAll args + 1
  | .index t i => nodes t + nodes i + 1
  | .slice t a b => nodes t + nodesOpt a + nodesOpt b + 1
  | .cast e _ => nodes e + 1
  | .assign _ v => nodes v + 1
  | .seq es => nodesAll es + 1
/-- Those of a list of trees. -/
def nodesAll : List Expr → Nat
  | [] => 0
  | e :: es => nodes e + nodesAll es
/-- Those of the members of an object. -/
def nodesMembers : List (Str × Expr) → Nat
  | [] => 0
  | (_, e) :: ms => nodes e + nodesMembers ms
/-- Those of an optional part. -/
def nodesOpt : Option Expr → Nat
  | none => 0
  | some e => nodes e
end

mutual
/-- How deeply nodes are nested. -/
def depth : Expr → Nat
  | .number _ => 1
  | .strLit _ => 1
  | .null => 1
  | .var _ => 1
  | .unary _ e => depth e + 1
  | .binary l _ r => max (depth l) (depth r) + 1
  | .prop t _ => depth t + 1
  | .safeProp t _ => depth t + 1
  | .safeCall t _ args => max (depth t) (depthAll args) + 1
  | .call _ args => depthAll args + 1
  | .spread e => depth e + 1
  | .array items => depthAll items + 1
  | .object ms => depthMembers ms + 1
  | .method t _ args _ => max (depth t) (depthAll args) + 1
  | .index t i => max (depth t) (depth i) + 1
  | .slice t a b => max (depth t) (max (depthOpt a) (depthOpt b)) + 1
  | .cast e _ => depth e + 1
  | .assign _ v => depth v + 1
  | .seq es => depthAll es + 1
/-- The deepest of a list of trees. -/
def depthAll : List Expr → Nat
  | [] => 0
  | e :: es => max (depth e) (depthAll es)
/-- The deepest of the members of an object. -/
def depthMembers : List (Str × Expr) → Nat
  | [] => 0
  | (_, e) :: ms => max (depth e) (depthMembers ms)
/-- An optional part. -/
def depthOpt : Option Expr → Nat
  | none => 0
  | some e => depth e
end

/-- `n` signs, then a one. -/
def signs (n : Nat) : Str := List.replicate n '-' ++ c!"1"

/-- A one in `n` pairs of parentheses. -/
def parens (n : Nat) : Str := List.replicate n '(' ++ (c!"1" ++ List.replicate n ')')

/-- `MAP([1,1],MAP([1,1],…1…))`, `n` times. -/
def maps : Nat → Str
  | 0 => c!"1"
  | n + 1 => c!"MAP([1,1]," ++ (maps n ++ c!")")

/-- `:a:=1;:a:=[:a,:a];:a:=[:a,:a];…`, with `n` arrays. -/
def doublings (n : Nat) : Str := c!":a:=1" ++ (List.replicate n c!";:a:=[:a,:a]").flatten

end Spec

open Sizes.Spec
open JsonText.Spec (numbers numbersAll)

/-! ### Trees -/

mutual
theorem depth_le : (e : Expr) → depth e ≤ nodes e
  | .number _ => by simp [depth, nodes]
  | .strLit _ => by simp [depth, nodes]
  | .null => by simp [depth, nodes]
  | .var _ => by simp [depth, nodes]
  | .unary _ e => by have := depth_le e; simp only [depth, nodes]; omega
  | .binary l _ r => by have := depth_le l; have := depth_le r; simp only [depth, nodes]; omega
  | .prop t _ => by have := depth_le t; simp only [depth, nodes]; omega
  | .safeProp t _ => by have := depth_le t; simp only [depth, nodes]; omega
  | .safeCall t _ args => by have := depth_le t; have := depthAll_le args; simp only [depth, nodes]; omega
  | .call _ args => by have := depthAll_le args; simp only [depth, nodes]; omega
  | .spread e => by have := depth_le e; simp only [depth, nodes]; omega
  | .array items => by have := depthAll_le items; simp only [depth, nodes]; omega
  | .object ms => by have := depthMembers_le ms; simp only [depth, nodes]; omega
  | .method t _ args _ => by have := depth_le t; have := depthAll_le args; simp only [depth, nodes]; omega
  | .index t i => by have := depth_le t; have := depth_le i; simp only [depth, nodes]; omega
  | .slice t a b => by
    have := depth_le t; have := depthOpt_le a; have := depthOpt_le b; simp only [depth, nodes]; omega
  | .cast e _ => by have := depth_le e; simp only [depth, nodes]; omega
  | .assign _ v => by have := depth_le v; simp only [depth, nodes]; omega
  | .seq es => by have := depthAll_le es; simp only [depth, nodes]; omega
theorem depthAll_le : (es : List Expr) → depthAll es ≤ nodesAll es
  | [] => by simp [depthAll]
  | e :: es => by have := depth_le e; have := depthAll_le es; simp only [depthAll, nodesAll]; omega
theorem depthMembers_le : (ms : List (Str × Expr)) → depthMembers ms ≤ nodesMembers ms
  | [] => by simp [depthMembers]
  | (_, e) :: ms => by have := depth_le e; have := depthMembers_le ms; simp only [depthMembers, nodesMembers]; omega
theorem depthOpt_le : (o : Option Expr) → depthOpt o ≤ nodesOpt o
  | none => by simp [depthOpt]
  | some e => by simpa [depthOpt, nodesOpt] using depth_le e
end

/-- Tokens of some lists of tokens. -/
def total : List (List Token) → Nat
  | [] => 0
  | ts :: rest => ts.length + total rest

theorem total_le : (l : List (List Token)) → total l ≤ (commas l).length
  | [] => by simp [total]
  | [a] => by simp [total, commas]
  | a :: b :: rest => by
    have := total_le (b :: rest)
    simp only [total, commas, List.length_append, List.length_cons] at *
    omega

theorem wrap_le (b : Bool) (ts : List Token) : ts.length ≤ (wrap b ts).length := by
  unfold wrap; split <;> simp; omega

mutual
theorem nodes_toks : (e : Src) → nodes e.toExpr ≤ e.toks.length
  | .num _ => by simp [Src.toExpr, Src.toks, nodes]
  | .str _ => by simp [Src.toExpr, Src.toks, nodes]
  | .null => by simp [Src.toExpr, Src.toks, nodes]
  | .tru => by simp [Src.toExpr, Src.toks, nodes, nodesAll]
  | .fls => by simp [Src.toExpr, Src.toks, nodes, nodesAll]
  | .var _ => by simp [Src.toExpr, Src.toks, nodes]
  | .un op e => by
    have := nodes_toks e; have := wrap_le (e.prec < 8) e.toks
    simp only [Src.toExpr, Src.toks, nodes, List.length_cons]; omega
  | .bin l op r => by
    have h1 := nodes_toks l; have h2 := nodes_toks r
    simp only [Src.toExpr, Src.toks, nodes]
    split
    · have := wrap_le (l.prec < 10) l.toks; have := wrap_le (r.prec < 8) r.toks
      simp only [List.length_append, List.length_cons]; omega
    · have := wrap_le (l.prec < opPrec op) l.toks; have := wrap_le (r.prec < opPrec op + 1) r.toks
      simp only [List.length_append, List.length_cons]; omega
  | .tern c t e => by
    have h1 := nodes_toks c; have h2 := nodes_toks t; have h3 := nodes_toks e
    have h4 := wrap_le (c.prec < 2) c.toks
    have h5 := wrap_le (endsProp (wrap (c.prec < 2) c.toks)) (wrap (c.prec < 2) c.toks)
    simp only [Src.toExpr, Src.toks, nodes, nodesAll, List.length_append, List.length_cons]; omega
  | .assign x v => by
    have := nodes_toks v; have := wrap_le (v.prec < 1) v.toks
    simp only [Src.toExpr, Src.toks, nodes, List.length_cons]; omega
  | .call name args => by
    have := nodes_args args; have := total_le (argToks args)
    simp only [Src.toExpr, Src.toks, nodes, List.length_append, List.length_cons]; omega
  | .arr items => by
    have := nodes_items items; have := total_le (itemToks items)
    simp only [Src.toExpr, Src.toks, nodes, List.length_append, List.length_cons]; omega
  | .obj ms c => by
    have := nodes_members ms; have := total_le (memberToks ms)
    simp only [Src.toExpr, Src.toks, nodes, List.length_append, List.length_cons]; omega
  | .paren e => by
    have := nodes_toks e
    simp only [Src.toExpr, Src.toks, List.length_append, List.length_cons]; omega
  | .prop t p => by
    have := nodes_toks t; have := wrap_le (t.prec < 11) t.toks
    simp only [Src.toExpr, Src.toks, nodes, List.length_append, List.length_cons]; omega
  | .safeProp t p => by
    have := nodes_toks t; have := wrap_le (t.prec < 11) t.toks
    simp only [Src.toExpr, Src.toks, nodes, List.length_append, List.length_cons]; omega
  | .meth t name args => by
    have := nodes_toks t; have := wrap_le (t.prec < 11) t.toks
    have := nodes_args args; have := total_le (argToks args)
    simp only [Src.toExpr, Src.toks, nodes, List.length_append, List.length_cons]; omega
  | .pred t name => by
    have := nodes_toks t; have := wrap_le (t.prec < 11) t.toks
    simp only [Src.toExpr, Src.toks, nodes, nodesAll, List.length_append, List.length_cons]; omega
  | .safeMeth t name args => by
    have := nodes_toks t; have := wrap_le (t.prec < 11) t.toks
    have := nodes_args args; have := total_le (argToks args)
    simp only [Src.toExpr, Src.toks, nodes, List.length_append, List.length_cons]; omega
  | .index t i => by
    have := nodes_toks t; have := wrap_le (t.prec < 11) t.toks
    have := nodes_toks i; have := wrap_le (startsColon i.toks) i.toks
    simp only [Src.toExpr, Src.toks, nodes, List.length_append, List.length_cons]; omega
  | .slice t a b => by
    have := nodes_toks t; have := wrap_le (t.prec < 11) t.toks
    have := nodes_start a; have := nodes_end b
    simp only [Src.toExpr, Src.toks, nodes, List.length_append, List.length_cons]; omega
  | .cast e ty name _ => by
    have := nodes_toks e; have := wrap_le (e.prec < 11) e.toks
    simp only [Src.toExpr, Src.toks, nodes, List.length_append, List.length_cons]; omega
theorem nodes_args : (as : List (Bool × Src)) → nodesAll (argExprs as) ≤ total (argToks as)
  | [] => by simp [argExprs, nodesAll]
  | (sp, e) :: rest => by
    have := nodes_toks e; have := nodes_args rest
    cases sp <;> simp [argExprs, argToks, nodesAll, total, nodes] <;> omega
theorem nodes_items : (es : List Src) → nodesAll (itemExprs es) ≤ total (itemToks es)
  | [] => by simp [itemExprs, nodesAll]
  | e :: rest => by
    have := nodes_toks e; have := nodes_items rest
    simp only [itemExprs, itemToks, nodesAll, total]; omega
theorem nodes_members : (ms : List (Key × Src)) → nodesMembers (memberExprs ms) ≤ total (memberToks ms)
  | [] => by simp [memberExprs, nodesMembers]
  | (k, e) :: rest => by
    have := nodes_toks e; have := nodes_members rest
    simp only [memberExprs, memberToks, nodesMembers, total, List.length_cons]; omega
theorem nodes_start : (o : Option Src) → nodesOpt (optExpr o) ≤ (startToks o).length
  | none => by simp [optExpr, nodesOpt]
  | some e => by
    have := nodes_toks e; have := wrap_le (startsColon e.toks) e.toks
    simp only [optExpr, nodesOpt, startToks]; omega
theorem nodes_end : (o : Option Src) → nodesOpt (optExpr o) ≤ (endToks o).length
  | none => by simp [optExpr, nodesOpt]
  | some e => by simpa [optExpr, nodesOpt, endToks] using nodes_toks e
end

theorem nodes_prog (e : Src) (es : List Src) : nodes (progExpr e es) ≤ (progToks e es).length := by
  have gen : ∀ (es : List Src) (e : Src),
      nodesAll (e.toExpr :: es.map Src.toExpr) + es.length ≤ (progToks e es).length := by
    intro es
    induction es with
    | nil => intro e; simpa [progToks, nodesAll] using nodes_toks e
    | cons f rest ih =>
      intro e
      have := ih f; have := nodes_toks e
      simp only [List.map_cons, nodesAll, progToks, List.length_append, List.length_cons] at *
      omega
  cases es with
  | nil => exact nodes_toks e
  | cons f rest =>
    have := gen (f :: rest) e
    simp only [progExpr, nodes, List.map_cons, List.length_cons] at *
    omega

theorem written_pos {t : Token} {s : Str} (h : Written t s) : 1 ≤ s.length := by
  cases h with
  | number h _ =>
    cases h with
    | int ds h1 _ => exact List.length_pos_iff.2 h1
    | dec ip fp h1 _ _ => simp; omega
  | name h _ _ _ => obtain ⟨c, r, rfl, _⟩ := h; simp
  | tru h => unfold SameWord at h; have := congrArg List.length h; simp at this; omega
  | fls h => unfold SameWord at h; have := congrArg List.length h; simp at this; omega
  | null h => unfold SameWord at h; have := congrArg List.length h; simp at this; omega
  | string _ _ => simp
  | symbol h =>
    have : ∀ p ∈ symbols, 1 ≤ p.2.length := by decide
    exact this _ h

theorem spellsTo_le {ts : List Token} {text rest : Str} (h : SpellsTo ts text rest) : ts.length ≤ text.length := by
  induction h with
  | done => simp
  | tok _ hw _ _ ih => have := written_pos hw; simp only [List.length_cons, List.length_append]; omega

/-- C140, trees: whatever is parsed, the tree has no more nodes than the text has characters. In particular
evaluation does not nest deeper than that. -/
theorem C140_tree (text : Str) (e : Expr) (h : parse text = .ok e) : nodes e ≤ text.length ∧ depth e ≤ nodes e := by
  obtain ⟨body, p, es, rest, hb, rfl, hs, _⟩ := C05_prefix_partial text e h
  refine ⟨?_, depth_le _⟩
  have h1 := nodes_prog p es
  have h2 := spellsTo_le hs
  have h3 : body.length ≤ text.length := by
    rcases hb with rfl | ⟨ws, _, rfl⟩
    · exact Nat.le_refl _
    · simp only [List.length_append, List.length_cons]; omega
  omega

/-- The hypothesis of `C140_tree`, with the numbers it speaks of. -/
example : (parse c!"SUM(:a, 2) * {k: [1, -2]}.k[0]").map (fun e => (nodes e, depth e)) = .ok (12, 7) := by kernel_rfl

/-! ### Texts -/

theorem one_written : Written (.number (F64.ofNat 1)) c!"1" :=
  .number (.int _ (by simp) (by simp [Digits])) (Lx.denotes_round _)

theorem to_sym {t : Token} {s r rest : Str} {ts : List Token} (h : (t, s) ∈ symbols) (hg : NoGlue t s r)
    (hr : SpellsTo ts r rest) : SpellsTo (t :: ts) (s ++ r) rest :=
  .tok (ws := []) (by simp [Blank]) (.symbol h) hg hr

theorem to_one {r rest : Str} {ts : List Token} (c : Char) (r' : Str) (hc : ¬ ('0' ≤ c ∧ c ≤ '9')) (hd : c ≠ '.')
    (e : r = c :: r') (hr : SpellsTo ts r rest) : SpellsTo (.number (F64.ofNat 1) :: ts) (c!"1" ++ r) rest := by
  refine .tok (ws := []) (by simp [Blank]) one_written ?_ hr
  subst e
  refine ⟨?_, ?_, ?_⟩
  · intro d hd'; simp at hd'; subst hd'; exact hc
  · intro _ r'' h; simp at h; exact absurd h.1 hd
  · simp

theorem to_one_end : SpellsTo [.number (F64.ofNat 1)] c!"1" [] := by
  refine .tok (ws := []) (s := c!"1") (r := []) (by simp [Blank]) one_written ?_ .done
  refine ⟨by simp [NextIs], by simp, by simp⟩

theorem to_name {s r rest : Str} {ts : List Token} (h : Written (.ident s) s) (hg : NextIs (fun c => ¬ nameChar c) r)
    (hr : SpellsTo ts r rest) : SpellsTo (.ident s :: ts) (s ++ r) rest :=
  .tok (ws := []) (by simp [Blank]) h hg hr

theorem parse_to {e : Src} {es : List Src} {text : Str} (h : SpellsTo (progToks e es) text []) :
    parse text = .ok (progExpr e es) := by
  refine C03_print_parse e es text ?_
  have := Parser.spells_of_to h (.done (ws := []) (by simp [Blank]))
  simpa [ProgText] using this

/-- `n` signs. -/
def signsSrc : Nat → Src
  | 0 => .num (F64.ofNat 1)
  | n + 1 => .un .minus (signsSrc n)

theorem signs_toks (n : Nat) : (signsSrc (n + 1)).toks = .minus :: (signsSrc n).toks := by
  have : 8 ≤ (signsSrc n).prec := by cases n <;> simp [signsSrc, Src.prec]
  simp [signsSrc, Src.toks, unTok, wrap, this]

theorem signs_spell (n : Nat) : SpellsTo (signsSrc n).toks (signs n) [] := by
  induction n with
  | zero => exact to_one_end
  | succ n ih =>
    rw [signs_toks]
    exact to_sym (s := c!"-") (by simp [symbols]) (by simp [NoGlue]) ih

theorem signs_depth (n : Nat) : depth (signsSrc n).toExpr = n + 1 := by
  induction n with
  | zero => rfl
  | succ n ih => simp only [signsSrc, Src.toExpr, depth, ih]

/-- C140, trees are not flatter than that in general: `--…1` with `n` signs has depth `n + 1`, the length of its text. -/
theorem C140_deep (n : Nat) : ∃ e, parse (signs n) = .ok e ∧ depth e = (signs n).length ∧ (signs n).length = n + 1 := by
  refine ⟨_, parse_to (e := signsSrc n) (es := []) (signs_spell n), ?_, ?_⟩
  · simp [progExpr, signs_depth, signs]
  · simp [signs]

/-- `n` pairs of parentheses. -/
def parensSrc : Nat → Src
  | 0 => .num (F64.ofNat 1)
  | n + 1 => .paren (parensSrc n)

theorem parens_spell (n : Nat) : ∀ (ts : List Token) (r : Str), (r = [] ∨ ∃ r', r = ')' :: r') → SpellsTo ts r [] →
    SpellsTo ((parensSrc n).toks ++ ts) (List.replicate n '(' ++ (c!"1" ++ (List.replicate n ')' ++ r))) [] := by
  induction n with
  | zero =>
    intro ts r hr h
    rcases hr with rfl | ⟨r', rfl⟩
    · cases ts with
      | nil => exact to_one_end
      | cons t ts =>
        exfalso
        have := spellsTo_le h
        simp at this
    · exact to_one ')' r' (by decide) (by decide) rfl h
  | succ n ih =>
    intro ts r hr h
    have h1 := ih (.rparen :: ts) (')' :: r) (.inr ⟨r, rfl⟩) (to_sym (s := c!")") (by simp [symbols]) (by simp [NoGlue]) h)
    have h2 := to_sym (t := .lparen) (s := c!"(") (by simp [symbols]) (by simp [NoGlue]) h1
    have e : List.replicate (n + 1) ')' ++ r = List.replicate n ')' ++ ')' :: r := by
      rw [List.replicate_succ', List.append_assoc]; rfl
    rw [e]
    simpa [parensSrc, Src.toks, List.replicate_succ] using h2

/-- C140, parentheses: they are accepted at every depth and leave nothing in the tree. -/
theorem C140_parens (n : Nat) : parse (parens n) = .ok (.number (F64.ofNat 1)) := by
  have h := parens_spell n [] [] (.inl rfl) .done
  have h2 := parse_to (e := parensSrc n) (es := []) (text := parens n) (by simpa [parens, progToks] using h)
  rw [h2]
  clear h h2
  have : (parensSrc n).toExpr = .number (F64.ofNat 1) := by
    induction n with
    | zero => rfl
    | succ n ih => exact ih
  simp [progExpr, this]

/-! ### Results -/

/-- A full binary tree of ones. -/
def tree : Nat → Value
  | 0 => .num (F64.ofNat 1)
  | n + 1 => .arr [tree n, tree n]

theorem tree_numbers (n : Nat) : (numbers (tree n)).length = 2 ^ n := by
  induction n with
  | zero => rfl
  | succ n ih => simp only [tree, numbers, numbersAll, List.length_append, List.length_nil, ih]; rw [pow_succ]; omega

/-- `MAP([1,1],…)`, `n` times. -/
def mapsSrc : Nat → Src
  | 0 => .num (F64.ofNat 1)
  | n + 1 => .call c!"MAP" [(false, .arr [.num (F64.ofNat 1), .num (F64.ofNat 1)]), (false, mapsSrc n)]

theorem maps_spell (n : Nat) : ∀ (ts : List Token) (r : Str), (r = [] ∨ ∃ r', r = ')' :: r') → SpellsTo ts r [] →
    SpellsTo ((mapsSrc n).toks ++ ts) (maps n ++ r) [] := by
  induction n with
  | zero =>
    intro ts r hr h
    rcases hr with rfl | ⟨r', rfl⟩
    · cases ts with
      | nil => exact to_one_end
      | cons t ts =>
        exfalso
        have := spellsTo_le h
        simp at this
    · exact to_one ')' r' (by decide) (by decide) rfl h
  | succ n ih =>
    intro ts r hr h
    have h1 := ih (.rparen :: ts) (')' :: r) (.inr ⟨r, rfl⟩) (to_sym (s := c!")") (by simp [symbols]) (by simp [NoGlue]) h)
    have h2 := to_sym (t := .comma) (s := c!",") (by simp [symbols]) (by simp [NoGlue]) h1
    have h3 := to_sym (t := .rbracket) (s := c!"]") (by simp [symbols]) (by simp [NoGlue]) h2
    have h4 := to_one ']' _ (by decide) (by decide) rfl h3
    have h5 := to_sym (t := .comma) (s := c!",") (by simp [symbols]) (by simp [NoGlue]) h4
    have h6 := to_one ',' _ (by decide) (by decide) rfl h5
    have h7 := to_sym (t := .lbracket) (s := c!"[") (by simp [symbols]) (by simp [NoGlue]) h6
    have h8 := to_sym (t := .lparen) (s := c!"(") (by simp [symbols]) (by simp [NoGlue]) h7
    have w : Written (.ident c!"MAP") c!"MAP" := by
      refine .name ⟨'M', c!"AP", rfl, ?_, ?_⟩ ?_ ?_ ?_ <;> simp [nameStart, nameChar, SameWord]
    have h9 := to_name w (by intro c hc; simp at hc; subst hc; unfold nameChar nameStart; decide) h8
    simpa [mapsSrc, Src.toks, argToks, itemToks, commas, maps] using h9

theorem maps_eval (X : Ext) (n : Nat) : ∀ (env : Env), Eval.eval X (mapsSrc n).toExpr none env = .ok (tree n) := by
  induction n with
  | zero => intro env; rfl
  | succ n ih =>
    intro env
    have h := C17_map X (.array [.number (F64.ofNat 1), .number (F64.ofNat 1)]) (mapsSrc n).toExpr [] c!"x" none env
      [.num (F64.ofNat 1), .num (F64.ofNat 1)] (by intro reg h; cases h) (by rfl) rfl
    have e : (mapsSrc (n + 1)).toExpr =
        .call c!"MAP" [.array [.number (F64.ofNat 1), .number (F64.ofNat 1)], (mapsSrc n).toExpr] := by
      simp [mapsSrc, Src.toExpr, argExprs, itemExprs, Str.asciiUpC]
    rw [e, h]
    simp [List.mapM_cons, onElement, evalVars, ih, bind, Except.bind, pure, Except.pure, Except.map, tree]

/-- C140 fails for results, even without variables and assignments: for every `n` an expression of `11 * n + 1`
characters gives a value with `2 ^ n` numbers. -/
theorem C140_maps (X : Ext) (n : Nat) :
    ∃ v, evaluate X (maps n) = .ok v ∧ (numbers v).length = 2 ^ n ∧ (maps n).length = 11 * n + 1 := by
  refine ⟨tree n, ?_, tree_numbers n, ?_⟩
  · have h := maps_spell n [] [] (.inl rfl) .done
    have h2 := parse_to (e := mapsSrc n) (es := []) (text := maps n) (by simpa [progToks] using h)
    unfold evaluate
    rw [h2]
    exact maps_eval X n _
  · induction n with
    | zero => rfl
    | succ n ih => simp [maps, ih]; omega

theorem pow_lt (k : Nat) : ∃ n, (11 * n + 1) ^ k < 2 ^ n := by
  refine ⟨2 ^ (2 * (2 * k + 2)), ?_⟩
  generalize hj : 2 * k + 2 = j
  have h1 : j + 1 ≤ 2 ^ j := Nat.lt_two_pow_self
  have h2 : (2 * j + 4) * k < 2 ^ (2 * j) := by
    have : (j + 1) * (j + 1) ≤ 2 ^ (2 * j) := by
      rw [two_mul, pow_add]; exact Nat.mul_le_mul h1 h1
    refine Nat.lt_of_lt_of_le ?_ this
    subst hj
    ring_nf
    omega
  calc (11 * 2 ^ (2 * j) + 1) ^ k ≤ (2 ^ (2 * j + 4)) ^ k := by
        refine Nat.pow_le_pow_left ?_ k
        rw [pow_add]
        have : 1 ≤ 2 ^ (2 * j) := Nat.one_le_two_pow
        omega
    _ = 2 ^ ((2 * j + 4) * k) := (pow_mul 2 _ _).symm
    _ < 2 ^ (2 ^ (2 * j)) := Nat.pow_lt_pow_right (by omega) h2

/-- C140 fails for results: no power of the length of an expression bounds the number of numbers in its value. -/
theorem C140_no_bound (X : Ext) (k : Nat) :
    ∃ text v, evaluate X text = .ok v ∧ text.length ^ k < (numbers v).length := by
  obtain ⟨n, h⟩ := pow_lt k
  obtain ⟨v, h1, h2, h3⟩ := C140_maps X n
  exact ⟨_, v, h1, by rw [h2, h3]; exact h⟩

/-- One statement. -/
def double : Src := .assign c!"a" (.arr [.var c!"a", .var c!"a"])

theorem a_written : Written (.ident c!"a") c!"a" := by
  refine .name ⟨'a', [], rfl, ?_, ?_⟩ ?_ ?_ ?_ <;> simp [nameStart, SameWord]

theorem to_a {c : Char} {r rest : Str} {ts : List Token} (hc : ¬ nameChar c) (hr : SpellsTo ts (c :: r) rest) :
    SpellsTo (.ident c!"a" :: ts) ('a' :: c :: r) rest :=
  to_name a_written (by intro d hd; simp at hd; subst hd; exact hc) hr

theorem double_spell {ts : List Token} {r : Str} (h : SpellsTo ts r []) :
    SpellsTo (double.toks ++ ts) (c!":a:=[:a,:a]" ++ r) [] := by
  have n1 : ¬ nameChar ']' := by unfold nameChar nameStart; decide
  have n2 : ¬ nameChar ',' := by unfold nameChar nameStart; decide
  have n3 : ¬ nameChar ':' := by unfold nameChar nameStart; decide
  have h1 := to_sym (t := .rbracket) (s := c!"]") (by simp [symbols]) (by simp [NoGlue]) h
  have h2 := to_sym (t := .colon) (s := c!":") (by simp [symbols]) (by simp [NoGlue, NextIs]) (to_a n1 h1)
  have h3 := to_sym (t := .comma) (s := c!",") (by simp [symbols]) (by simp [NoGlue]) h2
  have h4 := to_sym (t := .colon) (s := c!":") (by simp [symbols]) (by simp [NoGlue, NextIs]) (to_a n2 h3)
  have h5 := to_sym (t := .lbracket) (s := c!"[") (by simp [symbols]) (by simp [NoGlue]) h4
  have h6 := to_sym (t := .assign) (s := c!":=") (by simp [symbols]) (by simp [NoGlue]) h5
  have h7 := to_sym (t := .colon) (s := c!":") (by simp [symbols]) (by simp [NoGlue, NextIs]) (to_a n3 h6)
  simpa [double, Src.toks, itemToks, commas, wrap, Src.prec] using h7

theorem doubles_spell (n : Nat) : ∀ (e : Src) (t : Str),
    (∀ ts r, (r = [] ∨ ∃ r', r = ';' :: r') → SpellsTo ts r [] → SpellsTo (e.toks ++ ts) (t ++ r) []) →
    SpellsTo (progToks e (List.replicate n double)) (t ++ (List.replicate n c!";:a:=[:a,:a]").flatten) [] := by
  induction n with
  | zero => intro e t h; simpa [progToks] using h [] [] (.inl rfl) .done
  | succ n ih =>
    intro e t h
    have h1 := ih double c!":a:=[:a,:a]" (fun ts r _ hr => double_spell hr)
    have h2 := to_sym (t := .semi) (s := c!";") (by simp [symbols]) (by simp [NoGlue]) h1
    have h3 := h _ _ (.inr ⟨_, rfl⟩) h2
    simpa [List.replicate_succ, progToks] using h3

theorem doublings_spell (n : Nat) :
    SpellsTo (progToks (.assign c!"a" (.num (F64.ofNat 1))) (List.replicate n double)) (doublings n) [] := by
  refine doubles_spell n _ _ ?_
  intro ts r hr h
  have n3 : ¬ nameChar ':' := by unfold nameChar nameStart; decide
  have h0 : SpellsTo (.number (F64.ofNat 1) :: ts) (c!"1" ++ r) [] := by
    rcases hr with rfl | ⟨r', rfl⟩
    · cases ts with
      | nil => exact to_one_end
      | cons t ts => have := spellsTo_le h; simp at this
    · exact to_one ';' r' (by decide) (by decide) rfl h
  have h6 := to_sym (t := .assign) (s := c!":=") (by simp [symbols]) (by simp [NoGlue]) h0
  have h7 := to_sym (t := .colon) (s := c!":") (by simp [symbols]) (by simp [NoGlue, NextIs]) (to_a n3 h6)
  simpa [Src.toks, wrap, Src.prec] using h7

theorem doubles_eval (X : Ext) (n : Nat) : ∀ (k : Nat) (env : Env), env c!"a" = some (tree k) →
    ∃ env', Eval.assignmentsSeq X (List.replicate n double.toExpr) (tree k) env = .ok (tree (n + k), env') := by
  induction n with
  | zero => intro k env h; exact ⟨env, by simp [Eval.assignmentsSeq]⟩
  | succ n ih =>
    intro k env h
    obtain ⟨env', h1⟩ := ih (k + 1) (env.insert c!"a" (tree (k + 1))) (by simp [Env.insert])
    refine ⟨env', ?_⟩
    have e : Eval.assignments X double.toExpr env = .ok (tree (k + 1), env.insert c!"a" (tree (k + 1))) := by
      simp [double, Src.toExpr, itemExprs, Eval.assignments, Eval.eval, Eval.argsOf, elements, h, bind, Except.bind,
        pure, Except.pure, tree]
    rw [List.replicate_succ, Eval.assignmentsSeq]
    simp only [e, bind, Except.bind, h1]
    rw [show n + (k + 1) = n + 1 + k by omega]

/-- C140 fails for results of programs: for every `n` a program of `12 * n + 5` characters gives a value with `2 ^ n`
numbers. -/
theorem C140_doublings (X : Ext) (n : Nat) (env : Env) :
    ∃ v, evaluateWithAssignments X (doublings n) env = .ok v ∧ (numbers v).length = 2 ^ n ∧
      (doublings n).length = 12 * n + 5 := by
  refine ⟨tree n, ?_, tree_numbers n, ?_⟩
  · unfold evaluateWithAssignments
    rw [parse_to (doublings_spell n)]
    have h0 : Eval.assignments X (Src.assign c!"a" (.num (F64.ofNat 1))).toExpr env =
        .ok (tree 0, env.insert c!"a" (tree 0)) := rfl
    obtain ⟨env', h1⟩ := doubles_eval X n 0 (env.insert c!"a" (tree 0)) (by simp [Env.insert])
    cases n with
    | zero => rfl
    | succ m =>
      simp only [bind, Except.bind, evalAssign, progExpr, List.replicate_succ, List.map_cons, Eval.assignments]
      rw [Eval.assignmentsSeq]
      simp only [h0, bind, Except.bind]
      rw [List.replicate_succ] at h1
      rw [List.map_replicate, h1]
      rfl
  · simp [doublings]; omega

end Sizes
