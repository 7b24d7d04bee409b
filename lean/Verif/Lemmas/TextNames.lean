import Verif.Lemmas.TextSound
import Verif.Spec.Names
/-! The names in a parsed text. -/

namespace Parser
open Spec

/-- A name of the source, in upper case, or one the notation stands for. -/
def Named (ts : List Token) (f : Str) : Prop :=
  (∃ n, .ident n ∈ ts ∧ f = n.map Str.asciiUpC) ∨ f ∈ [c!"__CONST_TRUE__", c!"__CONST_FALSE__", c!"__TERNARY__"]

theorem Named.mono {ts us : List Token} {f : Str} (h : Named ts f) (hs : ∀ n, Token.ident n ∈ ts → Token.ident n ∈ us) : Named us f := by
  rcases h with ⟨n, h1, h2⟩ | h
  · exact .inl ⟨n, hs n h1, h2⟩
  · exact .inr h

theorem ident_wrap {b : Bool} {ts : List Token} {n : Str} (h : Token.ident n ∈ ts) : Token.ident n ∈ wrap b ts := by
  unfold wrap
  split
  · simp [h]
  · exact h

theorem ident_commas {ls : List (List Token)} {l : List Token} {n : Str} (hl : l ∈ ls) (h : Token.ident n ∈ l) :
    Token.ident n ∈ commas ls := by
  induction ls with
  | nil => simp at hl
  | cons a ls ih =>
    cases ls with
    | nil => simp at hl; subst hl; exact h
    | cons b ls =>
      rw [commas_cons (by simp)]
      rcases List.mem_cons.1 hl with rfl | hl
      · exact List.mem_append_left _ h
      · exact List.mem_append_right _ (List.mem_cons_of_mem _ (ih hl))

mutual
theorem named_toks : (e : Src) → ∀ f ∈ calls e.toExpr, Named e.toks f
  | .num n => by simp [Src.toExpr, calls]
  | .str s => by simp [Src.toExpr, calls]
  | .null => by simp [Src.toExpr, calls]
  | .tru => by
    intro f hf; simp [Src.toExpr, calls, callsList] at hf; exact .inr (by simp [hf])
  | .fls => by
    intro f hf; simp [Src.toExpr, calls, callsList] at hf; exact .inr (by simp [hf])
  | .var x => by simp [Src.toExpr, calls]
  | .un op e => by
    intro f hf
    rw [Src.toExpr, calls] at hf
    refine (named_toks e f hf).mono fun n hn => ?_
    rw [Src.toks]
    exact List.mem_cons_of_mem _ (ident_wrap hn)
  | .bin l op r => by
    intro f hf
    rw [Src.toExpr, calls] at hf
    rw [Src.toks]
    rcases List.mem_append.1 hf with hf | hf
    · refine (named_toks l f hf).mono fun n hn => ?_
      split <;> exact List.mem_append_left _ (ident_wrap hn)
    · refine (named_toks r f hf).mono fun n hn => ?_
      split <;> exact List.mem_append_right _ (List.mem_cons_of_mem _ (ident_wrap hn))
  | .tern c t e => by
    intro f hf
    simp only [Src.toExpr, calls, callsList, List.append_nil, List.mem_cons, List.mem_append] at hf
    rw [Src.toks]
    rcases hf with rfl | hf | hf | hf
    · exact .inr (by simp)
    · exact (named_toks c f hf).mono fun n hn => List.mem_append_left _ (ident_wrap (ident_wrap hn))
    · exact (named_toks t f hf).mono fun n hn => by simp [hn]
    · exact (named_toks e f hf).mono fun n hn => by simp [hn]
  | .assign x v => by
    intro f hf
    rw [Src.toExpr, calls] at hf
    refine (named_toks v f hf).mono fun n hn => ?_
    rw [Src.toks]
    simp [ident_wrap hn]
  | .call name args => by
    intro f hf
    rw [Src.toExpr, calls] at hf
    rw [Src.toks]
    rcases List.mem_cons.1 hf with rfl | hf
    · exact .inl ⟨name, by simp, rfl⟩
    · exact (named_args args f hf).mono fun n hn => by simp [hn]
  | .arr items => by
    intro f hf
    rw [Src.toExpr, calls] at hf
    rw [Src.toks]
    exact (named_items items f hf).mono fun n hn => by simp [hn]
  | .obj ms c => by
    intro f hf
    rw [Src.toExpr, calls] at hf
    rw [Src.toks]
    exact (named_members ms f hf).mono fun n hn => by simp [hn]
  | .paren e => by
    intro f hf
    rw [Src.toExpr] at hf
    rw [Src.toks]
    exact (named_toks e f hf).mono fun n hn => by simp [hn]
  | .prop t p => by
    intro f hf
    rw [Src.toExpr, calls] at hf
    rw [Src.toks]
    exact (named_toks t f hf).mono fun n hn => List.mem_append_left _ (ident_wrap hn)
  | .safeProp t p => by
    intro f hf
    rw [Src.toExpr, calls] at hf
    rw [Src.toks]
    exact (named_toks t f hf).mono fun n hn => List.mem_append_left _ (ident_wrap hn)
  | .meth t name args => by
    intro f hf
    rw [Src.toExpr, calls] at hf
    rw [Src.toks]
    rcases List.mem_append.1 hf with hf | hf
    · exact (named_toks t f hf).mono fun n hn => List.mem_append_left _ (ident_wrap hn)
    · exact (named_args args f hf).mono fun n hn => List.mem_append_right _ (by simp [hn])
  | .pred t name => by
    intro f hf
    simp only [Src.toExpr, calls, callsList, List.append_nil] at hf
    rw [Src.toks]
    exact (named_toks t f hf).mono fun n hn => List.mem_append_left _ (ident_wrap hn)
  | .safeMeth t name args => by
    intro f hf
    rw [Src.toExpr, calls] at hf
    rw [Src.toks]
    rcases List.mem_append.1 hf with hf | hf
    · exact (named_toks t f hf).mono fun n hn => List.mem_append_left _ (ident_wrap hn)
    · exact (named_args args f hf).mono fun n hn => List.mem_append_right _ (by simp [hn])
  | .index t i => by
    intro f hf
    rw [Src.toExpr, calls] at hf
    rw [Src.toks]
    rcases List.mem_append.1 hf with hf | hf
    · exact (named_toks t f hf).mono fun n hn => List.mem_append_left _ (ident_wrap hn)
    · exact (named_toks i f hf).mono fun n hn => List.mem_append_right _ (by simp [ident_wrap hn])
  | .slice t a b => by
    intro f hf
    rw [Src.toExpr, calls] at hf
    rw [Src.toks]
    rcases List.mem_append.1 hf with hf | hf
    · rcases List.mem_append.1 hf with hf | hf
      · exact (named_toks t f hf).mono fun n hn => List.mem_append_left _ (ident_wrap hn)
      · cases a with
        | none => simp [optExpr, callsOpt] at hf
        | some e =>
          rw [optExpr, callsOpt] at hf
          exact (named_toks e f hf).mono fun n hn => List.mem_append_right _ (by simp [startToks, ident_wrap hn])
    · cases b with
      | none => simp [optExpr, callsOpt] at hf
      | some e =>
        rw [optExpr, callsOpt] at hf
        exact (named_toks e f hf).mono fun n hn => List.mem_append_right _ (by simp [endToks, hn])
  | .cast e ty name h => by
    intro f hf
    rw [Src.toExpr, calls] at hf
    rw [Src.toks]
    exact (named_toks e f hf).mono fun n hn => List.mem_append_left _ (ident_wrap hn)
theorem named_args : (as : List (Bool × Src)) → ∀ f ∈ callsList (argExprs as), Named (commas (argToks as)) f
  | [] => by simp [argExprs, callsList]
  | (b, e) :: rest => by
    intro f hf
    rw [argExprs, callsList] at hf
    rcases List.mem_append.1 hf with hf | hf
    · have hf : f ∈ calls e.toExpr := by split at hf <;> simpa [calls] using hf
      exact (named_toks e f hf).mono fun n hn => ident_commas (l := if b then .ellipsis :: e.toks else e.toks)
        (by simp [argToks]) (by split <;> simp [hn])
    · exact (named_args rest f hf).mono fun n hn => by
        obtain ⟨l, h1, h2⟩ := mem_commas hn (by simp)
        exact ident_commas (by rw [argToks]; exact List.mem_cons_of_mem _ h1) h2
theorem named_items : (as : List Src) → ∀ f ∈ callsList (itemExprs as), Named (commas (itemToks as)) f
  | [] => by simp [itemExprs, callsList]
  | e :: rest => by
    intro f hf
    rw [itemExprs, callsList] at hf
    rcases List.mem_append.1 hf with hf | hf
    · exact (named_toks e f hf).mono fun n hn => ident_commas (l := e.toks) (by simp [itemToks]) hn
    · exact (named_items rest f hf).mono fun n hn => by
        obtain ⟨l, h1, h2⟩ := mem_commas hn (by simp)
        exact ident_commas (by rw [itemToks]; exact List.mem_cons_of_mem _ h1) h2
theorem named_members : (as : List (Key × Src)) → ∀ f ∈ callsMembers (memberExprs as), Named (commas (memberToks as)) f
  | [] => by simp [memberExprs, callsMembers]
  | (k, e) :: rest => by
    intro f hf
    rw [memberExprs, callsMembers] at hf
    rcases List.mem_append.1 hf with hf | hf
    · exact (named_toks e f hf).mono fun n hn => ident_commas (l := k.tok :: .colon :: e.toks) (by simp [memberToks]) (by simp [hn])
    · exact (named_members rest f hf).mono fun n hn => by
        obtain ⟨l, h1, h2⟩ := mem_commas hn (by simp)
        exact ident_commas (by rw [memberToks]; exact List.mem_cons_of_mem _ h1) h2
end

theorem named_prog (e : Src) (es : List Src) : ∀ f ∈ calls (progExpr e es), Named (progToks e es) f := by
  have key : ∀ (es : List Src) (e : Src), ∀ f ∈ callsList (e.toExpr :: es.map Src.toExpr), Named (progToks e es) f := by
    intro es
    induction es with
    | nil => intro e f hf; simp [callsList] at hf; rw [progToks]; exact named_toks e f hf
    | cons g es ih =>
      intro e f hf
      rw [callsList] at hf
      rw [progToks]
      rcases List.mem_append.1 hf with hf | hf
      · exact (named_toks e f hf).mono fun n hn => List.mem_append_left _ hn
      · exact (ih g f hf).mono fun n hn => by simp [hn]
  cases es with
  | nil => rw [progExpr, progToks]; exact named_toks e
  | cons g es => exact key (g :: es) e

theorem spelled_ident {ts : List Token} {a b : Str} (h : SpellsTo ts a b) {n : Str} (hn : Token.ident n ∈ ts) : IsName n := by
  induction h with
  | done => simp at hn
  | tok _ hw _ _ ih =>
    rcases List.mem_cons.1 hn with h | h
    · subst h
      cases hw with
      | name h => exact h
      | symbol hm => simp [symbols] at hm
    · exact ih h

end Parser
