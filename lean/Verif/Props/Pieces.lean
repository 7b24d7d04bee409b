import Verif.Props.Independence
import Verif.Props.Control
import Verif.Props.Syntax
import Verif.Base.KernelRfl
/-! C118: programs can be run piece by piece, reordered and cleared of what is not used. -/

open Lib Spec

/-! ### Texts -/

theorem Spec.noGlue_semi {t : Token} {s r u : Str} (h : NoGlue t s r) (hs : r = [] → s.getLast? ≠ some '.') : NoGlue t s (r ++ ';' :: u) := by
  have next : ∀ P : Char → Prop, P ';' → NextIs P r → NextIs P (r ++ ';' :: u) := by
    intro P hP hr c hc
    cases r with
    | nil => simp at hc; subst hc; exact hP
    | cons d r => simp at hc; subst hc; exact hr d (by simp)
  have n1 : ¬ ('0' ≤ ';' ∧ ';' ≤ '9') := by decide
  have n2 : ¬ nameChar ';' := by unfold nameChar nameStart; decide
  cases t with
  | number x =>
    obtain ⟨h1, h2, h3⟩ := h
    refine ⟨next _ n1 h1, fun hd r' hr => ?_, fun hl => ?_⟩
    · cases r with
      | nil => simp at hr
      | cons c r =>
        simp only [List.cons_append, List.cons.injEq] at hr
        obtain ⟨rfl, rfl⟩ := hr
        obtain ⟨d, r'', rfl, hd⟩ := h2 hd r rfl
        exact ⟨d, _, rfl, hd⟩
    · exact absurd hl (hs (h3 hl))
  | ident => exact next _ n2 h
  | true => exact next _ n2 h
  | false => exact next _ n2 h
  | null => exact next _ n2 h
  | dot =>
    refine ⟨next _ n1 h.1, fun r' hr => ?_⟩
    match r, h.2 with
    | [], _ => simp at hr
    | [c], _ => simp at hr
    | c :: d :: r, h2 =>
      simp only [List.cons_append, List.cons.injEq] at hr
      obtain ⟨rfl, rfl, _⟩ := hr
      exact h2 r rfl
  | bang => exact next (· ≠ '=') (by decide) h
  | gt => exact next (· ≠ '=') (by decide) h
  | lt => exact next (· ≠ '=') (by decide) h
  | eq => exact fun hs => next (· ≠ '=') (by decide) (h hs)
  | colon => exact next _ (by decide) h
  | _ => trivial

theorem Spec.spells_semi {ts us : List Token} {s t : Str} (h : Spells ts s) (hs : s.getLast? ≠ some '.') (h2 : Spells us t) :
    Spells (ts ++ .semi :: us) (s ++ ';' :: t) := by
  induction h with
  | @done ws hw => exact .tok (ws := ws) (s := c!";") (r := t) hw (.symbol (by simp [symbols])) trivial h2
  | @tok ws s r tk ts hw hwr hg _ ih =>
    have hr : r.getLast? ≠ some '.' := by
      intro hr
      apply hs
      rw [← List.append_assoc, List.getLast?_append, hr]
      rfl
    rw [List.cons_append, List.append_assoc, List.append_assoc]
    refine .tok hw hwr (noGlue_semi hg fun h0 hl => ?_) (ih hr)
    apply hs
    subst h0
    rw [List.append_nil, List.getLast?_append, hl]
    rfl

theorem Spec.progToks_append (e : Src) (es : List Src) (f : Src) (fs : List Src) :
    progToks e (es ++ f :: fs) = progToks e es ++ .semi :: progToks f fs := by
  induction es generalizing e with
  | nil => rfl
  | cons g es ih => simp [progToks, ih]

/-! ### Runs -/

theorem assignmentsSeq_append (X : Ext) (es fs : List Expr) (last : Value) (env : Env) :
    Eval.assignmentsSeq X (es ++ fs) last env = (do let (v, env1) ← Eval.assignmentsSeq X es last env; Eval.assignmentsSeq X fs v env1) := by
  induction es generalizing last env with
  | nil => rfl
  | cons e es ih =>
    simp only [List.cons_append, Eval.assignmentsSeq]
    cases Eval.assignments X e env with
    | error f => rfl
    | ok p => exact ih p.1 p.2

theorem assignmentsSeq_last (X : Ext) {es : List Expr} (h : es ≠ []) (last last' : Value) (env : Env) :
    Eval.assignmentsSeq X es last env = Eval.assignmentsSeq X es last' env := by
  cases es with
  | nil => exact absurd rfl h
  | cons e es => rfl

theorem assignments_progExpr (X : Ext) (e : Src) (es : List Src) (env : Env) :
    Eval.assignments X (progExpr e es) env = Eval.assignmentsSeq X (e.toExpr :: es.map Src.toExpr) .null env := by
  cases es with
  | nil =>
    simp only [progExpr, List.map_nil, Eval.assignmentsSeq]
    cases Eval.assignments X e.toExpr env with
    | error f => rfl
    | ok p => rfl
  | cons f es => rfl

/-- **C118: piece by piece.** The text of a program, a semicolon and the text of another: evaluated together they do what the second does with the variables the first leaves,
or what the first does if it fails. (A numeral that ends in a dot must not be next to the semicolon: there it is read differently.) -/
theorem C118_pieces (X : Ext) (e : Src) (es : List Src) (f : Src) (fs : List Src) (s t : Str) (h1 : ProgText e es s) (h2 : ProgText f fs t)
    (hs : s.getLast? ≠ some '.') (env : Env) :
    evaluateWithAssignmentsCtx X (s ++ ';' :: t) env = (do let (_, env1) ← evaluateWithAssignmentsCtx X s env; evaluateWithAssignmentsCtx X t env1) := by
  have h3 : ProgText e (es ++ f :: fs) (s ++ ';' :: t) := by
    unfold ProgText
    rw [progToks_append]
    exact spells_semi h1 hs h2
  have reg : Registry := Registry.empty
  rw [(C03_evaluate_text X _ _ _ env reg h3).2.2.2.2, (C03_evaluate_text X _ _ _ env reg h1).2.2.2.2]
  have h4 := fun env1 => (C03_evaluate_text X _ _ _ env1 reg h2).2.2.2.2
  simp only [h4]
  simp only [evalAssignCtx, assignments_progExpr]
  rw [show e.toExpr :: (es ++ f :: fs).map Src.toExpr = (e.toExpr :: es.map Src.toExpr) ++ (f.toExpr :: fs.map Src.toExpr) by simp, assignmentsSeq_append]
  congr 1

/-- The texts with semicolons between them. -/
def Spec.joinSemi : List Str → Str
  | [] => []
  | [s] => s
  | s :: t :: rest => s ++ ';' :: joinSemi (t :: rest)

/-- The texts evaluated in turn, each with the variables the one before left, until one fails: the last value and the variables then. -/
def Spec.inTurn (X : Ext) : List Str → Env → Res (Value × Env)
  | [], env => .ok (.null, env)
  | [s], env => evaluateWithAssignmentsCtx X s env
  | s :: t :: rest, env => do
    let (_, env1) ← evaluateWithAssignmentsCtx X s env
    inTurn X (t :: rest) env1

/-- **C118: sessions.** Any number of programs, evaluated in turn with the variables handed on, give what they give written as one, with semicolons between them. -/
theorem C118_session (X : Ext) (s : Str) (rest : List Str) (h : ∀ t ∈ s :: rest, (∃ e es, ProgText e es t) ∧ t.getLast? ≠ some '.') (env : Env) :
    evaluateWithAssignmentsCtx X (joinSemi (s :: rest)) env = inTurn X (s :: rest) env := by
  have H : ∀ (rest : List Str) (s : Str), (∀ t ∈ s :: rest, (∃ e es, ProgText e es t) ∧ t.getLast? ≠ some '.') →
      (∃ e es, ProgText e es (joinSemi (s :: rest))) ∧ ∀ env, evaluateWithAssignmentsCtx X (joinSemi (s :: rest)) env = inTurn X (s :: rest) env := by
    intro rest
    induction rest with
    | nil => exact fun s h => ⟨(h s (by simp)).1, fun env => rfl⟩
    | cons t rest ih =>
      intro s h
      obtain ⟨⟨f, fs, h2⟩, ih⟩ := ih t fun u hu => h u (by simp [List.mem_cons.1 hu])
      obtain ⟨⟨e, es, h1⟩, hs⟩ := h s (by simp)
      refine ⟨⟨e, es ++ f :: fs, ?_⟩, fun env => ?_⟩
      · unfold ProgText
        rw [progToks_append]
        exact spells_semi h1 hs h2
      · show evaluateWithAssignmentsCtx X (s ++ ';' :: joinSemi (t :: rest)) env = _
        rw [C118_pieces X e es f fs _ _ h1 h2 hs, inTurn]
        simp only [ih]
  exact (H rest s h).2 env

/-- **C118: piece by piece, as trees.** -/
theorem C118_append (X : Ext) (es fs : List Expr) (hf : fs ≠ []) (env : Env) :
    evalAssignCtx X (.seq (es ++ fs)) env = (do let (_, env1) ← evalAssignCtx X (.seq es) env; evalAssignCtx X (.seq fs) env1) := by
  simp only [evalAssignCtx, Eval.assignments, assignmentsSeq_append]
  congr 1
  funext p
  exact assignmentsSeq_last X hf _ _ _

theorem Env.insert_twice (x : Str) (env : Env) (v w : Value) : (env.insert x v).insert x w = env.insert x w := by
  funext k
  simp only [Env.insert]
  by_cases h1 : k = x <;> simp [h1]

theorem eval_insert (X : Ext) (e : Expr) (r : Option Registry) {x : Str} (hx : x ∉ vars e) (env : Env) (v : Value) :
    Eval.eval X e r (env.insert x v) = Eval.eval X e r env :=
  C09_coincidence X e r _ _ fun n hn => by
    have : n ≠ x := fun h => hx (h ▸ hn)
    simp [Env.insert, this]

/-- **C118: the order of independent assignments.** Two assignments in a row to different variables, neither of which reads the other's variable, can be exchanged, unless
they end the program: it succeeds with the same value and the same variables, or fails both ways. -/
theorem C118_exchange (X : Ext) (pre post : List Expr) (x y : Str) (a b : Expr) (hxy : x ≠ y) (hx : x ∉ vars b) (hy : y ∉ vars a) (hpost : post ≠ [])
    (env : Env) (v : Value) (env' : Env) :
    evalAssignCtx X (.seq (pre ++ .assign x a :: .assign y b :: post)) env = .ok (v, env') ↔
      evalAssignCtx X (.seq (pre ++ .assign y b :: .assign x a :: post)) env = .ok (v, env') := by
  simp only [evalAssignCtx, Eval.assignments, assignmentsSeq_append]
  cases Eval.assignmentsSeq X pre .null env with
  | error f => exact Iff.rfl
  | ok p =>
    obtain ⟨w, en⟩ := p
    have key : ∀ (x y : Str) (a b : Expr), x ∉ vars b → Eval.assignmentsSeq X (.assign x a :: .assign y b :: post) w en =
        (do let va ← Eval.eval X a none en; let vb ← Eval.eval X b none en; Eval.assignmentsSeq X post .null ((en.insert x va).insert y vb)) := by
      intro x y a b hx
      simp only [Eval.assignmentsSeq, Eval.assignments]
      cases Eval.eval X a none en with
      | error f => rfl
      | ok va =>
        simp only [bind, Except.bind, pure, Except.pure]
        rw [eval_insert X b none hx]
        cases Eval.eval X b none en with
        | error f => rfl
        | ok vb => exact assignmentsSeq_last X hpost _ _ _
    show Eval.assignmentsSeq X (.assign x a :: .assign y b :: post) w en = _ ↔ Eval.assignmentsSeq X (.assign y b :: .assign x a :: post) w en = _
    rw [key x y a b hx, key y x b a hy]
    cases Eval.eval X a none en with
    | error f => cases Eval.eval X b none en <;> simp [bind, Except.bind]
    | ok va =>
      cases Eval.eval X b none en with
      | error f => simp [bind, Except.bind]
      | ok vb => simp only [bind, Except.bind, Env.insert_comm en x y va vb hxy]

/-- **C118: what is not used can be left out.** If after the statements `pre` the expression `a` has a value, and what follows does not read `x`, then the program with
`:x := a` and the one without it have the same value or the same failure, and all variables other than `x` are the same afterwards. -/
theorem C118_unused (X : Ext) (pre post : List Expr) (x : Str) (a : Expr) (hx : x ∉ varsList post) (hpost : post ≠ []) (env : Env) (w : Value) (en : Env)
    (ha : evalAssignCtx X (.seq (pre ++ [.assign x a])) env = .ok (w, en)) :
    match evalAssignCtx X (.seq (pre ++ .assign x a :: post)) env, evalAssignCtx X (.seq (pre ++ post)) env with
    | .ok (v, after), .ok (v', after') => v = v' ∧ ∀ n, n ≠ x → after n = after' n
    | .error f, .error f' => f = f'
    | _, _ => False := by
  simp only [evalAssignCtx, Eval.assignments, assignmentsSeq_append] at ha ⊢
  cases hp : Eval.assignmentsSeq X pre .null env with
  | error f => rw [hp] at ha; cases ha
  | ok p =>
    obtain ⟨u, e1⟩ := p
    rw [hp] at ha
    simp only [Eval.assignmentsSeq, Eval.assignments, bind, Except.bind, pure, Except.pure] at ha ⊢
    cases hv : Eval.eval X a none e1 with
    | error f => rw [hv] at ha; cases ha
    | ok va =>
      rw [hv] at ha
      simp only [Except.ok.injEq, Prod.mk.injEq] at ha ⊢
      have hl : Eval.assignmentsSeq X post va (e1.insert x va) = Eval.assignmentsSeq X post u (e1.insert x va) := assignmentsSeq_last X hpost _ _ _
      rw [hl]
      have rel : ∀ n, n ≠ x → (onNames (n :: varsList post)).rel (e1.insert x va) e1 := by
        intro n hn k hk
        have : k ≠ x := by
          rcases List.mem_cons.1 hk with rfl | hk
          · exact hn
          · exact fun h => hx (h ▸ hk)
        simp [Env.insert, this]
      have H := fun n hn => assignmentsSeq_coincide X (n :: varsList post) post (fun k hk => by simp [hk]) u _ _ (rel n hn)
      obtain ⟨n0, hn0⟩ : ∃ n0 : Str, n0 ≠ x := ⟨'a' :: x, by simp⟩
      cases e2 : Eval.assignmentsSeq X post u (e1.insert x va) with
      | error f =>
        cases e3 : Eval.assignmentsSeq X post u e1 with
        | error f' => have := H n0 hn0; rw [e2, e3] at this; exact this
        | ok p => have := H n0 hn0; rw [e2, e3] at this; exact this
      | ok q =>
        cases e3 : Eval.assignmentsSeq X post u e1 with
        | error f' => have := H n0 hn0; rw [e2, e3] at this; exact this
        | ok q' =>
          refine ⟨?_, fun n hn => ?_⟩
          · have := H n0 hn0; rw [e2, e3] at this; exact this.1
          · have := H n hn; rw [e2, e3] at this; exact this.2 n (by simp)

/-- **C118: an assignment at once overwritten.** If `a` has a value and `b` does not read `x`, then in `:x := a; :x := b` the first can be left out. -/
theorem C118_overwritten (X : Ext) (pre post : List Expr) (x : Str) (a b : Expr) (hx : x ∉ vars b) (env : Env) (w : Value) (en : Env)
    (ha : evalAssignCtx X (.seq (pre ++ [.assign x a])) env = .ok (w, en)) :
    evalAssignCtx X (.seq (pre ++ .assign x a :: .assign x b :: post)) env = evalAssignCtx X (.seq (pre ++ .assign x b :: post)) env := by
  simp only [evalAssignCtx, Eval.assignments, assignmentsSeq_append] at ha ⊢
  cases hp : Eval.assignmentsSeq X pre .null env with
  | error f => rfl
  | ok p =>
    obtain ⟨u, e1⟩ := p
    rw [hp] at ha
    simp only [Eval.assignmentsSeq, Eval.assignments, bind, Except.bind, pure, Except.pure] at ha ⊢
    cases hv : Eval.eval X a none e1 with
    | error f => rw [hv] at ha; cases ha
    | ok va =>
      simp only [eval_insert X b none hx]
      cases Eval.eval X b none e1 with
      | error f => rfl
      | ok vb => simp only [Env.insert_twice]

/-- **C118: repetition.** Repeating an assignment that does not read its own variable changes nothing. -/
theorem C118_repeated (X : Ext) (pre post : List Expr) (x : Str) (a : Expr) (hx : x ∉ vars a) (env : Env) :
    evalAssignCtx X (.seq (pre ++ .assign x a :: .assign x a :: post)) env = evalAssignCtx X (.seq (pre ++ .assign x a :: post)) env := by
  simp only [evalAssignCtx, Eval.assignments, assignmentsSeq_append]
  cases Eval.assignmentsSeq X pre .null env with
  | error f => rfl
  | ok p =>
    simp only [Eval.assignmentsSeq, Eval.assignments, bind, Except.bind, pure, Except.pure]
    cases hv : Eval.eval X a none p.2 with
    | error f => rfl
    | ok va => simp only [eval_insert X a none hx, hv, Env.insert_twice]

/-- **C118: expressions in the middle** of a program that have a value can be left out. -/
theorem C118_idle (X : Ext) (pre post : List Expr) (a : Expr) (h1 : ∀ x e, a ≠ .assign x e) (h2 : ∀ es, a ≠ .seq es) (hpost : post ≠ []) (env : Env) (w : Value) (en : Env)
    (ha : evalAssignCtx X (.seq (pre ++ [a])) env = .ok (w, en)) :
    evalAssignCtx X (.seq (pre ++ a :: post)) env = evalAssignCtx X (.seq (pre ++ post)) env := by
  simp only [evalAssignCtx, Eval.assignments, assignmentsSeq_append] at ha ⊢
  cases hp : Eval.assignmentsSeq X pre .null env with
  | error f => rfl
  | ok p =>
    obtain ⟨u, e1⟩ := p
    rw [hp] at ha
    have hs : Eval.assignments X a e1 = (do return (← Eval.eval X a none e1, e1)) := by
      cases a <;> first | exact absurd rfl (h1 _ _) | exact absurd rfl (h2 _) | simp only [Eval.assignments]
    simp only [Eval.assignmentsSeq, hs, bind, Except.bind, pure, Except.pure] at ha ⊢
    cases hv : Eval.eval X a none e1 with
    | error f => rw [hv] at ha; cases ha
    | ok va => exact assignmentsSeq_last X hpost _ _ _

/-! ### Examples -/

/-- `:a := 2` and `:a * 3`, written as texts: an instance of `C118_pieces`. -/
example : ProgText (.assign c!"a" (.num (F64.ofNat 2))) [] c!":a:=2" ∧ c!":a:=2".getLast? ≠ some '.' := by
  refine ⟨?_, by decide⟩
  have two : Written (.number (F64.ofNat 2)) c!"2" := .number (.int _ (by simp) (by simp [Digits])) (Lx.denotes_round _)
  have name : Written (.ident c!"a") c!"a" := .name ⟨'a', [], rfl, .inl ⟨by decide, by decide⟩, by simp⟩ (by simp [SameWord]) (by simp [SameWord]) (by simp [SameWord])
  have hn : ¬ nameChar ':' := by unfold nameChar nameStart; decide
  show Spells [.colon, .ident c!"a", .assign, .number (F64.ofNat 2)] _
  refine .tok (ws := []) (s := c!":") (by simp [Blank]) (.symbol (by simp [symbols])) (by simp [NoGlue, NextIs]) ?_
  refine .tok (ws := []) (s := c!"a") (by simp [Blank]) name (by simp [NoGlue, NextIs, hn]) ?_
  refine .tok (ws := []) (s := c!":=") (by simp [Blank]) (.symbol (by simp [symbols])) (by simp [NoGlue]) ?_
  refine .tok (ws := []) (s := c!"2") (by simp [Blank]) two (by simp [NoGlue, NextIs]) ?_
  exact .done (by simp [Blank])

/-- `:a := 1; :b := 2; :a + :b` and `:b := 2; :a := 1; :a + :b`: an instance of `C118_exchange`. -/
example (X : Ext) : c!"a" ≠ c!"b" ∧ c!"a" ∉ vars (.number (.fin 2)) ∧
    (evalAssign X (.seq [.assign c!"b" (.number (.fin 2)), .assign c!"a" (.number (.fin 1)), .binary (.var c!"a") .add (.var c!"b")]) Env.empty = .ok (.num (.fin 3))) :=
  ⟨by decide, by decide, by kernel_rfl⟩

/-- **C118: which failure is reported depends on the order.** `:a := :u; :b := :v; 1` reports `u`, and with the assignments exchanged `v`. -/
theorem C118_exchange_failures (X : Ext) :
    evalAssign X (.seq [.assign c!"a" (.var c!"u"), .assign c!"b" (.var c!"v"), .number (.fin 1)]) Env.empty = fail "Missing variable: :{}" [c!"u"] ∧
    evalAssign X (.seq [.assign c!"b" (.var c!"v"), .assign c!"a" (.var c!"u"), .number (.fin 1)]) Env.empty = fail "Missing variable: :{}" [c!"v"] :=
  ⟨by kernel_rfl, by kernel_rfl⟩

/-- **C118: what fails is used.** `:a := :u; 1` fails although `a` is not read, `1` does not. -/
theorem C118_unused_failure (X : Ext) :
    evalAssign X (.seq [.assign c!"a" (.var c!"u"), .number (.fin 1)]) Env.empty = fail "Missing variable: :{}" [c!"u"] ∧
    evalAssign X (.seq [.number (.fin 1)]) Env.empty = .ok (.num (.fin 1)) :=
  ⟨by kernel_rfl, by kernel_rfl⟩

/-- **C118: a numeral ending in a dot.** `1.` is a program, but `1.;2` is not `1.` followed by `2`. -/
theorem C118_dot (X : Ext) : evaluateWithAssignments X c!"1." Env.empty = .ok (.num (.fin 1)) ∧ evaluateWithAssignments X c!"2" Env.empty = .ok (.num (.fin 2)) ∧
    (match evaluateWithAssignments X c!"1.;2" Env.empty with | .error (.err m _ _) => m | _ => "") = "Expected property or method name after '.'" :=
  ⟨by kernel_rfl, by kernel_rfl, by kernel_rfl⟩

/-- The hypotheses of `C118_unused`: in `:t := 7; :x := :t * 2; :t + 1` the variable `x` is not read. -/
example (X : Ext) : c!"x" ∉ varsList [.binary (.var c!"t") .add (.number (.fin 1))] ∧
    (∃ w en, evalAssignCtx X (.seq ([.assign c!"t" (.number (.fin 7))] ++ [.assign c!"x" (.binary (.var c!"t") .mul (.number (.fin 2)))])) Env.empty = .ok (w, en)) :=
  ⟨by decide, .num (.fin 14), (Env.empty.insert c!"t" (.num (.fin 7))).insert c!"x" (.num (.fin 14)), by kernel_rfl⟩
