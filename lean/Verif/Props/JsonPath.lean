import Verif.Spec.JsonPath
import Verif.Props.Jq
import Verif.Props.JsonVars
import Verif.Lemmas.DebugText
import Verif.Model.TcpServer
import Verif.Props.JsonText
/-! C136: queries over the JSON input, with the paths of the documentation. -/

open Lib Spec

namespace JsonPath

namespace Spec

/-- The double that a JSON number is read as. -/
def double : JNum → F64
  | .int i => F64.ofInt i
  | .float x => x

/-- Numbers as nodes of a document. -/
def nodes (xs : List JNum) : List Json := xs.map .num

/-- `:arguments` is the document: the input is an object without a member whose name is read as `arguments`. -/
def Given (X : Ext) (input : Str) (ms : List (Str × Json)) : Prop :=
  X.jsonParse input = .ok (.obj ms) ∧ ∀ m ∈ ms, ¬ CleanName X m.1 c!"arguments"

end Spec

open JsonPath.Spec

theorem select_append (a b : List Step) : ∀ ns, select (a ++ b) ns = select b (select a ns) := by
  induction a with
  | nil => intro ns; rfl
  | cons s a ih => intro ns; rw [List.cons_append, select, select, ih]

theorem select_flatMap (steps : List Step) : ∀ ns : List Json, select steps ns = ns.flatMap fun j => select steps [j] := by
  induction steps with
  | nil => intro ns; simp [select]
  | cons s steps ih =>
    intro ns
    rw [select, ih, List.flatMap_assoc]
    congr 1
    funext j
    rw [select, ← ih]
    simp

theorem arguments_of {X : Ext} {input : Str} {ms : List (Str × Json)} (h : Given X input ms) : ∃ env : Env,
    (∀ t, evaluateWithJson X t input = evaluateWith X t env) ∧ env c!"arguments" = some (.json input) ∧
    ∀ n m, m ∈ ms → CleanName X m.1 n → (∀ m' ∈ ms, CleanName X m'.1 n → m' = m) → env n = some (Json.toValue X m.2) := by
  refine ⟨bindMembers X ms (Env.empty.insert c!"arguments" (.json input)), ?_, ?_, ?_⟩
  · intro t
    unfold evaluateWithJson jsonVars parseJson
    rw [h.1]; rfl
  · rw [bindMembers_get, List.find?_eq_none.2]
    · rfl
    · intro m hm hs
      exact h.2 m (List.mem_reverse.1 hm) ((cleanName_iff X _ _).2 (by simpa using hs))
  · intro n m hm hn hu
    rw [bindMembers_get]
    cases hf : ms.reverse.find? fun m => decide (sanitize X m.1 = n) with
    | none =>
      have := List.find?_eq_none.1 hf m (List.mem_reverse.2 hm)
      simp [(cleanName_iff X m.1 n).1 hn] at this
    | some m' =>
      have h1 := List.mem_reverse.1 (List.mem_of_find?_eq_some hf)
      have h2 := List.find?_some hf
      rw [hu m' h1 ((cleanName_iff X _ n).2 (by simpa using h2))]

/-- **C136.** `JQ` with a path of names, `[*]`, positions and tests gives the values of the nodes that the path leads to: the value if there is one node,
otherwise the array of the values in their order. -/
theorem C136_jq (X : Ext) (hf : Follows X) (r : Option Registry) (env : Env) (d : Expr) (v : Value) (j : Json) (steps : List Step) (vs : List Value)
    (hr : NotCustom X r c!"JQ") (hp : ∀ s ∈ steps, s.Proper) (hd : Eval.eval X d r env = .ok v) (hv : JqDoc X v j) (hs : ReadsAll X (select steps [j]) vs) :
    Eval.eval X (.call c!"JQ" [d, .strLit ('$' :: text steps)]) r env = .ok (packed vs) :=
  C108_selects X r env d _ v (text steps) j _ vs hr hd (by rw [Eval.eval]) hv (hf j steps hp) hs

theorem reads_double (X : Ext) : ∀ xs : List JNum, ReadsAll X (nodes xs) (xs.map fun n => .num (double n))
  | [] => .nil
  | .int i :: xs => .cons (.int i) (reads_double X xs)
  | .float x :: xs => .cons (.float x) (reads_double X xs)

theorem leaves_numbers : ∀ xs : List F64, LeavesOf (xs.map Value.num) (xs.map Value.num)
  | [] => .nil
  | x :: xs => .leaf (by intro i h; cases h) (leaves_numbers xs)

theorem amounts_numbers (xs : List F64) : amounts (xs.map Value.num) = xs := by
  induction xs with
  | nil => rfl
  | cons x xs ih => simp [amounts, ih]

/-- **C136.** Where a path leads to numbers only, SUM, AVG, MIN and MAX of the query are the sum, the average, the least and the greatest of these numbers, for
none, one or many of them. -/
theorem C136_aggregates (X : Ext) (hf : Follows X) (r : Option Registry) (env : Env) (d : Expr) (v : Value) (j : Json) (steps : List Step) (xs : List JNum)
    (hr : ∀ n ∈ [c!"JQ", c!"SUM", c!"AVG", c!"MIN", c!"MAX"], NotCustom X r n) (hp : ∀ s ∈ steps, s.Proper) (hd : Eval.eval X d r env = .ok v)
    (hv : JqDoc X v j) (hs : select steps [j] = nodes xs) :
    let of name := Eval.eval X (.call name [.call c!"JQ" [d, .strLit ('$' :: text steps)]]) r env
    of c!"SUM" = .ok (.num (total (xs.map double))) ∧
    of c!"AVG" = .ok (.num (if xs = [] then .zero false else F64.div (total (xs.map double)) (F64.ofNat xs.length))) ∧
    of c!"MIN" = .ok (.num (combine F64.fmin (xs.map double))) ∧ of c!"MAX" = .ok (.num (combine F64.fmax (xs.map double))) := by
  have h := C108_aggregates X r env d (.strLit ('$' :: text steps)) v (text steps) j (select steps [j]) (xs.map fun n => .num (double n)) (hr _ (by simp)) hd (by rw [Eval.eval]) hv (hf j steps hp)
    (by rw [hs]; exact reads_double X xs)
  have e : (xs.map fun n => Value.num (double n)) = (xs.map double).map Value.num := by rw [List.map_map]; rfl
  rw [e] at h
  obtain ⟨h1, h2, _, h3, h4⟩ := C38_aggregates X _ _ (leaves_numbers (xs.map double))
  rw [amounts_numbers] at h1 h2 h3 h4
  refine ⟨?_, ?_, ?_, ?_⟩
  · exact (h _ (by simp) (hr _ (by simp))).trans h1
  · exact (h _ (by simp) (hr _ (by simp))).trans (h2.trans (by simp))
  · exact (h _ (by simp) (hr _ (by simp))).trans h3
  · exact (h _ (by simp) (hr _ (by simp))).trans h4

theorem not_custom (X : Ext) (n : Str) : NotCustom X none n := by intro reg h; cases h

theorem sum_arguments {X : Ext} (hf : Follows X) {input : Str} {ms : List (Str × Json)} (hg : Given X input ms) {steps : List Step} {xs : List JNum} {t : Str}
    (hp : ∀ s ∈ steps, s.Proper) (hs : select steps [.obj ms] = nodes xs) (ht : parse t = .ok (.call c!"SUM" [.call c!"JQ" [.var c!"arguments", .strLit ('$' :: text steps)]])) :
    evaluateWithJson X t input = .ok (.num (total (xs.map double))) := by
  obtain ⟨env, h1, h2, _⟩ := arguments_of hg
  have := (C136_aggregates X hf none env (.var c!"arguments") (.json input) (.obj ms) steps xs (fun n _ => not_custom X n) hp (by rw [Eval.eval]; simp only [h2]) (.doc hg.1) hs).1
  rw [h1, evaluateWith, ht]
  exact this

theorem flatMap_toList {α β : Type} (f : α → Option β) (l : List α) : (l.flatMap fun a => (f a).toList) = l.filterMap f := by
  induction l with
  | nil => rfl
  | cons a l ih => rw [List.flatMap_cons, List.filterMap_cons, ih]; cases f a <;> rfl

/-- **C136.** The first query of the documentation, on every input: the sum of the amounts of all accounts that have one. -/
theorem C136_accounts (X : Ext) (hf : Follows X) (input : Str) (ms : List (Str × Json)) (hg : Given X input ms) (rows : List Json) (xs : List JNum)
    (h1 : ms.lookup c!"accounts" = some (.arr rows)) (h2 : rows.filterMap (named c!"amount") = nodes xs) :
    evaluateWithJson X c!"SUM(JQ(:arguments, \"$.accounts[*].amount\"))" input = .ok (.num (total (xs.map double))) := by
  refine sum_arguments hf hg (steps := [.member c!"accounts", .every, .member c!"amount"]) ?_ ?_ (by kernel_rfl)
  · simp [Step.Proper, Name]
  · simp only [select, List.flatMap_cons, List.flatMap_nil, Step.from, named, h1, Option.toList, List.append_nil, children]
    exact (flatMap_toList (named c!"amount") rows).trans h2

/-- **C136.** The query through two levels: the sum of the salaries of all employees of all departments, in their order. -/
theorem C136_departments (X : Ext) (hf : Follows X) (input : Str) (ms : List (Str × Json)) (hg : Given X input ms) (rows : List Json) (xs : List JNum)
    (h1 : ms.lookup c!"departments" = some (.arr rows))
    (h2 : ((rows.filterMap (named c!"employees")).flatMap children).filterMap (named c!"salary") = nodes xs) :
    evaluateWithJson X c!"SUM(JQ(:arguments, \"$.departments[*].employees[*].salary\"))" input = .ok (.num (total (xs.map double))) := by
  refine sum_arguments hf hg (steps := [.member c!"departments", .every, .member c!"employees", .every, .member c!"salary"]) ?_ ?_ (by kernel_rfl)
  · simp [Step.Proper, Name]
  · simp only [select, List.flatMap_cons, List.flatMap_nil, Step.from, named, h1, Option.toList, List.append_nil, children]
    rw [← h2, ← flatMap_toList (named c!"employees")]
    exact flatMap_toList (named c!"salary") _

/-- **C136.** The query with a test: the sum of the prices of the products whose category is the text given. -/
theorem C136_products (X : Ext) (hf : Follows X) (input : Str) (ms : List (Str × Json)) (hg : Given X input ms) (rows : List Json) (xs : List JNum)
    (h1 : ms.lookup c!"products" = some (.arr rows))
    (h2 : (rows.filter (hasText c!"category" c!"electronics")).filterMap (named c!"price") = nodes xs) :
    evaluateWithJson X c!"SUM(JQ(:arguments, \"$.products[?(@.category == 'electronics')].price\"))" input = .ok (.num (total (xs.map double))) := by
  refine sum_arguments hf hg (steps := [.member c!"products", .whose c!"category" c!"electronics", .member c!"price"]) ?_ ?_ (by kernel_rfl)
  · simp [Step.Proper, Name]
  · simp only [select, List.flatMap_cons, List.flatMap_nil, Step.from, named, h1, Option.toList, List.append_nil, children]
    rw [← h2]
    exact flatMap_toList (named c!"price") _

/-- **C136.** The query of the reference for the products over 100: the values of exactly these products, in their order. -/
theorem C136_over (X : Ext) (hf : Follows X) (input : Str) (ms : List (Str × Json)) (hg : Given X input ms) (rows : List Json) (vs : List Value)
    (h1 : ms.lookup c!"products" = some (.arr rows)) (h2 : ReadsAll X (rows.filter (hasAbove c!"price" 100)) vs) :
    evaluateWithJson X c!"JQ(:arguments, \"$.products[?(@.price > 100)]\")" input = .ok (packed vs) := by
  obtain ⟨env, e1, e2, _⟩ := arguments_of hg
  have hp : parse c!"JQ(:arguments, \"$.products[?(@.price > 100)]\")" =
    .ok (.call c!"JQ" [.var c!"arguments", .strLit ('$' :: text [.member c!"products", .above c!"price" 100])]) := by kernel_rfl
  rw [e1, evaluateWith, hp]
  refine C136_jq X hf none env (.var c!"arguments") (.json input) (.obj ms) [.member c!"products", .above c!"price" 100] vs (not_custom X _)
    (by simp [Step.Proper, Name]) (by rw [Eval.eval]; simp only [e2]) (.doc hg.1) ?_
  simpa only [select, List.flatMap_cons, List.flatMap_nil, Step.from, named, h1, Option.toList, List.append_nil, children] using h2

/-- **C136.** A query in a larger expression: the total of the sales and the bonus. -/
theorem C136_bonus (X : Ext) (hf : Follows X) (input : Str) (ms : List (Str × Json)) (hg : Given X input ms) (rows : List Json) (xs : List JNum) (n : JNum)
    (h1 : ms.lookup c!"sales" = some (.arr rows)) (h2 : rows.filterMap (named c!"amount") = nodes xs)
    (h3 : (c!"bonus", .num n) ∈ ms) (h4 : ∀ m ∈ ms, CleanName X m.1 c!"bonus" → m = (c!"bonus", .num n)) :
    evaluateWithJson X c!"SUM(JQ(:arguments, \"$.sales[*].amount\")) + :bonus" input = .ok (.num (F64.add (total (xs.map double)) (double n))) := by
  have hp : parse c!"SUM(JQ(:arguments, \"$.sales[*].amount\")) + :bonus" = .ok (.binary (.call c!"SUM" [.call c!"JQ" [.var c!"arguments",
      .strLit ('$' :: text [.member c!"sales", .every, .member c!"amount"])]]) .add (.var c!"bonus")) := by kernel_rfl
  obtain ⟨env, e1, e2, e3⟩ := arguments_of hg
  have hb : env c!"bonus" = some (.num (double n)) := by
    rw [e3 c!"bonus" (c!"bonus", .num n) h3 ((cleanName_iff X _ _).2 rfl) h4]
    exact congrArg some ((reads_toValue X _).unique (match n with | .int i => .int i | .float x => .float x))
  have hs := (C136_aggregates X hf none env (.var c!"arguments") (.json input) (.obj ms) [.member c!"sales", .every, .member c!"amount"] xs (fun n _ => not_custom X n)
    (by simp [Step.Proper, Name]) (by rw [Eval.eval]; simp only [e2]) (.doc hg.1) (by
      simp only [select, List.flatMap_cons, List.flatMap_nil, Step.from, named, h1, Option.toList, List.append_nil, children]
      exact (flatMap_toList (named c!"amount") rows).trans h2)).1
  rw [e1, evaluateWith, hp]
  show Eval.eval X (.binary _ _ _) none env = _
  rw [Eval.eval]
  show (Eval.eval X _ none env).bind (fun x => (Eval.eval X (.var c!"bonus") none env).bind fun y => Ops.binary X .add x y) = _
  beta_reduce at hs
  rw [hs, Eval.eval]
  simp only [hb]
  rfl

/-! ### Paths are read in one way only -/

theorem name_split : ∀ {a b r s : Str}, (∀ c ∈ a, c.isAlphanum = true ∨ c = '_') → (∀ c ∈ b, c.isAlphanum = true ∨ c = '_') →
    (∀ c, r.head? = some c → ¬ (c.isAlphanum = true ∨ c = '_')) → (∀ c, s.head? = some c → ¬ (c.isAlphanum = true ∨ c = '_')) → a ++ r = b ++ s → a = b ∧ r = s
  | [], [], _, _, _, _, _, _, h => ⟨rfl, h⟩
  | [], c :: b, r, s, _, hb, hr, _, h => by
    have h' : r = c :: (b ++ s) := h
    exact absurd (hb c (by simp)) (hr c (by rw [h']; rfl))
  | c :: a, [], r, s, ha, _, _, hs, h => by
    have h' : c :: (a ++ r) = s := h
    exact absurd (ha c (by simp)) (hs c (by rw [← h']; rfl))
  | c :: a, d :: b, r, s, ha, hb, hr, hs, h => by
    injection h with h1 h2
    obtain ⟨e1, e2⟩ := name_split (fun x hx => ha x (by simp [hx])) (fun x hx => hb x (by simp [hx])) hr hs h2
    exact ⟨by rw [h1, e1], e2⟩

theorem text_head (steps : List Step) : ∀ c, (text steps).head? = some c → ¬ (c.isAlphanum = true ∨ c = '_') := by
  intro c h
  cases steps with
  | nil => cases h
  | cons s steps =>
    cases s <;> (simp [text, Step.text] at h; subst h; decide)

theorem name_space {k : Str} (h : ∀ c ∈ k, c.isAlphanum = true ∨ c = '_') : ' ' ∉ k := fun hm => absurd (h _ hm) (by decide)

theorem showInt_bracket (i : Int) : ']' ∉ Str.showInt i := fun hm => absurd (showInt_chars i _ hm) (by decide)

theorem showInt_not (i : Int) (c : Char) (r s : Str) (hc : ¬ (c = '-' ∨ c.isDigit = true)) (hb : c ≠ ']') : Str.showInt i ++ ']' :: r ≠ c :: s := by
  intro h
  cases hs : Str.showInt i with
  | nil => rw [hs] at h; injection h with h1 _; exact hb h1.symm
  | cons d ds =>
    rw [hs] at h; injection h with h1 _
    exact hc (h1 ▸ showInt_chars i d (by rw [hs]; simp))

theorem text_inj : ∀ (a b : List Step), (∀ s ∈ a, s.Proper) → (∀ s ∈ b, s.Proper) → text a = text b → a = b := by
  intro a
  induction a with
  | nil =>
    intro b _ _ h
    cases b with
    | nil => rfl
    | cons t b => cases t <;> simp [text, Step.text] at h
  | cons s a ih =>
    intro b ha hb h
    have hs := ha s (by simp)
    have ha' : ∀ s ∈ a, s.Proper := fun x hx => ha x (by simp [hx])
    cases b with
    | nil => cases s <;> simp [text, Step.text] at h
    | cons t b =>
      have ht := hb t (by simp)
      have hb' : ∀ s ∈ b, s.Proper := fun x hx => hb x (by simp [hx])
      have fin : ∀ {s t : Step}, s = t → text a = text b → s :: a = t :: b := fun e1 e2 => by rw [e1, ih b ha' hb' e2]
      cases s with
      | member k =>
        cases t with
        | member l =>
          simp only [text, Step.text, List.cons_append, List.cons.injEq, true_and] at h
          obtain ⟨e1, e2⟩ := name_split hs.2 ht.2 (text_head a) (text_head b) h
          exact fin (by rw [e1]) e2
        | every => simp [text, Step.text] at h
        | pos i => simp [text, Step.text] at h
        | whose l u => simp [text, Step.text] at h
        | above l n => simp [text, Step.text] at h
      | every =>
        cases t with
        | member l => simp [text, Step.text] at h
        | every => exact fin rfl (by simpa [text, Step.text] using h)
        | pos i =>
          simp only [text, Step.text, List.cons_append, List.nil_append, List.append_assoc, List.cons.injEq, true_and] at h
          exact absurd h.symm (showInt_not i _ _ _ (by decide) (by decide))
        | whose l u => simp [text, Step.text] at h
        | above l n => simp [text, Step.text] at h
      | pos i =>
        cases t with
        | member l => simp [text, Step.text] at h
        | every =>
          simp only [text, Step.text, List.cons_append, List.nil_append, List.append_assoc, List.cons.injEq, true_and] at h
          exact absurd h (showInt_not i _ _ _ (by decide) (by decide))
        | pos j =>
          simp only [text, Step.text, List.cons_append, List.nil_append, List.append_assoc, List.cons.injEq, true_and] at h
          obtain ⟨e1, e2⟩ := split_at (showInt_bracket i) (showInt_bracket j) h
          exact fin (by rw [showInt_inj e1]) e2
        | whose l u =>
          simp only [text, Step.text, List.cons_append, List.nil_append, List.append_assoc, List.cons.injEq, true_and] at h
          exact absurd h (showInt_not i _ _ _ (by decide) (by decide))
        | above l n =>
          simp only [text, Step.text, List.cons_append, List.nil_append, List.append_assoc, List.cons.injEq, true_and] at h
          exact absurd h (showInt_not i _ _ _ (by decide) (by decide))
      | whose k t' =>
        cases t with
        | member l => simp [text, Step.text] at h
        | every => simp [text, Step.text] at h
        | pos i =>
          simp only [text, Step.text, List.cons_append, List.nil_append, List.append_assoc, List.cons.injEq, true_and] at h
          exact absurd h.symm (showInt_not i _ _ _ (by decide) (by decide))
        | whose l u =>
          simp only [text, Step.text, List.cons_append, List.nil_append, List.append_assoc, List.cons.injEq, true_and] at h
          obtain ⟨e1, e2⟩ := split_at (name_space hs.1.2) (name_space ht.1.2) h
          simp only [List.cons.injEq, true_and] at e2
          obtain ⟨e3, e4⟩ := split_at (fun hm => (hs.2 _ hm).1 rfl) (fun hm => (ht.2 _ hm).1 rfl) e2
          simp only [List.cons.injEq, true_and] at e4
          exact fin (by rw [e1, e3]) e4
        | above l n =>
          simp only [text, Step.text, List.cons_append, List.nil_append, List.append_assoc, List.cons.injEq, true_and] at h
          obtain ⟨_, e2⟩ := split_at (name_space hs.1.2) (name_space ht.2) h
          simp at e2
      | above k m =>
        cases t with
        | member l => simp [text, Step.text] at h
        | every => simp [text, Step.text] at h
        | pos i =>
          simp only [text, Step.text, List.cons_append, List.nil_append, List.append_assoc, List.cons.injEq, true_and] at h
          exact absurd h.symm (showInt_not i _ _ _ (by decide) (by decide))
        | whose l u =>
          simp only [text, Step.text, List.cons_append, List.nil_append, List.append_assoc, List.cons.injEq, true_and] at h
          obtain ⟨_, e2⟩ := split_at (name_space hs.2) (name_space ht.1.2) h
          simp at e2
        | above l n =>
          simp only [text, Step.text, List.cons_append, List.nil_append, List.append_assoc, List.cons.injEq, true_and] at h
          obtain ⟨e1, e2⟩ := split_at (name_space hs.2) (name_space ht.2) h
          simp only [List.cons.injEq, true_and] at e2
          obtain ⟨e3, e4⟩ := split_at (showInt_paren m) (showInt_paren n) e2
          simp only [List.cons.injEq, true_and] at e4
          exact fin (by rw [e1, showInt_inj e3]) e4

/-- **C136.** The assumption about the path library can be met, whatever the other libraries do: two different lists of steps are never written in the same way. -/
theorem C136_follows (X : Ext) : ∃ path, Follows { X with jsonPath := path } := by
  classical
  refine ⟨fun j p => if h : ∃ steps : List Step, (∀ s ∈ steps, s.Proper) ∧ p = '$' :: text steps then .ok (select h.choose [j]) else .ok [], ?_⟩
  intro j steps hp
  have h : ∃ st : List Step, (∀ s ∈ st, s.Proper) ∧ '$' :: text steps = '$' :: text st := ⟨steps, hp, rfl⟩
  show (if h : ∃ st : List Step, (∀ s ∈ st, s.Proper) ∧ '$' :: text steps = '$' :: text st then Except.ok (select h.choose [j]) else .ok []) = _
  rw [dif_pos h]
  have hc := h.choose_spec
  rw [text_inj _ _ hc.1 hp (List.cons.inj hc.2).2.symm]

/-! ### One query after another -/

/-- **C136.** A query of the result of a query is one query, if the first leads to one node whose value is read back as that node. -/
theorem C136_stepwise (X : Ext) (hf : Follows X) (r : Option Registry) (env : Env) (d : Expr) (v w : Value) (j k : Json) (a b : List Step)
    (hr : NotCustom X r c!"JQ") (ha : ∀ s ∈ a, s.Proper) (hb : ∀ s ∈ b, s.Proper) (hd : Eval.eval X d r env = .ok v) (hv : JqDoc X v j)
    (hs : select a [j] = [k]) (hk : Reads X k w) (hw : JqDoc X w k) :
    Eval.eval X (.call c!"JQ" [.call c!"JQ" [d, .strLit ('$' :: text a)], .strLit ('$' :: text b)]) r env =
      Eval.eval X (.call c!"JQ" [d, .strLit ('$' :: text (a ++ b))]) r env := by
  have h1 := C136_jq X hf r env d v j a [w] hr ha hd hv (by rw [hs]; exact .cons hk .nil)
  rw [C136_jq X hf r env _ w k b _ hr hb h1 hw (readsAll_map X _),
    C136_jq X hf r env d v j (a ++ b) _ hr (fun s h => (List.mem_append.1 h).elim (ha s) (hb s)) hd hv (readsAll_map X _), select_append, hs]

theorem readsAll_length {X : Ext} : ∀ {js : List Json} {vs : List Value}, ReadsAll X js vs → js.length = vs.length
  | _, _, .nil => rfl
  | _, _, .cons _ h => by rw [List.length_cons, List.length_cons, readsAll_length h]

/-- **C136.** If the first query leads to several nodes, or to none, the second must begin with `[*]`. -/
theorem C136_stepwise_many (X : Ext) (hf : Follows X) (r : Option Registry) (env : Env) (d : Expr) (v : Value) (vs : List Value) (j : Json) (a b : List Step)
    (hr : NotCustom X r c!"JQ") (ha : ∀ s ∈ a, s.Proper) (hb : ∀ s ∈ b, s.Proper) (hd : Eval.eval X d r env = .ok v) (hv : JqDoc X v j)
    (hn : (select a [j]).length ≠ 1) (hk : ReadsAll X (select a [j]) vs) (hw : JqDocs X vs (select a [j])) :
    Eval.eval X (.call c!"JQ" [.call c!"JQ" [d, .strLit ('$' :: text a)], .strLit ('$' :: text (.every :: b))]) r env =
      Eval.eval X (.call c!"JQ" [d, .strLit ('$' :: text (a ++ b))]) r env := by
  have hl : vs.length ≠ 1 := by rw [← readsAll_length hk]; exact hn
  have hp : packed vs = .arr vs := by
    unfold packed
    split
    · simp at hl
    · rfl
  have h1 := C136_jq X hf r env d v j a vs hr ha hd hv hk
  rw [hp] at h1
  rw [C136_jq X hf r env _ _ _ (.every :: b) _ hr (by simpa [Step.Proper] using hb) h1 (.arr hw) (readsAll_map X _),
    C136_jq X hf r env d v j (a ++ b) _ hr (fun s h => (List.mem_append.1 h).elim (ha s) (hb s)) hd hv (readsAll_map X _), select_append]
  simp only [select, List.flatMap_cons, List.flatMap_nil, List.append_nil, Step.from, children]

/-- **C136.** The same query after `[*]` finds nothing where the array happens to have one element: the amount of the only account is not found. -/
theorem C136_single_wrong (X : Ext) (hf : Follows X) (r : Option Registry) (env : Env) (d : Expr) (v : Value) (ms : List (Str × JNum)) (k : Str)
    (hr : NotCustom X r c!"JQ") (hk : Name k) (hd : Eval.eval X d r env = .ok v) (hv : JqDoc X v (.arr [.obj (ms.map fun m => (m.1, .num m.2))]))
    (hw : X.jsonParse (X.jsonPrint (.obj (ms.map fun m => (m.1, .num m.2)))) = .ok (.obj (ms.map fun m => (m.1, .num m.2)))) :
    Eval.eval X (.call c!"JQ" [.call c!"JQ" [d, .strLit c!"$[*]"], .strLit ('$' :: text [.every, .member k])]) r env = .ok (.arr []) := by
  have h1 := C136_jq X hf r env d v _ [.every] _ hr (by simp [Step.Proper]) hd hv (readsAll_map X _)
  refine C136_jq X hf r env _ _ (.obj (ms.map fun m => (m.1, .num m.2))) [.every, .member k] [] hr (by simpa [Step.Proper] using hk) (h1.trans ?_) (.doc hw) ?_
  · rfl
  · have : select [.every, .member k] [.obj (ms.map fun m => (m.1, Json.num m.2))] = [] := by
      simp only [select, List.flatMap_cons, List.flatMap_nil, List.append_nil, Step.from, children]
      rw [List.flatMap_eq_nil_iff]
      intro x hx
      simp only [List.map_map, List.mem_map, Function.comp] at hx
      obtain ⟨m, _, rfl⟩ := hx
      rfl
    rw [this]
    exact .nil

/-! ### DIG -/

namespace Spec

/-- The steps of a path and the segments of a call of `DIG` say the same: names, and positions from zero. -/
inductive Same : List Step → List Value → Prop
  | nil : Same [] []
  | member (k : Str) {steps : List Step} {segs : List Value} : Same steps segs → Same (.member k :: steps) (.str k :: segs)
  | pos (i : ℕ) {n : F64} {steps : List Step} {segs : List Value} : n.isFinite = true → n.toRat = i → Same steps segs →
      Same (.pos i :: steps) (.num n :: segs)

end Spec

theorem select_nil : ∀ steps : List Step, select steps [] = []
  | [] => rfl
  | _ :: steps => by rw [select]; exact select_nil steps

theorem same_select {steps : List Step} {segs : List Value} (h : Same steps segs) : ∀ j : Json,
    (∃ k, At j segs k ∧ select steps [j] = [k]) ∨ ((∀ k, ¬ At j segs k) ∧ select steps [j] = []) := by
  induction h with
  | nil => intro j; exact .inl ⟨j, .here j, rfl⟩
  | member k _ ih =>
    intro j
    cases hn : named k j with
    | none =>
      refine .inr ⟨?_, ?_⟩
      · intro r hr
        cases hr with
        | member h1 _ => rw [named, h1] at hn; cases hn
      · rw [select, List.flatMap_cons, Step.from, hn]; exact select_nil _
    | some c =>
      have hsel : ∀ st, select (.member k :: st) [j] = select st [c] := by
        intro st; rw [select, List.flatMap_cons, Step.from, hn]; rfl
      cases j with
      | obj ms =>
        have hl : ms.lookup k = some c := hn
        rcases ih c with ⟨r, h1, h2⟩ | ⟨h1, h2⟩
        · exact .inl ⟨r, .member hl h1, by rw [hsel, h2]⟩
        · refine .inr ⟨?_, by rw [hsel, h2]⟩
          intro r hr
          cases hr with
          | member e1 e2 =>
            rw [hl] at e1; cases e1
            exact h1 r e2
      | _ => cases hn
  | pos i hf hv _ ih =>
    intro j
    cases hn : elementAt i j with
    | none =>
      refine .inr ⟨?_, ?_⟩
      · intro r hr
        cases hr with
        | element e1 e2 e3 e4 e5 =>
          rename_i js i' c
          rw [hv] at e2 e3
          have : i' = i := by
            have h1 : i' ≤ i := by exact_mod_cast e2
            have h2 : i < i' + 1 := by exact_mod_cast e3
            omega
          subst this
          simp [elementAt, e4] at hn
      · rw [select, List.flatMap_cons, Step.from, hn]; exact select_nil _
    | some c =>
      have hsel : ∀ st, select (.pos i :: st) [j] = select st [c] := by
        intro st; rw [select, List.flatMap_cons, Step.from, hn]; rfl
      cases j with
      | arr js =>
        have hl : js[i]? = some c := by simpa [elementAt] using hn
        rcases ih c with ⟨r, h1, h2⟩ | ⟨h1, h2⟩
        · exact .inl ⟨r, .element hf (by rw [hv]) (by rw [hv]; exact_mod_cast Nat.lt_succ_self i) hl h1, by rw [hsel, h2]⟩
        · refine .inr ⟨?_, by rw [hsel, h2]⟩
          intro r hr
          cases hr with
          | element e1 e2 e3 e4 e5 =>
            rename_i i' c'
            rw [hv] at e2 e3
            have : i' = i := by
              have h1 : i' ≤ i := by exact_mod_cast e2
              have h2 : i < i' + 1 := by exact_mod_cast e3
              omega
            subst this
            rw [hl] at e4; cases e4
            exact h1 r e5
      | _ => cases hn

/-- **C136.** `JQ` with names and positions is `DIG` with the same segments, where there is something; where there is nothing `JQ` gives the empty array and
`DIG` null. -/
theorem C136_dig (X : Ext) (hf : Follows X) (r : Option Registry) (env : Env) (d : Expr) (s : Str) (j : Json) (steps : List Step) (segs : List Value)
    (hr : NotCustom X r c!"JQ") (hp : ∀ s ∈ steps, s.Proper) (hd : Eval.eval X d r env = .ok (.json s)) (hs : X.jsonParse s = .ok j)
    (hfit : ∀ p js, At j p (.arr js) → js.length < 2 ^ 63) (hsame : Same steps segs) :
    ((∃ k, At j segs k) → Eval.eval X (.call c!"JQ" [d, .strLit ('$' :: text steps)]) r env = fn X c!"DIG" [.json s, .arr segs]) ∧
    ((∀ k, ¬ At j segs k) → Eval.eval X (.call c!"JQ" [d, .strLit ('$' :: text steps)]) r env = .ok (.arr []) ∧ fn X c!"DIG" [.json s, .arr segs] = .ok .null) := by
  have h := C108_dig X r env d (.strLit ('$' :: text steps)) s (text steps) j segs hr hd (by rw [Eval.eval]) hs hfit
  have hq := hf j steps hp
  rcases same_select hsame j with ⟨k, h1, h2⟩ | ⟨h1, h2⟩
  · rw [h2] at hq
    exact ⟨fun _ => h.1 k h1 hq, fun hn => absurd h1 (hn k)⟩
  · rw [h2] at hq
    exact ⟨fun ⟨k, hk⟩ => absurd hk (h1 k), fun hn => h.2 hn hq⟩

/-! ### The line server -/

theorem tcp_bind_get (X : Ext) (n : Str) : ∀ (js : List (Str × Json)) (env : Env), (∀ m ∈ js, m.1 ≠ n) → Tcp.bind X js env n = env n
  | [], _, _ => rfl
  | (k, j) :: js, env, h => by
    rw [Tcp.bind, tcp_bind_get X n js _ fun m hm => h m (by simp [hm])]
    have : k ≠ n := h (k, j) (by simp)
    simp [Env.insert, Ne.symm this]

theorem call_fails (X : Ext) (name : Str) (a : Den) (as : List Arg) (r : Option Registry) (env : Env) (e : Fail) (h1 : name ≠ c!"__TERNARY__")
    (h2 : name ≠ c!"__CONST_TRUE__") (h3 : name ≠ c!"__CONST_FALSE__") (ha : a r env = .error e) (h4 : ∀ f, Eval.higherOrder X name = some f → f r env (⟨a, none, none⟩ :: as) = .error e) :
    Eval.call X name (⟨a, none, none⟩ :: as) r env = .error e := by
  have hargs : evalArgs r env (⟨a, none, none⟩ :: as) = .error e := by
    simp only [evalArgs, ha, bind, Except.bind]
  unfold Eval.call
  rw [if_neg h1, if_neg h2, if_neg h3]
  split
  · rw [hargs]; rfl
  · split
    · rename_i f hf; exact h4 f hf
    · rw [hargs]; rfl

/-- **C136.** The queries of the server guide fail at the line server, whatever data come with them: `:arguments` is not bound there. -/
theorem C136_tcp_wrong (X : Ext) (reg : Registry) (js : List (Str × Json)) (out : Option Bool) (token : Option Str) (id : Nat) (h : ∀ m ∈ js, m.1 ≠ c!"arguments") :
    ∃ m a p, (fail "Missing variable: :{}" [c!"arguments"] : Res Value) = .error (.err m a p) ∧
    Tcp.process X reg ⟨c!"SUM(JQ(:arguments, \"$.accounts[*].amount\"))", some js, out, token⟩ id = .ok ⟨false, none, some (.failed (.err m a p)), id⟩ := by
  refine ⟨_, _, _, rfl, ?_⟩
  have hp : parse c!"SUM(JQ(:arguments, \"$.accounts[*].amount\"))" = .ok (.call c!"SUM" [.call c!"JQ" [.var c!"arguments", .strLit c!"$.accounts[*].amount"]]) := by kernel_rfl
  have hc : (Str.contains c!"SUM(JQ(:arguments, \"$.accounts[*].amount\"))" c!";" || Str.contains c!"SUM(JQ(:arguments, \"$.accounts[*].amount\"))" c!":=") = false := by kernel_rfl
  unfold Tcp.process
  simp only [hc]
  unfold Lib.evaluateWithCustom
  rw [hp]
  have hv : Eval.eval X (.call c!"SUM" [.call c!"JQ" [.var c!"arguments", .strLit c!"$.accounts[*].amount"]]) (some reg) (Tcp.bind X js fun _ => none)
      = fail "Missing variable: :{}" [c!"arguments"] := by
    rw [Eval.eval]
    have hx : Eval.eval X (.var c!"arguments") (some reg) (Tcp.bind X js fun _ => none) = .error (.err "Missing variable: :{}" [c!"arguments"] none) := by
      rw [Eval.eval]
      simp only [tcp_bind_get X _ js _ h]
      rfl
    refine call_fails X _ _ _ _ _ _ (by decide) (by decide) (by decide) ?_ (by intro f hf; cases hf)
    rw [Eval.eval]
    refine call_fails X _ _ _ _ _ _ (by decide) (by decide) (by decide) hx ?_
    intro f hf
    cases hf
    simp only [Eval.jq, Eval.argsOf, hx, bind, Except.bind]
  have hb : (Except.ok (Expr.call c!"SUM" [.call c!"JQ" [.var c!"arguments", .strLit c!"$.accounts[*].amount"]]) >>= fun e => evalCustom X reg e (Tcp.bind X js fun _ => none))
      = (fail "Missing variable: :{}" [c!"arguments"] : Res Value) := hv
  simp only [Bool.false_eq_true, if_false]
  rw [show (Except.ok _ >>= fun e => _) = _ from hb]
  rfl

/-! ### Cases that meet the hypotheses -/

/-- `sk 'SUM(JQ(:arguments, "$.accounts[*].amount"))' --json '{"accounts":[{"amount":100},{"amount":200},{"name":"none"}]}'` -/
example : ∃ X, Follows X ∧ evaluateWithJson X c!"SUM(JQ(:arguments, \"$.accounts[*].amount\"))"
    c!"{\"accounts\":[{\"amount\":100},{\"amount\":200},{\"name\":\"none\"}]}" = .ok (.num (F64.ofNat 300)) := by
  obtain ⟨path, hf⟩ := C136_follows JsonText.halvesExt
  refine ⟨_, hf, ?_⟩
  have := C136_accounts _ hf c!"{\"accounts\":[{\"amount\":100},{\"amount\":200},{\"name\":\"none\"}]}"
    [(c!"accounts", .arr [.obj [(c!"amount", .num (.int 100))], .obj [(c!"amount", .num (.int 200))], .obj [(c!"name", .str c!"none")]])]
    ⟨by kernel_rfl, by intro m hm; simp only [List.mem_singleton] at hm; subst hm; intro h; exact absurd h.length_eq (by decide)⟩
    _ [.int 100, .int 200] rfl rfl
  have e : total ([JNum.int 100, .int 200].map double) = F64.ofNat 300 := by kernel_rfl
  rw [this, e]

/-- `sk 'SUM(JQ(:arguments, "$.products[?(@.category == '\''electronics'\'')].price"))'` -/
example : ∃ X, Follows X ∧ evaluateWithJson X c!"SUM(JQ(:arguments, \"$.products[?(@.category == 'electronics')].price\"))"
    c!"{\"products\":[{\"category\":\"electronics\",\"price\":100},{\"category\":\"books\",\"price\":50}]}" = .ok (.num (F64.ofNat 100)) := by
  obtain ⟨path, hf⟩ := C136_follows JsonText.halvesExt
  refine ⟨_, hf, ?_⟩
  have := C136_products _ hf c!"{\"products\":[{\"category\":\"electronics\",\"price\":100},{\"category\":\"books\",\"price\":50}]}"
    [(c!"products", .arr [.obj [(c!"category", .str c!"electronics"), (c!"price", .num (.int 100))], .obj [(c!"category", .str c!"books"), (c!"price", .num (.int 50))]])]
    ⟨by kernel_rfl, by intro m hm; simp only [List.mem_singleton] at hm; subst hm; intro h; exact absurd h.length_eq (by decide)⟩
    _ [.int 100] rfl rfl
  have e : total ([JNum.int 100].map double) = F64.ofNat 100 := by kernel_rfl
  rw [this, e]

example : select [.member c!"departments", .every, .member c!"employees", .every, .member c!"salary"]
    [.obj [(c!"departments", .arr [.obj [(c!"employees", .arr [.obj [(c!"salary", .num (.int 5))], .obj [(c!"salary", .num (.int 6))]])],
      .obj [(c!"employees", .arr [.obj [(c!"salary", .num (.int 7))]])]])]] = nodes [.int 5, .int 6, .int 7] := rfl

example : select [.member c!"products", .above c!"price" 100, .member c!"price"]
    [.obj [(c!"products", .arr [.obj [(c!"price", .num (.int 100))], .obj [(c!"price", .num (.int 101))], .obj [(c!"price", .str c!"150")]])]] = nodes [.int 101] := by
  kernel_rfl

example : text [.member c!"items", .pos (-1), .whose c!"kind" c!"a b", .every] = c!".items[-1][?(@.kind == 'a b')][*]" := by decide +kernel

example : Same [.member c!"a", .pos 1] [.str c!"a", .num (F64.ofNat 1)] := .member _ (.pos 1 (by decide +kernel) (by decide +kernel) .nil)

example (X : Ext) : JqDocs X [.num (F64.ofNat 1), .num (F64.ofNat 2)] (select [.every] [.arr [.num (.int 1), .num (.int 2)]]) :=
  .cons (.whole (by decide +kernel) (by decide +kernel) (by decide) (by decide)) (.cons (.whole (by decide +kernel) (by decide +kernel) (by decide) (by decide)) .nil)

end JsonPath
