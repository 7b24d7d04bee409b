import Verif.Props.Guide
import Verif.Props.Numbers
import Verif.Props.Logic
/-! C135: what the reference says about functions, operators and methods, and what the code does, for all arguments. -/

open Lib Spec

namespace Reference

/-- The infix words of the reference, `AND` and `OR`, and its `as` for casts are not read as operators: the text is evaluated as if it ended before them. So
`:a AND :b` is whatever `:a` is, also if `:b` has no value. -/
theorem C135_words_ignored (X : Ext) (env : Env) (v : Value) (h : env c!"a" = some v) :
    ∀ t ∈ [c!":a AND :b", c!":a OR :b", c!":a and :b", c!":a or :b", c!":a as number", c!":a as string", c!":a XOR :b"], evaluateWith X t env = .ok v := by
  intro t ht
  have hp : parse t = .ok (.var c!"a") := by
    simp only [List.mem_cons, List.not_mem_nil, or_false] at ht
    rcases ht with rfl | rfl | rfl | rfl | rfl | rfl | rfl <;> kernel_rfl
  rw [evaluateWith_of X env hp, Eval.eval]
  simp only [h]

/-- `COUNT` takes one array and counts all of its elements, whatever they are; the reference says that it counts the numbers among its arguments. With any
other number of arguments it fails. -/
theorem C135_count (X : Ext) : (∀ items, fn X c!"COUNT" [.arr items] = .ok (.num (F64.ofNat items.length))) ∧
    ∀ vs, vs.length ≠ 1 → fn X c!"COUNT" vs = fail "COUNT expects 1 argument: array" := by
  refine ⟨fun items => by rw [fn_eq X _ _ (by decide)]; rfl, fun vs h => ?_⟩
  rw [fn_eq X _ _ (by decide), show execFast X c!"COUNT" vs = Arr.count vs from rfl]
  match vs with
  | [] => rfl
  | [_] => simp at h
  | a :: _ :: _ => cases a <;> rfl

/-- `INT` is said to give the integer part. For a negative number that is no integer it gives one less. -/
theorem C135_int_wrong (X : Ext) (x : F64) (q : ℚ) (i : ℤ) (h : HasValue x q) (hi : IsTrunc q i) (hq : q < 0) (hn : q ≠ i) :
    ∃ y, fn X c!"INT" [.num x] = .ok (.num y) ∧ HasValue y ((i - 1 : ℤ) : ℚ) ∧ ∃ z, meth0 X (.num x) c!"int" = .ok (.num z) ∧ HasValue z i := by
  obtain ⟨y, hy, _, _, h2, _⟩ := (C74_floor_ceil_abs X x q h).1
  refine ⟨y, h2, ?_, x.trunc, by rw [meth0_eq]; rfl, F64.trunc_value h hi⟩
  obtain ⟨h1, h3, h4⟩ := hi
  have hi0 : (i : ℚ) ≤ 0 := by
    by_contra hc
    have := mul_neg_of_pos_of_neg (not_le.1 hc) hq
    linarith
  rw [abs_of_neg hq, abs_of_nonpos hi0] at h1 h3
  have hlt : q < i := lt_of_le_of_ne (by linarith) hn
  have : ⌊q⌋ = i - 1 := by
    rw [Int.floor_eq_iff]; push_cast; constructor <;> linarith
  rwa [this] at hy

/-- The functions `LEN`, `COMPACT`, `BETWEEN` and `PI` that the reference and the guide list do not exist. -/
theorem C135_no_such_function (X : Ext) (vs : List Value) : ∀ f ∈ [c!"LEN", c!"COMPACT", c!"BETWEEN", c!"PI"], fn X f vs = fail "Unknown function: {}" [f] := by
  intro f hf
  simp only [List.mem_cons, List.not_mem_nil, or_false] at hf
  rcases hf with rfl | rfl | rfl | rfl <;> (rw [fn_eq X _ _ (by decide)]; rfl)

/-- `TIME` takes no notice of the hour, minute and second given to it. -/
theorem C135_time_wrong (X : Ext) (vs ws : List Value) : fn X c!"TIME" vs = fn X c!"TIME" ws := by
  rw [fn_eq X _ _ (by decide), fn_eq X _ _ (by decide)]; rfl

/-- `DATEADD(date, days)` and `DATEDIFF(a, b)`, as in the reference, fail whatever the arguments are: the unit is required. -/
theorem C135_units_required (X : Ext) (a b : Value) :
    fn X c!"DATEADD" [a, b] = fail "DATEADD expects date, interval, unit" ∧ fn X c!"DATEDIFF" [a, b] = fail "DATEDIFF expects date1, date2, unit" := by
  rw [fn_eq X _ _ (by decide), fn_eq X _ _ (by decide)]; exact ⟨rfl, rfl⟩

/-- The cast of a text to an array is the array with that text, not its characters. -/
theorem C135_text_to_array (X : Ext) (s : Str) : castTo X (.str s) .array = .ok (.arr [.str s]) := by kernel_rfl

/-- The tests `.positive()`, `.negative()`, `.zero()`, `.even()` and `.odd()` of numbers and `.blank()` and `.present()` of texts and arrays only exist with
a question mark. -/
theorem C135_question_mark (X : Ext) :
    (∀ x, ∀ m ∈ [c!"positive", c!"negative", c!"zero", c!"even", c!"odd"], meth0 X (.num x) m = fail "Unknown number method: {}" [m]) ∧
    (∀ s, ∀ m ∈ [c!"blank", c!"present"], meth0 X (.str s) m = fail "Unknown string method: {}" [m]) ∧
    ∀ vs, ∀ m ∈ [c!"blank", c!"present"], meth0 X (.arr vs) m = fail "Unknown array method: {}" [m] := by
  simp only [List.mem_cons, List.not_mem_nil, or_false]
  refine ⟨fun x m hm => ?_, fun s m hm => ?_, fun vs m hm => ?_⟩
  · rcases hm with rfl | rfl | rfl | rfl | rfl <;> rw [meth0_eq] <;> rfl
  · rcases hm with rfl | rfl <;> rw [meth0_eq] <;> rfl
  · rcases hm with rfl | rfl <;> rw [meth0_eq] <;> rfl

theorem bare {r : Res Expr} (h : (match r with | .error (.err m as _) => decide (m = "Unexpected identifier (expected function call)" ∧ as = []) | _ => false) = true) :
    ∃ p, r = .error (.err "Unexpected identifier (expected function call)" [] p) := by
  match r with
  | .error (.err m as p) =>
    simp only [decide_eq_true_eq] at h
    exact ⟨p, by rw [h.1, h.2]⟩
  | .error (.panic _) => cases h
  | .ok _ => cases h

/-- Names without a colon are no expressions: the reference's `x > 3` in `FILTER` and `.filter` is a syntax error. -/
theorem C135_bare_names : ∀ t ∈ [c!"FILTER(:a, x > 3)", c!":a.filter(x > 3)", c!"x > 3", c!"NOT true"],
    ∃ p, parse t = .error (.err "Unexpected identifier (expected function call)" [] p) := by
  simp only [List.mem_cons, List.not_mem_nil, or_false]
  intro t ht
  rcases ht with rfl | rfl | rfl | rfl <;> exact bare (by kernel_rfl)

/-- The guide spreads an array into an array, `[0, ...[1, 2, 3], 4]`. That is a syntax error at the dots, whatever follows; arrays can be spread only into calls. -/
theorem C135_no_spread_in_arrays (rest : Str) :
    parse (c!"[..." ++ rest) = .error (.err "Unexpected token: {:?}" [] (some 1)) ∧ parse (c!"[0, ..." ++ rest) = .error (.err "Unexpected token: {:?}" [] (some 4)) ∧
    parse (c!"[:a, ..." ++ rest) = .error (.err "Unexpected token: {:?}" [] (some 5)) :=
  ⟨by kernel_rfl, by kernel_rfl, by kernel_rfl⟩

/-- The members of an element are not variables: `:items.map(:price * :quantity)` fails on every array that is not empty, unless there is a variable of that
name outside. -/
theorem C135_members_are_no_variables (X : Ext) (env : Env) (v : Value) (vs : List Value) (h : env c!"items" = some (.arr (v :: vs))) (hn : env c!"price" = none) :
    evaluateWith X c!":items.map(:price * :quantity)" env = fail "Missing variable: :{}" [c!"price"] := by
  rw [evaluateWith_of X env (e := .method (.var c!"items") c!"map" [.binary (.var c!"price") .mul (.var c!"quantity")] false) (by kernel_rfl)]
  have hp : (env.insert c!"x" v) c!"price" = none := by simpa [Env.insert] using hn
  simp only [Eval.eval, h, bind, Except.bind, exec_arr_map, Method.map, Legacy.argsOf_eq, List.map_cons, List.map_nil, Legacy.argOf_run, List.head?_nil,
    Method.paramName, Loop.map_eq, List.mapM_cons, Legacy.eval, hp]
  rfl

/-! ### Cases -/

example : HasValue (.fin (-39 / 10)) (-39 / 10) ∧ IsTrunc (-39 / 10) (-3) ∧ (-39 / 10 : ℚ) < 0 ∧ (-39 / 10 : ℚ) ≠ ((-3 : ℤ) : ℚ) :=
  ⟨rfl, by norm_num [IsTrunc, abs_of_neg], by norm_num, by norm_num⟩
example : ∃ v, (Env.empty.insert c!"a" (.bool true)) c!"a" = some v := ⟨_, rfl⟩
example : (Env.empty.insert c!"items" (.arr [.null])) c!"items" = some (.arr [.null]) ∧ (Env.empty.insert c!"items" (.arr [.null])) c!"price" = none :=
  ⟨rfl, rfl⟩

end Reference
