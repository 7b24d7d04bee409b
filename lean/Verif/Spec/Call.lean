import Verif.Props.Custom
/-! Calling a builtin function or a method on given values, through the evaluator. -/

open Lib

namespace Spec

/-- The value of `NAME(...:args)` where the variable `args` holds the list `vs`. -/
def fn (X : Ext) (name : Str) (vs : List Value) : Res Value :=
  evalVars X (.call name [.spread (.var c!"args")]) (Env.empty.insert c!"args" (.arr vs))

/-- The value of `:r.name()` where `r` holds the receiver. -/
def meth0 (X : Ext) (recv : Value) (name : Str) : Res Value :=
  evalVars X (.method (.var c!"r") name [] false) (Env.empty.insert c!"r" recv)

/-- The value of `:r.name(:a)`. -/
def meth1 (X : Ext) (recv : Value) (name : Str) (a : Value) : Res Value :=
  evalVars X (.method (.var c!"r") name [.var c!"a"] false) ((Env.empty.insert c!"r" recv).insert c!"a" a)

/-- The value of `:r.name(:a, :b)`. -/
def meth2 (X : Ext) (recv : Value) (name : Str) (a b : Value) : Res Value :=
  evalVars X (.method (.var c!"r") name [.var c!"a", .var c!"b"] false) (((Env.empty.insert c!"r" recv).insert c!"a" a).insert c!"b" b)

end Spec

open Spec

theorem call_exec (X : Ext) (name : Str) (r : Option Registry) (env : Env) (es : List Expr) (vs : List Value) (hn : name ∉ ownNames)
    (hr : NotCustom X r name) (hargs : Args X r env es vs) : Eval.eval X (.call name es) r env = execFast X name vs := by
  simp only [ownNames, List.mem_cons, List.not_mem_nil, or_false, not_or] at hn
  have h1 : Eval.higherOrder X name = none := by simp [Eval.higherOrder, hn]
  have h2 : (match r with | some reg => if reg.has X name then some reg else none | none => none) = none := by
    cases r with
    | none => rfl
    | some reg => simp [hr reg rfl]
  rw [Eval.eval]
  simp only [Eval.call, if_neg hn.1, if_neg hn.2.1, if_neg hn.2.2.1, h1]
  rw [evalArgs_of X r env es vs hargs]
  split
  · rename_i h; exact absurd (h2.symm.trans h) (by simp)
  · rfl

/-- `fn` is the builtin dispatcher. -/
theorem fn_eq (X : Ext) (name : Str) (vs : List Value) (hn : name ∉ ownNames) : fn X name vs = execFast X name vs := by
  refine call_exec X name none _ _ vs hn (by intro reg h; simp at h) ?_
  have := @Args.spread X none (Env.empty.insert c!"args" (.arr vs)) (.var c!"args") [] vs [] (by simp [Eval.eval, Env.insert]) .nil
  simpa using this

/-- However the arguments of a call are written, its value is that of `fn` on their values: the theorems about `fn`
speak of every call of the function. -/
theorem call_eq_fn (X : Ext) (name : Str) (r : Option Registry) (env : Env) (es : List Expr) (vs : List Value) (hn : name ∉ ownNames)
    (hr : NotCustom X r name) (hargs : Args X r env es vs) : Eval.eval X (.call name es) r env = fn X name vs := by
  rw [fn_eq X name vs hn, call_exec X name r env es vs hn hr hargs]

theorem meth0_eq (X : Ext) (recv : Value) (name : Str) :
    meth0 X recv name = Method.exec X none (Env.empty.insert c!"r" recv) name false recv [] := by
  simp only [meth0, evalVars, Eval.eval, Legacy.argsOf]; rfl

theorem meth1_eq (X : Ext) (recv : Value) (name : Str) (a : Value) :
    meth1 X recv name a = Method.exec X none ((Env.empty.insert c!"r" recv).insert c!"a" a) name false recv [Legacy.argOf X (.var c!"a")] := by
  simp only [meth1, evalVars, Eval.eval, Legacy.argsOf_eq]; rfl

theorem meth2_eq (X : Ext) (recv : Value) (name : Str) (a b : Value) :
    meth2 X recv name a b = Method.exec X none (((Env.empty.insert c!"r" recv).insert c!"a" a).insert c!"b" b) name false recv
      [Legacy.argOf X (.var c!"a"), Legacy.argOf X (.var c!"b")] := by
  simp only [meth2, evalVars, Eval.eval, Legacy.argsOf_eq]; rfl

/-- An argument `:a` of a method, once evaluated. -/
theorem arg_var (X : Ext) (r : Option Registry) (env : Env) (name : Str) (v : Value) (h : env name = some v) :
    (Legacy.argOf X (.var name)).run r env = .ok v := by
  simp only [Legacy.argOf, Legacy.eval, h]
