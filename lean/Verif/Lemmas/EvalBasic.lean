import Verif.Model.Lib
/-! Small facts about the evaluators used by several properties. -/

namespace Eval

/-- An expression as an unevaluated argument. -/
def argOf (X : Ext) (e : Expr) : Arg :=
  ⟨eval X e, (match e with | .spread e => some (eval X e) | _ => none), (match e with | .strLit s => some s | _ => none)⟩

theorem argsOf_eq (X : Ext) (es : List Expr) : argsOf X es = es.map (argOf X) := by
  induction es with
  | nil => rw [argsOf]; rfl
  | cons e es ih => cases e <;> simp [argsOf, ih, argOf, eval]

theorem argsOf_cons (X : Ext) (e : Expr) (es : List Expr) : argsOf X (e :: es) = argOf X e :: argsOf X es := by
  simp [argsOf_eq]

@[simp] theorem argOf_run (X : Ext) (e : Expr) : (argOf X e).run = eval X e := rfl

theorem lastOf_argsOf (X : Ext) (e : Expr) (es : List Expr) (r : Option Registry) (env : Env) (v : Value) :
    lastOf r env v (argsOf X (e :: es)) = (do let w ← eval X e r env; lastOf r env w (argsOf X es)) := by
  rw [argsOf_cons, lastOf]; rfl

end Eval

namespace Legacy

/-- An expression as an unevaluated argument. -/
def argOf (X : Ext) (e : Expr) : Arg :=
  ⟨eval X e, (match e with | .spread e => some (eval X e) | _ => none), (match e with | .strLit s => some s | _ => none)⟩

theorem argsOf_eq (X : Ext) (es : List Expr) : argsOf X es = es.map (argOf X) := by
  induction es with
  | nil => rw [argsOf]; rfl
  | cons e es ih => cases e <;> simp [argsOf, ih, argOf, eval]

theorem argsOf_cons (X : Ext) (e : Expr) (es : List Expr) : argsOf X (e :: es) = argOf X e :: argsOf X es := by
  simp [argsOf_eq]

@[simp] theorem argOf_run (X : Ext) (e : Expr) : (argOf X e).run = eval X e := rfl

end Legacy

namespace Env

theorem insert_same (e : Env) (k : Str) (v w : Value) : (e.insert k v).insert k w = e.insert k w := by
  funext n; simp only [insert]; split <;> rfl

theorem insert_get (e : Env) (k : Str) (v : Value) : (e.insert k v) k = some v := by simp [insert]

theorem insert_ne (e : Env) (k n : Str) (v : Value) (h : n ≠ k) : (e.insert k v) n = e n := by simp [insert, h]

theorem insert_comm (e : Env) (k l : Str) (v w : Value) (h : k ≠ l) :
    (e.insert k v).insert l w = (e.insert l w).insert k v := by
  funext n; simp only [insert]
  by_cases h1 : n = l
  · subst h1; simp [Ne.symm h]
  · simp [h1]

end Env
