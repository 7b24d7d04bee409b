import Verif.Spec.Effects
/-! Which sequences of calls of custom functions an evaluation may make, for every expression: a grammar, read off the expression without evaluating it. -/

namespace Fx.Spec

variable {W : Type}

/-- What an evaluation may do: the names of the functions it calls, in order, and whether it goes through (`true`) or stops with a failure. -/
abbrev Runs := List Str → Bool → Prop

namespace Runs

/-- Goes through and calls nothing. -/
def done : Runs := fun s ok => s = [] ∧ ok = true
/-- Fails and calls nothing. -/
def fails : Runs := fun s ok => s = [] ∧ ok = false
/-- Calls nothing; goes through or fails. -/
def nothing : Runs := fun s _ => s = []
/-- Calls this function, which goes through or fails; or fails before the call, the number of arguments being wrong. -/
def one (n : Str) : Runs := fun s ok => s = [n] ∨ (s = [] ∧ ok = false)
/-- First the one, and when it went through, the other. -/
def andThen (a b : Runs) : Runs := fun s ok => (a s false ∧ ok = false) ∨ ∃ s1 s2, s = s1 ++ s2 ∧ a s1 true ∧ b s2 ok
/-- The one or the other. -/
def either (a b : Runs) : Runs := fun s ok => a s ok ∨ b s ok
/-- The same `n` times, one after the other; a failure ends it. -/
def times (a : Runs) : Nat → Runs
  | 0 => done
  | n + 1 => a.andThen (times a n)
/-- Any number of times. -/
def repeated (a : Runs) : Runs := fun s ok => ∃ n, times a n s ok
/-- What it did stays done, but whether it failed does not matter. -/
def swallowed (a : Runs) : Runs := fun s _ => ∃ ok, a s ok
/-- One after the other. -/
def inTurn : List Runs → Runs
  | [] => done
  | a :: as => a.andThen (inTurn as)

end Runs

open Runs

/-- An argument: as an expression, and in the list of arguments of a call, where it may be spread. -/
structure ArgRuns where
  plain : Runs
  listed : Runs

/-- One that may be missing. -/
def optional : Option ArgRuns → Runs
  | none => done
  | some a => a.plain.andThen nothing

/-- A method: those with a lambda run it for the elements of an array; all others, and these on anything else, call nothing. -/
def methodRuns (X : Ext) (n : Str) (as : List ArgRuns) : Runs :=
  if X.lower n = c!"filter" ∨ X.lower n = c!"map" ∨ X.lower n = c!"find" then
    match as with
    | lam :: _ => either nothing lam.plain.repeated
    | [] => nothing
  else if X.lower n = c!"reduce" then
    match as with
    | lam :: start :: _ => either nothing (start.plain.andThen lam.plain.repeated)
    | _ => nothing
  else nothing

/-- A built-in function with a lambda outside of the arguments of methods. The lambda is evaluated without custom functions; the names of its parameters are evaluated with them, and so is the
criterion of `SUMIF`, after the array to sum. -/
def lambdaRuns (n : Str) (as : List ArgRuns) : Option Runs :=
  if n = c!"FILTER" ∨ n = c!"FIND" ∨ n = c!"MAP" then
    some (match as with
      | a :: _ :: rest => a.plain.andThen ((optional rest[0]?).andThen nothing)
      | _ => fails)
  else if n = c!"REDUCE" then
    some (match as with
      | a :: _ :: start :: rest => a.plain.andThen (start.plain.andThen ((optional rest[0]?).andThen ((optional rest[1]?).andThen nothing)))
      | _ => fails)
  else if n = c!"SUMIF" then
    some (match as with
      | [a, crit] => a.plain.andThen (crit.plain.swallowed.andThen nothing)
      | [a, crit, sum] => a.plain.andThen (sum.plain.andThen (crit.plain.swallowed.andThen nothing))
      | _ => fails)
  else if n = c!"AVGIF" ∨ n = c!"COUNTIF" then
    some (match as with
      | [a, _] => a.plain.andThen nothing
      | _ => fails)
  else if n = c!"JQ" then
    some (match as with
      | [a, path] => a.plain.andThen (path.plain.andThen nothing)
      | _ => fails)
  else none

/-- The same inside of the arguments of a method: there the lambda is evaluated with custom functions, for each element. -/
def lambdaRunsInside (n : Str) (as : List ArgRuns) : Option Runs :=
  if n = c!"FILTER" ∨ n = c!"FIND" ∨ n = c!"MAP" then
    some (match as with
      | a :: lam :: _ => a.plain.andThen (either fails lam.plain.repeated)
      | _ => fails)
  else if n = c!"REDUCE" then
    some (match as with
      | a :: lam :: start :: _ => a.plain.andThen (start.plain.andThen (either fails lam.plain.repeated))
      | _ => fails)
  else if n = c!"SUMIF" ∨ n = c!"AVGIF" ∨ n = c!"COUNTIF" then
    some (match as with
      | [a, lam] => a.plain.andThen (either fails lam.plain.repeated)
      | _ => fails)
  else none

/-- A conditional evaluates the condition and then one of the branches; it fails when the condition is neither true nor false. -/
def conditionalRuns : List ArgRuns → Runs
  | [c, a, b] => c.plain.andThen (either fails (either a.plain b.plain))
  | _ => fails

/-- A call. A custom function is called after its arguments, from left to right. -/
def callRuns (X : Ext) (g : Reg W) (inside : Bool) (n : Str) (as : List ArgRuns) : Runs :=
  if isConditional n then conditionalRuns as
  else if !inside && isConstant n then done
  else if g.has X n then (inTurn (as.map ArgRuns.listed)).andThen (one (X.upper n))
  else match if inside then lambdaRunsInside n as else lambdaRuns n as with
    | some r => r
    | none => (inTurn (as.map ArgRuns.listed)).andThen nothing

mutual
/-- What the evaluation of an expression may do; `inside` the arguments of a method or outside. -/
def runs (X : Ext) (g : Reg W) (inside : Bool) : Expr → Runs
  | .number _ | .strLit _ | .null => done
  | .var _ => nothing
  | .spread _ => fails
  | .assign _ e => runs X g inside e
  | .unary _ e | .prop e _ | .safeProp e _ | .cast e _ => (runs X g inside e).andThen nothing
  | .binary a _ b | .index a b => (runs X g inside a).andThen ((runs X g inside b).andThen nothing)
  | .array es | .seq es => inTurn ((runsEach X g inside es).map ArgRuns.plain)
  | .object ms => runsIn X g inside ms
  | .slice t a b => (runs X g inside t).andThen (either fails ((runsOpt X g inside a).andThen ((runsOpt X g inside b).andThen nothing)))
  | .safeCall t n es => (runs X g inside t).andThen (methodRuns X n (runsEach X g true es))
  | .method t n es predicate => (runs X g inside t).andThen (if predicate then nothing else methodRuns X n (runsEach X g true es))
  | .call n es => callRuns X g inside n (runsEach X g inside es)
/-- For each of a list of expressions. -/
def runsEach (X : Ext) (g : Reg W) (inside : Bool) : List Expr → List ArgRuns
  | [] => []
  | .spread e :: es => ⟨fails, (runs X g inside e).andThen nothing⟩ :: runsEach X g inside es
  | e :: es => ⟨runs X g inside e, runs X g inside e⟩ :: runsEach X g inside es
/-- For the members of an object, from first to last. -/
def runsIn (X : Ext) (g : Reg W) (inside : Bool) : List (Str × Expr) → Runs
  | [] => done
  | (_, e) :: ms => ((runs X g inside e).andThen nothing).andThen (runsIn X g inside ms)
/-- For an optional bound of a slice. -/
def runsOpt (X : Ext) (g : Reg W) (inside : Bool) : Option Expr → Runs
  | none => done
  | some e => (runs X g inside e).andThen nothing
end

end Fx.Spec
