import Verif.Model.StackEval
import Verif.Lemmas.StackLess
import Verif.Props.Stack
/-! C147: how much stack evaluation takes. -/

open Spec

namespace Stack

open Stack.Spec
open Sizes.Spec (depth depthAll depthMembers depthOpt)

mutual
theorem legacy_eval_eq (X : Ext) : (e : Expr) → ∀ d, depth e ≤ d → Legacy.eval X e d = _root_.Legacy.eval X e
  | .number _, 0, h | .strLit _, 0, h | .null, 0, h | .var _, 0, h => by simp [depth] at h
  | .unary .., 0, h | .binary .., 0, h | .prop .., 0, h | .safeProp .., 0, h | .safeCall .., 0, h | .array .., 0, h
  | .object .., 0, h | .cast .., 0, h | .index .., 0, h | .slice .., 0, h | .call .., 0, h | .method .., 0, h
  | .spread .., 0, h | .assign .., 0, h | .seq .., 0, h => by simp [depth] at h
  | .number _, d + 1, _ => by simp only [Legacy.eval, _root_.Legacy.eval]
  | .strLit _, d + 1, _ => by simp only [Legacy.eval, _root_.Legacy.eval]
  | .null, d + 1, _ => by simp only [Legacy.eval, _root_.Legacy.eval]
  | .var _, d + 1, _ => by simp only [Legacy.eval, _root_.Legacy.eval]; rfl
  | .spread _, d + 1, _ => by simp only [Legacy.eval, _root_.Legacy.eval]
  | .unary op e, d + 1, h => by
    simp only [depth] at h; have h0 := legacy_eval_eq X e d (by omega); simp only [Legacy.eval, _root_.Legacy.eval, h0]; try rfl
  | .binary a op b, d + 1, h => by
    simp only [depth] at h; have h0 := legacy_eval_eq X a d (by omega); have h1 := legacy_eval_eq X b d (by omega); simp only [Legacy.eval, _root_.Legacy.eval, h0, h1]; try rfl
  | .prop t _, d + 1, h => by
    simp only [depth] at h; have h0 := legacy_eval_eq X t d (by omega); simp only [Legacy.eval, _root_.Legacy.eval, h0]; try rfl
  | .safeProp t _, d + 1, h => by
    simp only [depth] at h; have h0 := legacy_eval_eq X t d (by omega); simp only [Legacy.eval, _root_.Legacy.eval, h0]; try rfl
  | .safeCall t _ args, d + 1, h => by
    simp only [depth] at h; have h0 := legacy_eval_eq X t d (by omega); have h1 := legacy_args_eq X args d (by omega); simp only [Legacy.eval, _root_.Legacy.eval, h0, h1]; try rfl
  | .array items, d + 1, h => by
    simp only [depth] at h; have h0 := legacy_args_eq X items d (by omega); simp only [Legacy.eval, _root_.Legacy.eval, h0]; try rfl
  | .object ms, d + 1, h => by
    simp only [depth] at h; have h0 := legacy_members_eq X ms d (by omega); simp only [Legacy.eval, _root_.Legacy.eval, h0]; try rfl
  | .cast e _, d + 1, h => by
    simp only [depth] at h; have h0 := legacy_eval_eq X e d (by omega); simp only [Legacy.eval, _root_.Legacy.eval, h0]; try rfl
  | .index t i, d + 1, h => by
    simp only [depth] at h; have h0 := legacy_eval_eq X t d (by omega); have h1 := legacy_eval_eq X i d (by omega); simp only [Legacy.eval, _root_.Legacy.eval, h0, h1]; try rfl
  | .slice t a b, d + 1, h => by
    simp only [depth] at h; have h0 := legacy_eval_eq X t d (by omega); have h1 := legacy_opt_eq X a d (by omega); have h2 := legacy_opt_eq X b d (by omega); simp only [Legacy.eval, _root_.Legacy.eval, h0, h1, h2]; try rfl
  | .call _ args, d + 1, h => by
    simp only [depth] at h; have h0 := legacy_args_eq X args d (by omega); simp only [Legacy.eval, _root_.Legacy.eval, h0]; try rfl
  | .method t _ args _, d + 1, h => by
    simp only [depth] at h; have h0 := legacy_eval_eq X t d (by omega); have h1 := legacy_args_eq X args d (by omega); simp only [Legacy.eval, _root_.Legacy.eval, h0, h1]; try rfl
  | .assign _ e, d + 1, h => by
    simp only [depth] at h; have h0 := legacy_eval_eq X e d (by omega); simp only [Legacy.eval, _root_.Legacy.eval, h0]; try rfl
  | .seq es, d + 1, h => by
    simp only [depth] at h; have h0 := legacy_args_eq X es d (by omega); simp only [Legacy.eval, _root_.Legacy.eval, h0]; try rfl
theorem legacy_args_eq (X : Ext) : (es : List Expr) → ∀ d, depthAll es ≤ d → Legacy.argsOf X es d = _root_.Legacy.argsOf X es
  | [], d, _ => by simp only [Legacy.argsOf, _root_.Legacy.argsOf]
  | .spread e :: rest, d, h => by
    simp only [depthAll, depth] at h
    have h0 := legacy_eval_eq X e d (by omega); have h1 := legacy_args_eq X rest d (by omega)
    have h2 : d ≠ 0 := by omega
    simp only [Legacy.argsOf, _root_.Legacy.argsOf, h0, h1, take, if_neg h2]
  | .strLit s :: rest, d, h => by
    simp only [depthAll, depth] at h
    have h1 := legacy_args_eq X rest d (by omega)
    have h2 : d ≠ 0 := by omega
    simp only [Legacy.argsOf, _root_.Legacy.argsOf, h1, take, if_neg h2]
  | .number x0 :: rest, d, h => by
    simp only [depthAll] at h
    have h0 := legacy_eval_eq X (.number x0) d (by omega); have h1 := legacy_args_eq X rest d (by omega)
    simp only [Legacy.argsOf, _root_.Legacy.argsOf, h0, h1]
  | .null :: rest, d, h => by
    simp only [depthAll] at h
    have h0 := legacy_eval_eq X (.null) d (by omega); have h1 := legacy_args_eq X rest d (by omega)
    simp only [Legacy.argsOf, _root_.Legacy.argsOf, h0, h1]
  | .var x0 :: rest, d, h => by
    simp only [depthAll] at h
    have h0 := legacy_eval_eq X (.var x0) d (by omega); have h1 := legacy_args_eq X rest d (by omega)
    simp only [Legacy.argsOf, _root_.Legacy.argsOf, h0, h1]
  | .unary x0 x1 :: rest, d, h => by
    simp only [depthAll] at h
    have h0 := legacy_eval_eq X (.unary x0 x1) d (by omega); have h1 := legacy_args_eq X rest d (by omega)
    simp only [Legacy.argsOf, _root_.Legacy.argsOf, h0, h1]
  | .binary x0 x1 x2 :: rest, d, h => by
    simp only [depthAll] at h
    have h0 := legacy_eval_eq X (.binary x0 x1 x2) d (by omega); have h1 := legacy_args_eq X rest d (by omega)
    simp only [Legacy.argsOf, _root_.Legacy.argsOf, h0, h1]
  | .prop x0 x1 :: rest, d, h => by
    simp only [depthAll] at h
    have h0 := legacy_eval_eq X (.prop x0 x1) d (by omega); have h1 := legacy_args_eq X rest d (by omega)
    simp only [Legacy.argsOf, _root_.Legacy.argsOf, h0, h1]
  | .safeProp x0 x1 :: rest, d, h => by
    simp only [depthAll] at h
    have h0 := legacy_eval_eq X (.safeProp x0 x1) d (by omega); have h1 := legacy_args_eq X rest d (by omega)
    simp only [Legacy.argsOf, _root_.Legacy.argsOf, h0, h1]
  | .safeCall x0 x1 x2 :: rest, d, h => by
    simp only [depthAll] at h
    have h0 := legacy_eval_eq X (.safeCall x0 x1 x2) d (by omega); have h1 := legacy_args_eq X rest d (by omega)
    simp only [Legacy.argsOf, _root_.Legacy.argsOf, h0, h1]
  | .array x0 :: rest, d, h => by
    simp only [depthAll] at h
    have h0 := legacy_eval_eq X (.array x0) d (by omega); have h1 := legacy_args_eq X rest d (by omega)
    simp only [Legacy.argsOf, _root_.Legacy.argsOf, h0, h1]
  | .object x0 :: rest, d, h => by
    simp only [depthAll] at h
    have h0 := legacy_eval_eq X (.object x0) d (by omega); have h1 := legacy_args_eq X rest d (by omega)
    simp only [Legacy.argsOf, _root_.Legacy.argsOf, h0, h1]
  | .cast x0 x1 :: rest, d, h => by
    simp only [depthAll] at h
    have h0 := legacy_eval_eq X (.cast x0 x1) d (by omega); have h1 := legacy_args_eq X rest d (by omega)
    simp only [Legacy.argsOf, _root_.Legacy.argsOf, h0, h1]
  | .index x0 x1 :: rest, d, h => by
    simp only [depthAll] at h
    have h0 := legacy_eval_eq X (.index x0 x1) d (by omega); have h1 := legacy_args_eq X rest d (by omega)
    simp only [Legacy.argsOf, _root_.Legacy.argsOf, h0, h1]
  | .slice x0 x1 x2 :: rest, d, h => by
    simp only [depthAll] at h
    have h0 := legacy_eval_eq X (.slice x0 x1 x2) d (by omega); have h1 := legacy_args_eq X rest d (by omega)
    simp only [Legacy.argsOf, _root_.Legacy.argsOf, h0, h1]
  | .call x0 x1 :: rest, d, h => by
    simp only [depthAll] at h
    have h0 := legacy_eval_eq X (.call x0 x1) d (by omega); have h1 := legacy_args_eq X rest d (by omega)
    simp only [Legacy.argsOf, _root_.Legacy.argsOf, h0, h1]
  | .method x0 x1 x2 x3 :: rest, d, h => by
    simp only [depthAll] at h
    have h0 := legacy_eval_eq X (.method x0 x1 x2 x3) d (by omega); have h1 := legacy_args_eq X rest d (by omega)
    simp only [Legacy.argsOf, _root_.Legacy.argsOf, h0, h1]
  | .assign x0 x1 :: rest, d, h => by
    simp only [depthAll] at h
    have h0 := legacy_eval_eq X (.assign x0 x1) d (by omega); have h1 := legacy_args_eq X rest d (by omega)
    simp only [Legacy.argsOf, _root_.Legacy.argsOf, h0, h1]
  | .seq x0 :: rest, d, h => by
    simp only [depthAll] at h
    have h0 := legacy_eval_eq X (.seq x0) d (by omega); have h1 := legacy_args_eq X rest d (by omega)
    simp only [Legacy.argsOf, _root_.Legacy.argsOf, h0, h1]
theorem legacy_members_eq (X : Ext) : (ms : List (Str × Expr)) → ∀ d, depthMembers ms ≤ d → Legacy.membersOf X ms d = _root_.Legacy.membersOf X ms
  | [], d, _ => by simp only [Legacy.membersOf, _root_.Legacy.membersOf]
  | (k, e) :: rest, d, h => by
    simp only [depthMembers] at h
    have h0 := legacy_eval_eq X e d (by omega); have h1 := legacy_members_eq X rest d (by omega)
    simp only [Legacy.membersOf, _root_.Legacy.membersOf, h0, h1]
theorem legacy_opt_eq (X : Ext) : (o : Option Expr) → ∀ d, depthOpt o ≤ d → Legacy.optOf X o d = _root_.Legacy.optOf X o
  | none, d, _ => by simp only [Legacy.optOf, _root_.Legacy.optOf]
  | some e, d, h => by
    simp only [depthOpt] at h
    have h0 := legacy_eval_eq X e d (by omega)
    simp only [Legacy.optOf, _root_.Legacy.optOf, h0]
end

mutual
theorem eval_eq (X : Ext) : (e : Expr) → ∀ d, depth e ≤ d → eval X e d = Eval.eval X e
  | .number _, 0, h | .strLit _, 0, h | .null, 0, h | .var _, 0, h => by simp [depth] at h
  | .unary .., 0, h | .binary .., 0, h | .prop .., 0, h | .safeProp .., 0, h | .safeCall .., 0, h | .array .., 0, h
  | .object .., 0, h | .cast .., 0, h | .index .., 0, h | .slice .., 0, h | .call .., 0, h | .method .., 0, h
  | .spread .., 0, h | .assign .., 0, h | .seq .., 0, h => by simp [depth] at h
  | .number _, d + 1, _ => by simp only [eval, Eval.eval]
  | .strLit _, d + 1, _ => by simp only [eval, Eval.eval]
  | .null, d + 1, _ => by simp only [eval, Eval.eval]
  | .var _, d + 1, _ => by simp only [eval, Eval.eval]; rfl
  | .spread _, d + 1, _ => by simp only [eval, Eval.eval]
  | .unary op e, d + 1, h => by
    simp only [depth] at h; have h0 := eval_eq X e d (by omega); simp only [eval, Eval.eval, h0]; try rfl
  | .binary a op b, d + 1, h => by
    simp only [depth] at h; have h0 := eval_eq X a d (by omega); have h1 := eval_eq X b d (by omega); simp only [eval, Eval.eval, h0, h1]; try rfl
  | .prop t _, d + 1, h => by
    simp only [depth] at h; have h0 := eval_eq X t d (by omega); simp only [eval, Eval.eval, h0]; try rfl
  | .safeProp t _, d + 1, h => by
    simp only [depth] at h; have h0 := eval_eq X t d (by omega); simp only [eval, Eval.eval, h0]; try rfl
  | .safeCall t _ args, d + 1, h => by
    simp only [depth] at h; have h0 := eval_eq X t d (by omega); have h1 := legacy_args_eq X args d (by omega); simp only [eval, Eval.eval, h0, h1]; try rfl
  | .array items, d + 1, h => by
    simp only [depth] at h; have h0 := args_eq X items d (by omega); simp only [eval, Eval.eval, h0]; try rfl
  | .object ms, d + 1, h => by
    simp only [depth] at h; have h0 := members_eq X ms d (by omega); simp only [eval, Eval.eval, h0]; try rfl
  | .cast e _, d + 1, h => by
    simp only [depth] at h; have h0 := eval_eq X e d (by omega); simp only [eval, Eval.eval, h0]; try rfl
  | .index t i, d + 1, h => by
    simp only [depth] at h; have h0 := eval_eq X t d (by omega); have h1 := eval_eq X i d (by omega); simp only [eval, Eval.eval, h0, h1]; try rfl
  | .slice t a b, d + 1, h => by
    simp only [depth] at h; have h0 := eval_eq X t d (by omega); have h1 := opt_eq X a d (by omega); have h2 := opt_eq X b d (by omega); simp only [eval, Eval.eval, h0, h1, h2]; try rfl
  | .call _ args, d + 1, h => by
    simp only [depth] at h; have h0 := args_eq X args d (by omega); simp only [eval, Eval.eval, h0]; try rfl
  | .method t _ args _, d + 1, h => by
    simp only [depth] at h; have h0 := eval_eq X t d (by omega); have h1 := legacy_args_eq X args d (by omega); simp only [eval, Eval.eval, h0, h1]; try rfl
  | .assign _ e, d + 1, h => by
    simp only [depth] at h; have h0 := eval_eq X e d (by omega); simp only [eval, Eval.eval, h0]; try rfl
  | .seq es, d + 1, h => by
    simp only [depth] at h; have h0 := args_eq X es d (by omega); simp only [eval, Eval.eval, h0]; try rfl
theorem args_eq (X : Ext) : (es : List Expr) → ∀ d, depthAll es ≤ d → argsOf X es d = Eval.argsOf X es
  | [], d, _ => by simp only [argsOf, Eval.argsOf]
  | .spread e :: rest, d, h => by
    simp only [depthAll, depth] at h
    have h0 := eval_eq X e d (by omega); have h1 := args_eq X rest d (by omega)
    have h2 : d ≠ 0 := by omega
    simp only [argsOf, Eval.argsOf, h0, h1, take, if_neg h2]
  | .strLit s :: rest, d, h => by
    simp only [depthAll, depth] at h
    have h1 := args_eq X rest d (by omega)
    have h2 : d ≠ 0 := by omega
    simp only [argsOf, Eval.argsOf, h1, take, if_neg h2]
  | .number x0 :: rest, d, h => by
    simp only [depthAll] at h
    have h0 := eval_eq X (.number x0) d (by omega); have h1 := args_eq X rest d (by omega)
    simp only [argsOf, Eval.argsOf, h0, h1]
  | .null :: rest, d, h => by
    simp only [depthAll] at h
    have h0 := eval_eq X (.null) d (by omega); have h1 := args_eq X rest d (by omega)
    simp only [argsOf, Eval.argsOf, h0, h1]
  | .var x0 :: rest, d, h => by
    simp only [depthAll] at h
    have h0 := eval_eq X (.var x0) d (by omega); have h1 := args_eq X rest d (by omega)
    simp only [argsOf, Eval.argsOf, h0, h1]
  | .unary x0 x1 :: rest, d, h => by
    simp only [depthAll] at h
    have h0 := eval_eq X (.unary x0 x1) d (by omega); have h1 := args_eq X rest d (by omega)
    simp only [argsOf, Eval.argsOf, h0, h1]
  | .binary x0 x1 x2 :: rest, d, h => by
    simp only [depthAll] at h
    have h0 := eval_eq X (.binary x0 x1 x2) d (by omega); have h1 := args_eq X rest d (by omega)
    simp only [argsOf, Eval.argsOf, h0, h1]
  | .prop x0 x1 :: rest, d, h => by
    simp only [depthAll] at h
    have h0 := eval_eq X (.prop x0 x1) d (by omega); have h1 := args_eq X rest d (by omega)
    simp only [argsOf, Eval.argsOf, h0, h1]
  | .safeProp x0 x1 :: rest, d, h => by
    simp only [depthAll] at h
    have h0 := eval_eq X (.safeProp x0 x1) d (by omega); have h1 := args_eq X rest d (by omega)
    simp only [argsOf, Eval.argsOf, h0, h1]
  | .safeCall x0 x1 x2 :: rest, d, h => by
    simp only [depthAll] at h
    have h0 := eval_eq X (.safeCall x0 x1 x2) d (by omega); have h1 := args_eq X rest d (by omega)
    simp only [argsOf, Eval.argsOf, h0, h1]
  | .array x0 :: rest, d, h => by
    simp only [depthAll] at h
    have h0 := eval_eq X (.array x0) d (by omega); have h1 := args_eq X rest d (by omega)
    simp only [argsOf, Eval.argsOf, h0, h1]
  | .object x0 :: rest, d, h => by
    simp only [depthAll] at h
    have h0 := eval_eq X (.object x0) d (by omega); have h1 := args_eq X rest d (by omega)
    simp only [argsOf, Eval.argsOf, h0, h1]
  | .cast x0 x1 :: rest, d, h => by
    simp only [depthAll] at h
    have h0 := eval_eq X (.cast x0 x1) d (by omega); have h1 := args_eq X rest d (by omega)
    simp only [argsOf, Eval.argsOf, h0, h1]
  | .index x0 x1 :: rest, d, h => by
    simp only [depthAll] at h
    have h0 := eval_eq X (.index x0 x1) d (by omega); have h1 := args_eq X rest d (by omega)
    simp only [argsOf, Eval.argsOf, h0, h1]
  | .slice x0 x1 x2 :: rest, d, h => by
    simp only [depthAll] at h
    have h0 := eval_eq X (.slice x0 x1 x2) d (by omega); have h1 := args_eq X rest d (by omega)
    simp only [argsOf, Eval.argsOf, h0, h1]
  | .call x0 x1 :: rest, d, h => by
    simp only [depthAll] at h
    have h0 := eval_eq X (.call x0 x1) d (by omega); have h1 := args_eq X rest d (by omega)
    simp only [argsOf, Eval.argsOf, h0, h1]
  | .method x0 x1 x2 x3 :: rest, d, h => by
    simp only [depthAll] at h
    have h0 := eval_eq X (.method x0 x1 x2 x3) d (by omega); have h1 := args_eq X rest d (by omega)
    simp only [argsOf, Eval.argsOf, h0, h1]
  | .assign x0 x1 :: rest, d, h => by
    simp only [depthAll] at h
    have h0 := eval_eq X (.assign x0 x1) d (by omega); have h1 := args_eq X rest d (by omega)
    simp only [argsOf, Eval.argsOf, h0, h1]
  | .seq x0 :: rest, d, h => by
    simp only [depthAll] at h
    have h0 := eval_eq X (.seq x0) d (by omega); have h1 := args_eq X rest d (by omega)
    simp only [argsOf, Eval.argsOf, h0, h1]
theorem members_eq (X : Ext) : (ms : List (Str × Expr)) → ∀ d, depthMembers ms ≤ d → membersOf X ms d = Eval.membersOf X ms
  | [], d, _ => by simp only [membersOf, Eval.membersOf]
  | (k, e) :: rest, d, h => by
    simp only [depthMembers] at h
    have h0 := eval_eq X e d (by omega); have h1 := members_eq X rest d (by omega)
    simp only [membersOf, Eval.membersOf, h0, h1]
theorem opt_eq (X : Ext) : (o : Option Expr) → ∀ d, depthOpt o ≤ d → optOf X o d = Eval.optOf X o
  | none, d, _ => by simp only [optOf, Eval.optOf]
  | some e, d, h => by
    simp only [depthOpt] at h
    have h0 := eval_eq X e d (by omega)
    simp only [optOf, Eval.optOf, h0]
end

mutual
theorem assignments_eq (X : Ext) (d : Nat) : (e : Expr) → depth e ≤ d → assignments X d e = Eval.assignments X e
  | .assign _ e, h => by
    simp only [depth] at h
    have h0 := eval_eq X e d (by omega)
    simp only [assignments, Eval.assignments, h0]
  | .seq es, h => by
    simp only [depth] at h
    have h0 := assignmentsSeq_eq X d es (by omega)
    simp only [assignments, Eval.assignments, h0]
  | .number x0, h => by simp only [assignments, Eval.assignments, eval_eq X (.number x0) d h]
  | .strLit x0, h => by simp only [assignments, Eval.assignments, eval_eq X (.strLit x0) d h]
  | .null, h => by simp only [assignments, Eval.assignments, eval_eq X .null d h]
  | .var x0, h => by simp only [assignments, Eval.assignments, eval_eq X (.var x0) d h]
  | .unary x0 x1, h => by simp only [assignments, Eval.assignments, eval_eq X (.unary x0 x1) d h]
  | .binary x0 x1 x2, h => by simp only [assignments, Eval.assignments, eval_eq X (.binary x0 x1 x2) d h]
  | .prop x0 x1, h => by simp only [assignments, Eval.assignments, eval_eq X (.prop x0 x1) d h]
  | .safeProp x0 x1, h => by simp only [assignments, Eval.assignments, eval_eq X (.safeProp x0 x1) d h]
  | .safeCall x0 x1 x2, h => by simp only [assignments, Eval.assignments, eval_eq X (.safeCall x0 x1 x2) d h]
  | .call x0 x1, h => by simp only [assignments, Eval.assignments, eval_eq X (.call x0 x1) d h]
  | .spread x0, h => by simp only [assignments, Eval.assignments, eval_eq X (.spread x0) d h]
  | .array x0, h => by simp only [assignments, Eval.assignments, eval_eq X (.array x0) d h]
  | .object x0, h => by simp only [assignments, Eval.assignments, eval_eq X (.object x0) d h]
  | .method x0 x1 x2 x3, h => by simp only [assignments, Eval.assignments, eval_eq X (.method x0 x1 x2 x3) d h]
  | .index x0 x1, h => by simp only [assignments, Eval.assignments, eval_eq X (.index x0 x1) d h]
  | .slice x0 x1 x2, h => by simp only [assignments, Eval.assignments, eval_eq X (.slice x0 x1 x2) d h]
  | .cast x0 x1, h => by simp only [assignments, Eval.assignments, eval_eq X (.cast x0 x1) d h]
theorem assignmentsSeq_eq (X : Ext) (d : Nat) : (es : List Expr) → depthAll es ≤ d → assignmentsSeq X d es = Eval.assignmentsSeq X es
  | [], _ => by simp only [assignmentsSeq, Eval.assignmentsSeq]
  | e :: rest, h => by
    simp only [depthAll] at h
    have h0 := assignments_eq X d e (by omega); have h1 := assignmentsSeq_eq X d rest (by omega)
    simp only [assignmentsSeq, Eval.assignmentsSeq, h0, h1]
end

theorem bind_congr {α β : Type} {r : Res α} {k k' : α → Res β} (h : ∀ a, r = .ok a → k a = k' a) :
    (r >>= k) = (r >>= k') := by
  cases r with
  | ok a => exact h a rfl
  | error f => rfl

/-- C147, enough stack: a stack that is enough for parsing (C146) and for as many nested calls of the evaluator as the
tree is deep gives the result of an unlimited one, for every way to evaluate a text. -/
theorem C147_enough (X : Ext) (d : Nat) (text : Str) (hp : 13 * (openings text + 1) ≤ d)
    (he : ∀ e, Lib.parse text = .ok e → depth e ≤ d) :
    evaluate X d text = Lib.evaluate X text ∧
    (∀ vars, evaluateWith X d text vars = Lib.evaluateWith X text vars) ∧
    (∀ reg vars, evaluateWithCustom X d reg text vars = Lib.evaluateWithCustom X reg text vars) ∧
    (∀ vars, evaluateWithAssignments X d text vars = Lib.evaluateWithAssignments X text vars) ∧
    (∀ vars, evaluateWithAssignmentsAndContext X d text vars = Lib.evaluateWithAssignmentsCtx X text vars) := by
  have e := C146_enough d text hp
  refine ⟨?_, fun vars => ?_, fun reg vars => ?_, fun vars => ?_, fun vars => ?_⟩
  · unfold evaluate Lib.evaluate evalPlain
    rw [e]
    exact bind_congr fun t ht => by rw [eval_eq X t d (he t ht)]
  · unfold evaluateWith Lib.evaluateWith evalVars
    rw [e]
    exact bind_congr fun t ht => by rw [eval_eq X t d (he t ht)]
  · unfold evaluateWithCustom Lib.evaluateWithCustom evalCustom
    rw [e]
    exact bind_congr fun t ht => by rw [eval_eq X t d (he t ht)]
  · unfold evaluateWithAssignments Lib.evaluateWithAssignments evalAssign
    rw [e]
    exact bind_congr fun t ht => by rw [assignments_eq X d t (he t ht)]
  · unfold evaluateWithAssignmentsAndContext Lib.evaluateWithAssignmentsCtx evalAssignCtx
    rw [e]
    exact bind_congr fun t ht => by rw [assignments_eq X d t (he t ht)]

theorem openings_le (s : Str) : openings s ≤ s.length := List.countP_le_length

/-- C147, by the length of the text: thirteen calls for each character, and thirteen more, are enough. -/
theorem C147_length (X : Ext) (d : Nat) (text : Str) (h : 13 * (text.length + 1) ≤ d) :
    evaluate X d text = Lib.evaluate X text ∧
    (∀ vars, evaluateWith X d text vars = Lib.evaluateWith X text vars) ∧
    (∀ reg vars, evaluateWithCustom X d reg text vars = Lib.evaluateWithCustom X reg text vars) ∧
    (∀ vars, evaluateWithAssignments X d text vars = Lib.evaluateWithAssignments X text vars) ∧
    (∀ vars, evaluateWithAssignmentsAndContext X d text vars = Lib.evaluateWithAssignmentsCtx X text vars) := by
  have := openings_le text
  refine C147_enough X d text (by omega) fun e he => ?_
  have := Sizes.C140_tree text e he
  omega

/-- The hypothesis of `C147_length`, and what it gives there. -/
example (X : Ext) : 13 * (c!"[1, 2].map(:x * 2)".length + 1) ≤ 247 ∧
    evaluate X 247 c!"(1 + 2) * 3" = .ok (.num (F64.ofNat 9)) := ⟨by decide, by kernel_rfl⟩

/-! ### Stack that is needed -/

namespace Spec

mutual
/-- Expressions that evaluate all of their parts: no calls, methods, slices and objects. -/
def plain : Expr → Bool
  | .number _ => true
  | .strLit _ => true
  | .null => true
  | .var _ => true
  | .unary _ e => plain e
  | .binary l _ r => plain l && plain r
  | .prop t _ => plain t
  | .safeProp t _ => plain t
  | .cast e _ => plain e
  | .index t i => plain t && plain i
  | .array items => plainAll items
  | _ => false
/-- Those of a list. -/
def plainAll : List Expr → Bool
  | [] => true
  | e :: es => plain e && plainAll es
end

end Spec

/-- What a part gives on a stack for `d` calls, if it gives `v` on an unlimited one and needs `k`. -/
def cut {α : Type} (d k : Nat) (v : α) : Res α := if d < k then .error exhausted else .ok v

theorem bind_ok {α β : Type} {r : Res α} {k : α → Res β} {v : β} (h : (r >>= k) = .ok v) : ∃ a, r = .ok a ∧ k a = .ok v := by
  cases r with
  | ok a => exact ⟨a, rfl, h⟩
  | error f => cases h

theorem cut_bind {α β : Type} {d k m : Nat} {a : α} {v : β} {f : α → Res β} (hf : f a = cut d m v) :
    ((cut d k a : Res α) >>= f) = cut d (max k m) v := by
  unfold cut at *
  split
  · rw [if_pos (by omega)]; rfl
  · show f a = _
    rw [hf]
    split
    · rw [if_pos (by omega)]
    · rw [if_neg (by omega)]

theorem cut_bind_ok {α β : Type} {d k : Nat} {a : α} {v : β} {f : α → Res β} (hf : f a = .ok v) :
    ((cut d k a : Res α) >>= f) = cut d k v := by
  unfold cut
  split
  · rfl
  · exact hf

theorem cut_succ {α : Type} {d k : Nat} {v : α} : (cut (d + 1) (k + 1) v : Res α) = cut d k v := by
  unfold cut; simp

theorem cut_zero {α : Type} {k : Nat} {v : α} : (cut 0 (k + 1) v : Res α) = .error exhausted := by
  unfold cut; simp

theorem cut_one {α : Type} {d : Nat} {v : α} : (cut (d + 1) 1 v : Res α) = .ok v := by
  unfold cut; simp

mutual
theorem exact_eval (X : Ext) (r : Option Registry) (env : Env) : (e : Expr) → ∀ (d : Nat) (v : Value), plain e = true →
    Eval.eval X e r env = .ok v → eval X e d r env = cut d (depth e) v
  | .number _, 0, v, _, h | .strLit _, 0, v, _, h | .null, 0, v, _, h | .var _, 0, v, _, h | .unary .., 0, v, _, h
  | .binary .., 0, v, _, h | .prop .., 0, v, _, h | .safeProp .., 0, v, _, h | .cast .., 0, v, _, h
  | .index .., 0, v, _, h | .array .., 0, v, _, h => by simp only [depth, eval]; exact cut_zero.symm
  | .number _, d + 1, v, _, h | .strLit _, d + 1, v, _, h | .null, d + 1, v, _, h => by
    simp only [depth, eval, Eval.eval] at *
    rw [cut_one]; exact h
  | .var x, d + 1, v, _, h => by
    have : eval X (.var x) (d + 1) r env = Eval.eval X (.var x) r env := by
      rw [eval_eq X (.var x) (d + 1) (by simp [depth])]
    rw [this, h, depth, cut_one]
  | .unary op e, d + 1, v, hp, h => by
    simp only [plain] at hp
    simp only [eval, Eval.eval, depth] at *
    obtain ⟨a, h1, h2⟩ := bind_ok h
    rw [exact_eval X r env e d a hp h1, cut_succ]
    exact cut_bind_ok h2
  | .binary a op b, d + 1, v, hp, h => by
    simp only [plain, Bool.and_eq_true] at hp
    simp only [eval, Eval.eval, depth] at *
    obtain ⟨x, h1, h2⟩ := bind_ok h
    obtain ⟨y, h3, h4⟩ := bind_ok h2
    rw [exact_eval X r env a d x hp.1 h1, exact_eval X r env b d y hp.2 h3, cut_succ]
    exact cut_bind (cut_bind_ok h4)
  | .prop e _, d + 1, v, hp, h => by
    simp only [plain] at hp
    simp only [eval, Eval.eval, depth] at *
    obtain ⟨a, h1, h2⟩ := bind_ok h
    rw [exact_eval X r env e d a hp h1, cut_succ]
    exact cut_bind_ok h2
  | .safeProp e _, d + 1, v, hp, h => by
    simp only [plain] at hp
    simp only [eval, Eval.eval, depth] at *
    obtain ⟨a, h1, h2⟩ := bind_ok h
    rw [exact_eval X r env e d a hp h1, cut_succ]
    exact cut_bind_ok h2
  | .cast e _, d + 1, v, hp, h => by
    simp only [plain] at hp
    simp only [eval, Eval.eval, depth] at *
    obtain ⟨a, h1, h2⟩ := bind_ok h
    rw [exact_eval X r env e d a hp h1, cut_succ]
    exact cut_bind_ok h2
  | .index a b, d + 1, v, hp, h => by
    simp only [plain, Bool.and_eq_true] at hp
    simp only [eval, Eval.eval, depth] at *
    obtain ⟨x, h1, h2⟩ := bind_ok h
    obtain ⟨y, h3, h4⟩ := bind_ok h2
    rw [exact_eval X r env a d x hp.1 h1, exact_eval X r env b d y hp.2 h3, cut_succ]
    exact cut_bind (cut_bind_ok h4)
  | .array items, d + 1, v, hp, h => by
    simp only [plain] at hp
    simp only [eval, Eval.eval, depth] at *
    obtain ⟨vs, h1, h2⟩ := bind_ok h
    rw [exact_elements X r env items d vs hp h1, cut_succ]
    exact cut_bind_ok h2
theorem exact_elements (X : Ext) (r : Option Registry) (env : Env) : (es : List Expr) → ∀ (d : Nat) (vs : List Value),
    plainAll es = true → elements r env (Eval.argsOf X es) = .ok vs →
    elements r env (argsOf X es d) = cut d (depthAll es) vs
  | [], d, vs, _, h => by
    simp only [argsOf, Eval.argsOf, elements, depthAll] at *
    rw [h]; unfold cut; simp
  | e :: rest, d, vs, hp, h => by
    simp only [plainAll, Bool.and_eq_true] at hp
    have key : ∀ (run run' : Den) (a b : Option Den) (s t : Option Str),
        Eval.argsOf X (e :: rest) = ⟨run, a, s⟩ :: Eval.argsOf X rest → argsOf X (e :: rest) d = ⟨run', b, t⟩ :: argsOf X rest d →
        run r env = Eval.eval X e r env → (∀ v, run r env = .ok v → run' r env = cut d (depth e) v) →
        elements r env (argsOf X (e :: rest) d) = cut d (depthAll (e :: rest)) vs := by
      intro run run' a b s t h1 h2 _ h4
      rw [h1] at h; rw [h2]
      simp only [elements, depthAll] at *
      obtain ⟨v, h5, h6⟩ := bind_ok h
      obtain ⟨ws, h7, h8⟩ := bind_ok h6
      rw [h4 v h5, exact_elements X r env rest d ws hp.2 h7]
      exact cut_bind (cut_bind_ok h8)
    have sub : ∀ v, Eval.eval X e r env = .ok v → eval X e d r env = cut d (depth e) v :=
      fun v hv => exact_eval X r env e d v hp.1 hv
    cases e with
    | strLit s =>
      refine key _ _ _ _ _ _ (by rw [Eval.argsOf]) (by rw [argsOf]) (by rw [Eval.eval]) ?_
      intro v hv
      cases hv
      rw [depth]
      unfold take cut
      by_cases hd : d = 0
      · rw [if_pos hd, if_pos (by omega)]
      · rw [if_neg hd, if_neg (by omega)]
    | spread e => simp [plain] at hp
    | _ => exact key _ _ _ _ _ _ (by rw [Eval.argsOf]; all_goals simp) (by rw [argsOf]; all_goals simp) rfl sub
end

/-- C147, exactly: an expression that evaluates all its parts, and has a value, takes as many nested calls of the
evaluator as it is deep: with fewer the stack is exhausted. -/
theorem C147_exact (X : Ext) (e : Expr) (r : Option Registry) (env : Env) (v : Value) (d : Nat) (hp : plain e = true)
    (h : Eval.eval X e r env = .ok v) :
    eval X e d r env = if d < depth e then .error exhausted else .ok v := exact_eval X r env e d v hp h

/-- The hypotheses of `C147_exact`. -/
example (X : Ext) : plain (.binary (.unary .minus (.number (F64.ofNat 2))) .add (.index (.array [.number (F64.ofNat 5)]) (.number (.zero false)))) = true ∧
    Eval.eval X (.binary (.unary .minus (.number (F64.ofNat 2))) .add (.index (.array [.number (F64.ofNat 5)]) (.number (.zero false)))) none Env.empty =
      .ok (.num (F64.ofNat 3)) := ⟨by decide, by kernel_rfl⟩

theorem products_plain (n : Nat) : plain (productsSrc n).toExpr = true := by
  induction n with
  | zero => rfl
  | succ n ih => simp [productsSrc, Src.toExpr, plain, ih]

theorem products_eval (X : Ext) (n : Nat) : ∃ x, Eval.eval X (productsSrc n).toExpr none Env.empty = .ok (.num x) := by
  induction n with
  | zero => exact ⟨_, rfl⟩
  | succ n ih =>
    obtain ⟨x, hx⟩ := ih
    refine ⟨F64.mul x (F64.ofNat 1), ?_⟩
    simp only [productsSrc, Src.toExpr, Eval.eval, hx]
    rfl

/-- C147: no stack is large enough for every text, not even for texts that do not nest: `1*1*…*1` with `n` operators is
parsed on a stack for thirteen calls (C146), and evaluating it takes `n + 1`. -/
theorem C147_products (X : Ext) (n d : Nat) (hd : 13 ≤ d) :
    ∃ v, Lib.evaluate X (products n) = .ok v ∧
      evaluate X d (products n) = if d < n + 1 then .error exhausted else .ok v := by
  obtain ⟨x, hx⟩ := products_eval X n
  have h1 : Lib.parse (products n) = .ok (productsSrc n).toExpr :=
    Sizes.parse_to (e := productsSrc n) (es := []) (products_spell n)
  refine ⟨.num x, ?_, ?_⟩
  · unfold Lib.evaluate evalPlain
    rw [h1]; exact hx
  · unfold evaluate
    rw [C146_enough d _ (by rw [openings_products]; omega), h1]
    have := C147_exact X _ none Env.empty _ d (products_plain n) hx
    rw [products_depth] at this
    exact this

/-- The hypothesis of `C147_products`, with a stack that is too small. -/
example : 13 ≤ 20 ∧ 20 < 30 + 1 := by decide

/-- C147: evaluating an expression gives, on every stack, what it gives on an unlimited one, a value or an error, or
exhausts the stack. -/
theorem C147_same (X : Ext) (e : Expr) (r : Option Registry) (env : Env) (d : Nat) :
    eval X e d r env = .error exhausted ∨ eval X e d r env = Eval.eval X e r env := by
  have h := eval_le X e d (max d (depth e)) (by omega) r env
  rw [eval_eq X e (max d (depth e)) (by omega)] at h
  exact h

/-- Both happen: `-2 + 3`, and an error that is met before the stack is exhausted, `x + --1`. -/
example (X : Ext) :
    eval X (.binary (.unary .minus (.number (F64.ofNat 2))) .add (.number (F64.ofNat 3))) 2 none Env.empty = .error exhausted ∧
    eval X (.binary (.var c!"x") .add (.unary .minus (.unary .minus (.number (F64.ofNat 1))))) 2 none Env.empty =
      Eval.eval X (.binary (.var c!"x") .add (.unary .minus (.unary .minus (.number (F64.ofNat 1))))) none Env.empty ∧
    Eval.eval X (.binary (.var c!"x") .add (.unary .minus (.unary .minus (.number (F64.ofNat 1))))) none Env.empty ≠ .error exhausted := by
  refine ⟨by kernel_rfl, by kernel_rfl, ?_⟩
  have : Eval.eval X (.binary (.var c!"x") .add (.unary .minus (.unary .minus (.number (F64.ofNat 1))))) none Env.empty =
      Eval.eval X (.var c!"x") none Env.empty := by kernel_rfl
  rw [this]
  simp only [Eval.eval]
  intro h
  cases h

/-- C147, more stack: it never changes a result. -/
theorem C147_more (X : Ext) (e : Expr) (r : Option Registry) (env : Env) (d d' : Nat) (hd : d ≤ d')
    (h : eval X e d r env ≠ .error exhausted) : eval X e d' r env = eval X e d r env :=
  ((eval_le X e d d' hd r env).resolve_left h).symm

/-- The hypotheses of `C147_more`: `SUMIF([1, 2], "<2")`, a criterion whose failure would be dropped, in three calls. -/
example (X : Ext) : eval X (.call c!"SUMIF" [.array [.number (F64.ofNat 1), .number (F64.ofNat 2)], .strLit c!"<2"]) 3 none Env.empty =
    .ok (.num (F64.ofNat 1)) ∧
    eval X (.call c!"SUMIF" [.array [.number (F64.ofNat 1), .number (F64.ofNat 2)], .strLit c!"<2"]) 2 none Env.empty =
    .error exhausted := ⟨by kernel_rfl, by kernel_rfl⟩

theorem short.after {α β : Type} {a a' : Res α} {k k' : α → Res β} (h : a = a' ∨ a = .error exhausted)
    (hk : ∀ v, short.rel (k v) (k' v)) : short.rel (a >>= k) (a' >>= k') := short.bind h.symm hk

/-- C147, for texts: whatever the stack, every way to evaluate a text gives what it gives on an unlimited one, or exhausts
the stack. -/
theorem C147_texts (X : Ext) (d : Nat) (text : Str) :
    (evaluate X d text = .error exhausted ∨ evaluate X d text = Lib.evaluate X text) ∧
    (∀ vars, evaluateWith X d text vars = .error exhausted ∨ evaluateWith X d text vars = Lib.evaluateWith X text vars) ∧
    (∀ reg vars, evaluateWithCustom X d reg text vars = .error exhausted ∨
      evaluateWithCustom X d reg text vars = Lib.evaluateWithCustom X reg text vars) ∧
    (∀ vars, evaluateWithAssignments X d text vars = .error exhausted ∨
      evaluateWithAssignments X d text vars = Lib.evaluateWithAssignments X text vars) ∧
    (∀ vars, evaluateWithAssignmentsAndContext X d text vars = .error exhausted ∨
      evaluateWithAssignmentsAndContext X d text vars = Lib.evaluateWithAssignmentsCtx X text vars) := by
  have hp := C146_same d text
  have ha : ∀ e vars, short.rel (assignments X d e vars) (Eval.assignments X e vars) := by
    intro e vars
    have h := assignments_le X (d := d) (d' := max d (depth e)) (by omega) e vars
    rw [assignments_eq X (max d (depth e)) e (by omega)] at h
    exact h
  refine ⟨?_, fun vars => ?_, fun reg vars => ?_, fun vars => ?_, fun vars => ?_⟩
  · unfold evaluate Lib.evaluate evalPlain
    exact short.after hp fun e => C147_same X e none Env.empty d
  · unfold evaluateWith Lib.evaluateWith evalVars
    exact short.after hp fun e => C147_same X e none vars d
  · unfold evaluateWithCustom Lib.evaluateWithCustom evalCustom
    exact short.after hp fun e => C147_same X e (some reg) vars d
  · unfold evaluateWithAssignments Lib.evaluateWithAssignments evalAssign
    exact short.after hp fun e => short.bind (ha e vars) fun _ => short.refl _
  · unfold evaluateWithAssignmentsAndContext Lib.evaluateWithAssignmentsCtx evalAssignCtx
    exact short.after hp fun e => ha e vars

/-- Both happen for one text. -/
example (X : Ext) : evaluate X 13 c!"1*1*1" = .ok (.num (F64.ofNat 1)) ∧ evaluate X 12 c!"1*1*1" = .error exhausted :=
  ⟨by kernel_rfl, by kernel_rfl⟩

/-! ### Values are deeper than the stack that makes them -/

/-- The number `1` inside `n` arrays of one element. -/
def Spec.inside : Nat → Value
  | 0 => .num (F64.ofNat 1)
  | n + 1 => .arr [inside n]

/-- The variable `xs` with a value, and nothing else. -/
def Spec.xsIs (v : Value) : Env := fun m => if m = c!"xs" then some v else none

theorem wrap_loop (X : Ext) (items : List Value) : ∀ (k : Nat) (env : Env),
    Loop.reduce (Eval.eval X (.array [.var c!"acc"]) none) c!"x" c!"acc" env (inside k) items = .ok (inside (k + items.length)) := by
  induction items with
  | nil => intro k env; rfl
  | cons it rest ih =>
    intro k env
    have h : Eval.eval X (.array [.var c!"acc"]) none ((env.insert c!"x" it).insert c!"acc" (inside k)) = .ok (inside (k + 1)) := by
      rfl
    unfold Loop.reduce
    simp only [h]
    show Loop.reduce _ _ _ _ (inside (k + 1)) rest = _
    rw [ih]
    congr 2
    simp only [List.length_cons]; omega

/-- C147: there is no such bound for what evaluation makes. One text of twenty characters, evaluated in thirty-nine nested
calls of the parser and the evaluator, gives for flat data of `n` elements a value that is nested `n` arrays deep. -/
theorem C147_values (X : Ext) (items : List Value) :
    evaluateWith X 39 c!"REDUCE(:xs,[:acc],1)" (xsIs (.arr items)) = .ok (inside items.length) := by
  have hp : Lib.parse c!"REDUCE(:xs,[:acc],1)" = .ok (.call c!"REDUCE" [.var c!"xs", .array [.var c!"acc"], .number (F64.ofNat 1)]) := by
    kernel_rfl
  rw [(C147_enough X 39 c!"REDUCE(:xs,[:acc],1)" (by decide) fun e he => by
    rw [hp] at he; cases he; decide).2.1]
  unfold Lib.evaluateWith evalVars
  rw [hp]
  have h := wrap_loop X items 0 (xsIs (.arr items))
  rw [Nat.zero_add] at h
  exact h

/-- Three numbers become three levels; and the deepest part of the work was the parser's. -/
example (X : Ext) : evaluateWith X 39 c!"REDUCE(:xs,[:acc],1)" (xsIs (.arr [.null, .null, .null])) =
    .ok (.arr [.arr [.arr [.num (F64.ofNat 1)]]]) := C147_values X [.null, .null, .null]

mutual
/-- How many nested calls a value needs to be copied: one, and for an array those of its deepest element. -/
def Spec.levels : Value → Nat
  | .arr items => levelsAll items + 1
  | _ => 1
/-- The greatest of the elements' numbers. -/
def Spec.levelsAll : List Value → Nat
  | [] => 0
  | v :: vs => max (levels v) (levelsAll vs)
end

mutual
theorem copy_exact : (v : Value) → ∀ d, copy v d = if d < levels v then .error exhausted else .ok v
  | .arr items, d => by
    cases d with
    | zero => simp [copy, take, levels]
    | succ d =>
      have h := copyAll_exact items d
      simp only [copy, take, levels, Nat.add_sub_cancel, h]
      by_cases g : d < levelsAll items
      · simp [g]
      · simp [g]
  | .num _, d | .bool _, d | .str _, d | .null, d | .cur _, d | .dt _, d | .json _, d => by
    cases d <;> simp [copy, take, levels]
theorem copyAll_exact : (vs : List Value) → ∀ d, copyAll vs d = if d < levelsAll vs then .error exhausted else .ok vs
  | [], d => by simp [copyAll, levelsAll]
  | v :: vs, d => by
    have h1 := copy_exact v d
    have h2 := copyAll_exact vs d
    simp only [copyAll, levelsAll, h1, h2]
    by_cases g1 : d < levels v
    · simp [g1]; rfl
    · by_cases g2 : d < levelsAll vs
      · simp [g1, g2]; rfl
      · simp [g1, g2]; rfl
end

/-- C147: copying a value takes as many nested calls as it has levels, and with fewer exhausts the stack. -/
theorem C147_copy (v : Value) (d : Nat) : copy v d = if d < levels v then .error exhausted else .ok v := copy_exact v d

theorem inside_levels (n : Nat) : levels (inside n) = n + 1 := by
  induction n with
  | zero => rfl
  | succ n ih => simp [inside, levels, levelsAll, ih]

/-- C147: so whatever stack there is, flat data can be given with which a text that parses and evaluates in thirty-nine
nested calls makes a value that cannot be read from a variable again. -/
theorem C147_copy_fails (X : Ext) (d : Nat) (items : List Value) (h : d ≤ items.length) :
    ∃ v, evaluateWith X 39 c!"REDUCE(:xs,[:acc],1)" (xsIs (.arr items)) = .ok v ∧ copy v d = .error exhausted := by
  refine ⟨_, C147_values X items, ?_⟩
  rw [C147_copy, inside_levels, if_pos (by omega)]

/-- The hypothesis of `C147_copy_fails`, and a value that is copied. -/
example : 3 ≤ [Value.null, .null, .null].length ∧ copy (.arr [.null, .arr [.bool true]]) 3 = .ok (.arr [.null, .arr [.bool true]]) ∧
    copy (.arr [.null, .arr [.bool true]]) 2 = .error exhausted := ⟨by decide, by kernel_rfl, by kernel_rfl⟩

end Stack
