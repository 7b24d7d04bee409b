import Verif.Model.Expr
/-! The lock around the global registry: `std::sync::RwLock` as used by `src/lib.rs:37-39,122-154` and by both evaluators
(`src/runtime/evaluator.rs:330-354`, `src/runtime/evaluation/core.rs:655-676`). -/

namespace Locks

/-- What a thread does to the lock: take and drop a read guard, take and drop a write guard. -/
inductive Act where
  | rd
  | unrd
  | wr
  | unwr
deriving DecidableEq, Repr

/-- The expressions directly inside an expression. -/
def subs : Expr → List Expr
  | .number _ | .strLit _ | .null | .var _ => []
  | .unary _ e | .prop e _ | .safeProp e _ | .spread e | .cast e _ | .assign _ e => [e]
  | .binary a _ b | .index a b => [a, b]
  | .call _ es | .array es | .seq es => es
  | .object ms => ms.map (·.2)
  | .safeCall t _ es | .method t _ es _ => t :: es
  | .slice t a b => t :: (a.toList ++ b.toList)

mutual
/-- What evaluating an expression can do to the lock, `may n` saying that a function called `n` may be registered at that time. A call takes a read
guard to ask whether the name is registered (`src/runtime/evaluator.rs:331-333`). If it is, the guard is kept while the arguments are evaluated
and the function runs (`:334-351`); otherwise it is dropped first (`:354`) and the call goes to the builtins. Some calls (`TRUE`, `c ? a : b`, and all those made without a
registry) take no guard. Which arguments are evaluated, how often (lambdas) and whether an error ends the evaluation early is left open: the
relation contains every sequence the code can produce. Custom functions themselves do not touch the lock. -/
inductive Trace (may : Str → Prop) : Expr → List Act → Prop
  | noGuard {e tr} : Traces may (subs e) tr → Trace may e tr
  | builtin {n args tr} : Traces may args tr → Trace may (.call n args) (.rd :: .unrd :: tr)
  | custom {n args tr} : may n → Traces may args tr → Trace may (.call n args) (.rd :: (tr ++ [.unrd]))
/-- Evaluating some of the expressions, one after the other. -/
inductive Traces (may : Str → Prop) : List Expr → List Act → Prop
  | nil {es} : Traces may es []
  | cons {es e t1 t2} : e ∈ es → Trace may e t1 → Traces may es t2 → Traces may es (t1 ++ t2)
end

/-- What `register_function` and `unregister_function` do to the lock. Models `src/lib.rs:122-135`. -/
def changing : List Act := [.wr, .unwr]

/-- What `list_custom_functions` and `has_custom_function` do to it. Models `src/lib.rs:138-153`. -/
def asking : List Act := [.rd, .unrd]

/-- The state of the lock and of the threads using it: what each thread still has to do to it, whether it is waiting to write, how many read guards it
holds, and which thread holds the write guard. -/
structure State (ι : Type) where
  prog : ι → List Act
  waiting : ι → Bool
  reading : ι → Nat
  writer : Option ι

/-- At the start nobody holds or waits for the lock. -/
def State.start {ι : Type} (prog : ι → List Act) : State ι := ⟨prog, fun _ => false, fun _ => 0, none⟩

/-- One step of one thread. `RwLock` of the Rust standard library (the futex implementation, used on Linux since 1.62): a reader is let in only if nobody holds the
write guard and no writer is waiting, even if it is in already; a writer first queues, and is let in when no guard is held. -/
inductive Step {ι : Type} [DecidableEq ι] : State ι → State ι → Prop
  | rd (s : State ι) (t : ι) (p : List Act) : s.prog t = .rd :: p → s.writer = none → (∀ u, s.waiting u = false) →
      Step s { s with prog := fun u => if u = t then p else s.prog u, reading := fun u => if u = t then s.reading u + 1 else s.reading u }
  | unrd (s : State ι) (t : ι) (p : List Act) : s.prog t = .unrd :: p →
      Step s { s with prog := fun u => if u = t then p else s.prog u, reading := fun u => if u = t then s.reading u - 1 else s.reading u }
  | queue (s : State ι) (t : ι) (p : List Act) : s.prog t = .wr :: p → s.waiting t = false →
      Step s { s with waiting := fun u => if u = t then true else s.waiting u }
  | wr (s : State ι) (t : ι) (p : List Act) : s.prog t = .wr :: p → s.waiting t = true → s.writer = none → (∀ u, s.reading u = 0) →
      Step s { s with prog := fun u => if u = t then p else s.prog u, waiting := fun u => if u = t then false else s.waiting u, writer := some t }
  | unwr (s : State ι) (t : ι) (p : List Act) : s.prog t = .unwr :: p →
      Step s { s with prog := fun u => if u = t then p else s.prog u, writer := none }

/-- Everybody is done. -/
def State.Finished {ι : Type} (s : State ι) : Prop := ∀ t, s.prog t = []

/-- Nobody can move, though somebody is not done. -/
def State.Stuck {ι : Type} [DecidableEq ι] (s : State ι) : Prop := ¬ s.Finished ∧ ∀ s', ¬ Step s s'

end Locks
