import Verif.Model.IrregularQueue

/-!
# Specification of a queue of requests ordered by time

The state is the collection of pending requests; its order is irrelevant (`List.Perm`).
-/

namespace Verif.Phy

/-- Operations that the queue refuses: a request without a time, a request too many, nothing to pop. -/
def IrrRefused (cap : Nat) (pending : List Report) : IrrOp → Prop
  | .push r => 2 ^ 63 - 1 ≤ r.time ∨ cap ≤ pending.length
  | .pop => pending = []
  | .next => False

/-- What an operation returns and leaves pending. -/
def IrrEffect (pending : List Report) : IrrOp → IrrRet → List Report → Prop
  | .push r, x, p' => x = .unit ∧ List.Perm p' (r :: pending)
  | .pop, x, p' => ∃ r, x = .report r ∧ List.Perm pending (r :: p') ∧ ∀ e ∈ pending, r.time ≤ e.time
  | .next, x, p' => p' = pending ∧ ∃ t, x = .time t ∧ (pending = [] → t = 2 ^ 63 - 1) ∧
      (pending ≠ [] → (∃ e ∈ pending, e.time = t) ∧ ∀ e ∈ pending, t ≤ e.time)

/-- A sequence of operations with its return values. -/
inductive IrrRun (cap : Nat) : List Report → List IrrOp → List IrrRet → List Report → Prop
  | nil (p) : IrrRun cap p [] [] p
  | cons {p op x p' ops xs p''} : ¬ IrrRefused cap p op → IrrEffect p op x p' → IrrRun cap p' ops xs p'' →
      IrrRun cap p (op :: ops) (x :: xs) p''

/-- Some prefix of the operations runs and the next one is refused. -/
def IrrRunRefused (cap : Nat) (p : List Report) (ops : List IrrOp) : Prop :=
  ∃ a op b xs p', ops = a ++ op :: b ∧ IrrRun cap p a xs p' ∧ IrrRefused cap p' op

end Verif.Phy
