import Mathlib.Tactic.Tauto
import Mathlib.Tactic.ByContra
import Mathlib.Tactic.SplitIfs
import Mathlib.Tactic.Ring
import Mathlib.Tactic.Linarith

/-!
# Outcomes of C++ code

`abort` is a failed `dectnrp_assert` (inc/common/prog/assert.hpp:66-84, compiled in by default) or
an exception escaping a `noexcept` function; `ub` is undefined behaviour (out-of-bounds access,
null dereference, division by zero, signed overflow).
-/

namespace Verif

inductive Res (α : Type u) where
  | ok (a : α)
  | abort
  | ub
  deriving DecidableEq, Repr

namespace Res

@[inline] def bind {α : Type u} {β : Type v} (x : Res α) (f : α → Res β) : Res β :=
  match x with
  | ok a => f a
  | abort => abort
  | ub => ub

instance : Monad Res where
  pure := ok
  bind := bind

/-- `dectnrp_assert(b, ...)`. -/
def assert (b : Bool) : Res Unit := if b then ok () else abort

def isOk {α : Type u} : Res α → Bool
  | ok _ => true
  | _ => false

@[simp] theorem pure_eq {α : Type u} (a : α) : (pure a : Res α) = ok a := rfl
@[simp] theorem ok_bind {α β : Type u} (a : α) (f : α → Res β) : (ok a >>= f) = f a := rfl
@[simp] theorem abort_bind {α β : Type u} (f : α → Res β) : ((abort : Res α) >>= f) = abort := rfl
@[simp] theorem ub_bind {α β : Type u} (f : α → Res β) : ((ub : Res α) >>= f) = ub := rfl
@[simp] theorem assert_true : assert true = ok () := rfl
@[simp] theorem assert_false : assert false = abort := rfl

theorem bind_eq_ok {α β : Type u} {x : Res α} {f : α → Res β} {b : β} :
    (x >>= f) = ok b ↔ ∃ a, x = ok a ∧ f a = ok b := by
  cases x <;> simp

theorem assert_eq_ok {b : Bool} {u : Unit} : assert b = ok u ↔ b = true := by
  cases b <;> simp [assert]

instance : LawfulMonad Res := LawfulMonad.mk'
  (id_map := by intro α x; cases x <;> rfl)
  (pure_bind := by intros; rfl)
  (bind_assoc := by intro α β γ x f g; cases x <;> rfl)

end Res

/-- Case split on the outermost conditional only. -/
theorem ite_ind {α : Type u} {P : α → Prop} {c : Prop} [Decidable c] {a b : α}
    (h1 : c → P a) (h2 : ¬ c → P b) : P (if c then a else b) := by
  by_cases h : c
  · rw [if_pos h]; exact h1 h
  · rw [if_neg h]; exact h2 h

end Verif
