import Mathlib.Algebra.Order.Field.Basic
import Mathlib.Tactic.Ring
import Mathlib.Tactic.Linarith
import Mathlib.Tactic.FieldSimp

/-!
# Complex numbers over an ordered field

`cf_t` of common/complex.hpp with exact arithmetic. -/

namespace Verif

structure Cx (K : Type) where
  re : K
  im : K
  deriving DecidableEq

namespace Cx

variable {K : Type} [Field K]

instance : Zero (Cx K) := ⟨⟨0, 0⟩⟩
instance : Add (Cx K) := ⟨fun a b => ⟨a.re + b.re, a.im + b.im⟩⟩
instance : Neg (Cx K) := ⟨fun a => ⟨-a.re, -a.im⟩⟩
instance : Mul (Cx K) := ⟨fun a b => ⟨a.re * b.re - a.im * b.im, a.re * b.im + a.im * b.re⟩⟩

/-- `conjj` -/
def conj (a : Cx K) : Cx K := ⟨a.re, -a.im⟩

/-- squared magnitude -/
def sq (a : Cx K) : K := a.re * a.re + a.im * a.im

instance : Div (Cx K) := ⟨fun a b => ⟨(a.re * b.re + a.im * b.im) / b.sq, (a.im * b.re - a.re * b.im) / b.sq⟩⟩

/-- half of a complex number -/
def half (a : Cx K) : Cx K := ⟨a.re / 2, a.im / 2⟩

@[ext] theorem ext {a b : Cx K} (h1 : a.re = b.re) (h2 : a.im = b.im) : a = b := by
  cases a; cases b; simp_all

@[simp] theorem zero_re : (0 : Cx K).re = 0 := rfl
@[simp] theorem zero_im : (0 : Cx K).im = 0 := rfl
@[simp] theorem add_re (a b : Cx K) : (a + b).re = a.re + b.re := rfl
@[simp] theorem add_im (a b : Cx K) : (a + b).im = a.im + b.im := rfl
@[simp] theorem neg_re (a : Cx K) : (-a).re = -a.re := rfl
@[simp] theorem neg_im (a : Cx K) : (-a).im = -a.im := rfl
@[simp] theorem mul_re (a b : Cx K) : (a * b).re = a.re * b.re - a.im * b.im := rfl
@[simp] theorem mul_im (a b : Cx K) : (a * b).im = a.re * b.im + a.im * b.re := rfl
@[simp] theorem conj_re (a : Cx K) : a.conj.re = a.re := rfl
@[simp] theorem conj_im (a : Cx K) : a.conj.im = -a.im := rfl
@[simp] theorem div_re (a b : Cx K) : (a / b).re = (a.re * b.re + a.im * b.im) / b.sq := rfl
@[simp] theorem div_im (a b : Cx K) : (a / b).im = (a.im * b.re - a.re * b.im) / b.sq := rfl
@[simp] theorem half_re (a : Cx K) : a.half.re = a.re / 2 := rfl
@[simp] theorem half_im (a : Cx K) : a.half.im = a.im / 2 := rfl

instance : AddCommMonoid (Cx K) where
  add_assoc a b c := by ext <;> simp [add_assoc]
  zero_add a := by ext <;> simp
  add_zero a := by ext <;> simp
  add_comm a b := by ext <;> simp [add_comm]
  nsmul := nsmulRec

end Cx
end Verif
