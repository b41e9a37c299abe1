import Verif.Model.BufferTx

/-!
# Vocabulary for C21
-/

namespace Verif.Radio.BufferTx

/-- The buffer a producer is working on. -/
def owns : PPc → Option Nat
  | .entry i _ | .fill i _ _ _ | .sub i _ _ _ | .chk i _ _ _ | .rest i _ _ => some i
  | .pend i _ _ fin => if fin then none else some i
  | _ => none

/-- ... before the inner lock -/
def phaseA : PPc → Option Nat
  | .entry i _ | .fill i _ _ _ | .sub i _ _ _ | .chk i _ _ _ => some i
  | _ => none

/-- The buffer a producer has locked but not yet announced. -/
def pendAt : PPc → Option Nat
  | .pend i _ _ _ => some i
  | _ => none

/-- The buffer the TX thread is working on. -/
def txAt : TPc → Option Nat
  | .send i _ _ _ | .relInner i _ | .relOuter i _ => some i
  | _ => none

/-- ... with the inner lock -/
def txInner : TPc → Option Nat
  | .send i _ _ _ | .relInner i _ => some i
  | _ => none

/-- The buffer the TX thread is giving back. -/
def txRel : TPc → Option Nat
  | .relInner i _ | .relOuter i _ => some i
  | _ => none

/-- Entries are (order number, next order number, samples): the first has number `e`, each of the others the number
named by the one before it. -/
def Linked : Int → List (Int × Int × List Nat) → Prop
  | _, [] => True
  | e, x :: xs => x.1 = e ∧ Linked x.2.1 xs

/-- Decrement still to be done by the TX thread -/
def owed : TPc → Int
  | .relOuter _ _ | .relCnt _ _ => 1
  | _ => 0

end Verif.Radio.BufferTx
