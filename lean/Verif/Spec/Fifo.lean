import Verif.Model.Queue

/-!
# A bounded first-in first-out queue of datagrams

The content is the list of datagrams, oldest first. `cap` is the number of datagrams it can hold.
-/

namespace Verif.App

/-- What each call does to the list of datagrams and what it returns. -/
def fifo (cap maxByte : Nat) (l : List (List Nat)) : QCall → Res (List (List Nat) × QRet)
  | .write d =>
    if l.length = cap then .ok (l, ⟨0, [], []⟩)
    else if maxByte < d.length then .abort
    else .ok (l ++ [d], ⟨d.length, [], []⟩)
  | .read =>
    match l with
    | [] => .ok ([], ⟨0, [], []⟩)
    | d :: l => .ok (l, ⟨d.length, d, []⟩)
  | .drop =>
    match l with
    | [] => .ok ([], ⟨0, [], []⟩)
    | d :: l => .ok (l, ⟨d.length, [], []⟩)
  | .levels n => if 8 < n then .abort else .ok (l, ⟨0, [], (l.take n).map List.length⟩)
  | .clear => .ok ([], ⟨0, [], []⟩)
  | .busy => .ok (l, ⟨0, [], []⟩)

/-- A sequence of calls. -/
def fifoRun (cap maxByte : Nat) (l : List (List Nat)) : List QCall → Res (List (List Nat) × List QRet)
  | [] => .ok (l, [])
  | c :: cs => do
    let (l, r) ← fifo cap maxByte l c
    let (l, rs) ← fifoRun cap maxByte l cs
    pure (l, r :: rs)

end Verif.App
