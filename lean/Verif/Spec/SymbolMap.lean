import Verif.Base.Cx
import Verif.Model.Cells

/-!
# Specification of the resource mapping -/

namespace Verif.Spec.SymbolMap
open Verif.Sp3.Cells

/-- Bit `p` of a sequence of octets, most significant bit first -/
def bitAt (d : List Nat) (p : Nat) : Nat := d.getD (p / 8) 0 / 2 ^ (7 - p % 8) % 2

/-- The number formed by `w` bits from bit `p` on -/
def number (d : List Nat) (p w : Nat) : Nat := (List.range w).foldl (fun v i => 2 * v + bitAt d (p + i)) 0

/-- Cells of a kind, in the order of OFDM symbols (the first has number `l0`) and of subcarriers: pairs of OFDM symbol and
subcarrier -/
def order (sel : Symbol → List Nat) : Nat → List Symbol → List (Nat × Nat)
  | _, [] => []
  | l0, x :: xs => (sel x).map (fun k => (l0, k)) ++ order sel (l0 + 1) xs

/-- The two transmit streams of pair `i` with transmit diversity -/
def streams (nTs i : Nat) : Nat × Nat :=
  if nTs = 2 then (0, 1)
  else if nTs = 4 then
    match i % 6 with
    | 0 => (0, 1) | 1 => (2, 3) | 2 => (0, 2) | 3 => (1, 3) | 4 => (0, 3) | _ => (1, 2)
  else
    match i % 12 with
    | 0 => (0, 1) | 1 => (2, 3) | 2 => (4, 5) | 3 => (6, 7) | 4 => (0, 4) | 5 => (1, 5)
    | 6 => (2, 6) | 7 => (3, 7) | 8 => (0, 2) | 9 => (1, 3) | 10 => (4, 6) | _ => (5, 7)

variable {K : Type} [Field K]

/-- What is on cell `i` of transmit stream `t` with transmit diversity: the symbol itself on one stream, on another one its
partner, conjugated, with a minus sign in the first cell of the pair -/
def diversity (nTs : Nat) (sym : Nat → Cx K) (i t : Nat) : Cx K :=
  if t = (streams nTs (i / 2)).1 then sym i
  else if t = (streams nTs (i / 2)).2 then (if i % 2 = 0 then -(sym (i + 1)).conj else (sym (i - 1)).conj)
  else 0

/-- What is on cell `i` of transmit stream `t` with spatial multiplexing -/
def multiplexed (nSs : Nat) (sym : Nat → Cx K) (i t : Nat) : Cx K := if t < nSs then sym (i * nSs + t) else 0

/-- Value on subcarrier `k` of transmit stream `t` in OFDM symbol `l` of the data field, the first of which has number 1 -/
def value (stages : List (Nat → Nat → Cx K)) (l t k : Nat) : Cx K := (stages.getD (l - 1) fun _ _ => 0) t k

end Verif.Spec.SymbolMap
