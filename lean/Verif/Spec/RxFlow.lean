import Verif.Model.RxFlow
import Verif.Spec.Cells

/-!
# Vocabulary for C68
-/

namespace Verif.Phy.RxFlow.Spec
open Verif.Sp3 Verif.Sp3.Cells

/-- OFDM symbols, counted from `l`, together with the cells of one kind, those without such cells left out -/
def listed (f : Symbol → List Nat) : Nat → List Symbol → List (Nat × List Nat)
  | _, [] => []
  | l, s :: rest => if f s = [] then listed f (l + 1) rest else (l, f s) :: listed f (l + 1) rest

/-- The pilots from which the estimate was made are those for which its weights have been computed, when the first OFDM symbol
of the table is OFDM symbol `d` of the packet, and all of them are DRS of transmit stream `t`. -/
def Matches (b nTs t d : Nat) (e : Est) : Prop :=
  ∃ v, lutPilots b e.n e.ts = .ok v ∧ v.length = (if e.n = 0 then 14 * b else 28 * b) ∧
    ∀ i p, v[i]? = some p → e.pilots i = some (d + p.1 - 1, p.2) ∧ Cells.Spec.DrsCell b nTs t (d + p.1 - 1) p.2

/-- Estimate for OFDM symbol `l` from the last OFDM symbol with DRS -/
def Left (c : Cfg) (l t : Nat) (e : Est) : Prop :=
  ∃ d, Matches c.b c.nTs t d e ∧ e.n = 0 ∧ e.row = 0 ∧ 1 ≤ d ∧ d ≤ l ∧ l < d + Cells.Spec.step c.nTs

/-- Estimate for OFDM symbol `l` from the OFDM symbols with DRS to the left and to the right of it. It was made for OFDM symbol
`d + row`, less than `stride` symbols ago. -/
def Between (c : Cfg) (l t : Nat) (e : Est) : Prop :=
  ∃ d, Matches c.b c.nTs t d e ∧ e.n = Cells.Spec.step c.nTs ∧ 1 ≤ d ∧ d ≤ l ∧ l ≤ d + Cells.Spec.step c.nTs ∧
    d + e.row ≤ l ∧ l < d + e.row + c.stride

/-- Last OFDM symbol with DRS in a data field of `df` OFDM symbols, if the distance is `n` -/
def lastDrs (n df : Nat) : Nat := 1 + (df - 1) / n * n

/-- Estimate for an OFDM symbol of a data field of `df` symbols -/
def EstOk (c : Cfg) (df l t : Nat) (e : Est) : Prop :=
  if c.lrDefault = true ∧ 1 < lastDrs (Cells.Spec.step c.nTs) df then Between c (min l (lastDrs (Cells.Spec.step c.nTs) df)) t e
  else Left c l t e

/-- Cells taken from the right OFDM symbol, with an estimate for every transmit stream -/
def RdOk (c : Cfg) (P : Nat → Nat → Est → Prop) (r : Rd) : Prop :=
  r.src = some r.l ∧ ∀ t < c.nTs, ∃ e, r.est t = some e ∧ P r.l t e

end Verif.Phy.RxFlow.Spec
