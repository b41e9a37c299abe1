import Verif.Model.GainLut

/-!
# Gain control (src/phy/agc/roundrobin.cpp:29-52, src/phy/agc/agc.cpp:30-90, src/phy/agc/agc_rx.cpp:30-115)

Simplification: `float` values are rational numbers (no rounding, no infinities); `mag2db`, a logarithm, is an arbitrary function.
An `ant_t` (inc/common/ant.hpp) is the list of the values of its antennas. -/

namespace Verif.Phy.Agc

open Verif.Radio.GainLut (roundAway)

/-- limits.hpp, `dectnrp_max_nof_antennas` -/
def maxAntennas : Nat := 8

/-- ant.cpp:37-42: constructor, all values are zero -/
def Ant.make (n : Nat) : Res (List ℚ) := do
  Res.assert (decide (0 < n))
  Res.assert (decide (n ≤ maxAntennas))
  pure (List.replicate n 0)

/-- ant.cpp:50-62 -/
def Ant.get (a : List ℚ) (i : Nat) : Res ℚ := if i < a.length then .ok (a.getD i 0) else .abort

def Ant.set (a : List ℚ) (i : Nat) (x : ℚ) : Res (List ℚ) := if i < a.length then .ok (a.set i x) else .abort

/-- roundrobin.hpp:40-43 -/
structure RoundRobin where
  nof : Nat
  simultaneous : Nat
  idx : Nat
  deriving DecidableEq

/-- roundrobin.cpp:29-34 -/
def RoundRobin.make (nof simultaneous : Nat) : Res RoundRobin := do
  Res.assert (decide (0 < min simultaneous nof))
  Res.assert (decide (min simultaneous nof ≤ nof))
  pure ⟨nof, min simultaneous nof, 0⟩

/-- roundrobin.cpp:39-49: the loop, with `n` iterations left -/
def RoundRobin.loop (r : RoundRobin) (ant : List ℚ) : Nat → List ℚ → Res (List ℚ × RoundRobin)
  | 0, ret => .ok (ret, r)
  | n + 1, ret => do
    let x ← Ant.get ant r.idx
    let ret ← if x ≠ 0 then Ant.set ret r.idx x else pure ret
    let i := r.idx + 1
    RoundRobin.loop { r with idx := if i = r.nof then 0 else i } ant n ret

/-- roundrobin.cpp:36-52 -/
def RoundRobin.process (r : RoundRobin) (ant : List ℚ) : Res (List ℚ × RoundRobin) := do
  let ret ← Ant.make r.nof
  r.loop ant r.simultaneous ret

/-- A sequence of calls -/
def RoundRobin.run (r : RoundRobin) : List (List ℚ) → Res (List (List ℚ) × RoundRobin)
  | [] => .ok ([], r)
  | a :: as => do
    let (y, r) ← r.process a
    let (ys, r) ← RoundRobin.run r as
    pure (y :: ys, r)

/-- agc_config.hpp:26-38 -/
structure Config where
  nof : Nat
  multiple : ℚ
  max : ℚ
  min : ℚ

/-- agc.cpp:85-90 -/
def isPositiveMultiple (inp multiple : ℚ) : Res Bool := do
  Res.assert (decide (0 < inp))
  Res.assert (decide (0 < multiple))
  pure (decide (inp / multiple = roundAway (inp / multiple)))

/-- agc.cpp:30-48; the member `roundrobin` is constructed first -/
def Config.check (c : Config) : Res RoundRobin := do
  let r ← RoundRobin.make c.nof maxAntennas
  Res.assert (decide (0 < c.nof))
  Res.assert (decide (c.nof ≤ maxAntennas))
  Res.assert (decide (1 / 2 ≤ c.multiple))
  Res.assert (decide (c.multiple ≤ 5))
  Res.assert (decide (c.min ≤ c.max))
  Res.assert (← isPositiveMultiple c.max c.multiple)
  Res.assert (← isPositiveMultiple c.min c.multiple)
  pure r

/-- agc.cpp:50-73 -/
def quantize (c : Config) (x : ℚ) : ℚ :=
  let q := (roundAway (x / c.multiple) : ℚ) * c.multiple
  if -c.min < q ∧ q < c.min then 0
  else if c.max < q then c.max
  else if q < -c.max then -c.max
  else q

/-- agc.cpp:75-83 for the antennas of the configuration -/
def quantizeAll (c : Config) (x : List ℚ) : Res (List ℚ) := do
  let ret ← Ant.make x.length
  (List.range c.nof).foldlM (fun ret i => do Ant.set ret i (quantize c (← Ant.get x i))) ret

/-- agc_rx.hpp: mode -/
inductive RxMode where
  | individually
  | collectively

/-- `get_max` and `get_index_of_max` of ant.cpp:96-106: first largest value -/
def indexOfMax : List ℚ → Nat
  | [] => 0
  | [_] => 0
  | x :: y :: l =>
    let i := indexOfMax (y :: l)
    if x < (y :: l).getD i 0 then i + 1 else 0

def maxOf (a : List ℚ) : ℚ := a.getD (indexOfMax a) 0

/-- agc_rx.cpp:64-89: arbitrary step of one antenna, `tune_individually` -/
def stepIndividually (mag2db : ℚ → ℚ) (target a b : ℚ) (power rms : ℚ) : ℚ :=
  let c := if 0 < rms then mag2db (rms / target) else a - power
  let d := b - power
  max c d

/-- agc_rx.cpp:45-115 -/
def getGainStep (mag2db : ℚ → ℚ) (c : Config) (mode : RxMode) (target offsetMax : ℚ) (r : RoundRobin) (power rms : List ℚ) :
    Res (List ℚ × RoundRobin) := do
  Res.assert (decide (power.length = c.nof))
  Res.assert (decide (rms.length = c.nof))
  let a := maxOf power
  let b := a - offsetMax
  let arbitrary : List ℚ := match mode with
    | .individually => List.zipWith (stepIndividually mag2db target a b) power rms
    | .collectively =>
      let i := indexOfMax rms
      List.replicate c.nof (max (mag2db (rms.getD i 0 / target)) (b - power.getD i 0))
  r.process (← quantizeAll c arbitrary)

end Verif.Phy.Agc
