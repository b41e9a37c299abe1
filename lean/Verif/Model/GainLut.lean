import Verif.Base.Res
import Mathlib.Data.Rat.Floor

/-!
# Tables of gains and powers (src/radio/gain_lut.cpp:27-117, inc/radio/calibration)

Simplification: `float` values are rational numbers. In `points`, whose results are claimed to stay in a range, each
operation is followed by a rounding function `rnd`; the other functions use exact arithmetic (`rnd := id`). Literals of the
tables are taken as written. -/

namespace Verif.Radio.GainLut

/-- `std::round`: to the nearest integer, halves away from zero -/
def roundAway (x : ℚ) : Int := if 0 ≤ x then ⌊x + 1 / 2⌋ else -⌊-x + 1 / 2⌋

/-- gain_lut.hpp:92-97 -/
structure Points where
  left : Int
  right : Int
  weightLeft : ℚ
  weightRight : ℚ

/-- `vec[idx]`; undefined outside of the vector -/
def at' (vec : List ℚ) (i : Int) : Res ℚ :=
  if 0 ≤ i ∧ i.toNat < vec.length then .ok (vec.getD i.toNat 0) else .ub

/-- gain_lut.cpp:81-82 -/
def limited (vec : List ℚ) (value : ℚ) : ℚ := min (vec.getLastD 0) (max (vec.headD 0) value)

/-- gain_lut.cpp:87-93 -/
def idxRight (vec : List ℚ) (v : ℚ) : Nat :=
  match vec.findIdx? fun x => decide (v < x) with
  | some i => i
  | none => vec.length - 1

/-- gain_lut.cpp:78-111; front and back of an empty vector are undefined -/
def points (rnd : ℚ → ℚ) (vec : List ℚ) (value : ℚ) : Res Points :=
  if vec = [] then .ub
  else do
    let v := limited vec value
    let r : Int := idxRight vec v
    let l : Int := r - 1
    let a ← at' vec l
    let b ← at' vec r
    let dl := rnd (v - a)
    let dr := rnd (b - v)
    let wl := if 0 < rnd (dl + dr) then rnd (dr / rnd (dl + dr)) else 0
    .ok ⟨l, r, wl, rnd (1 - wl)⟩

/-- gain_lut.cpp:113-117 -/
def interpolate (vec : List ℚ) (p : Points) : Res ℚ := do
  let a ← at' vec p.left
  let b ← at' vec p.right
  pure (a * p.weightLeft + b * p.weightRight)

/-- `powers[idx]`, a row of a table -/
def row (t : List (List ℚ)) (i : Int) : Res (List ℚ) :=
  if 0 ≤ i ∧ i.toNat < t.length then .ok (t.getD i.toNat []) else .ub

/-- gain_lut.hpp:32-35 -/
structure PowerGain where
  power : ℚ
  gain : ℚ
  deriving DecidableEq

/-- gain_lut.cpp:39-76 -/
def achievable (freqs : List ℚ) (gains powers : List (List ℚ)) (step power freq : ℚ) : Res PowerGain := do
  let f ← points id freqs freq
  let rowL ← row powers f.left
  let rowR ← row powers f.right
  let pl ← points id rowL power
  let pr ← points id rowR power
  let powerL ← interpolate rowL pl
  let powerR ← interpolate rowR pr
  let gainL ← interpolate (← row gains f.left) pl
  let gainR ← interpolate (← row gains f.right) pr
  let p := powerL * f.weightLeft + powerR * f.weightRight
  let g := gainL * f.weightLeft + gainR * f.weightRight
  let stepped := roundAway (g / step) * step
  pure ⟨p + (stepped - g), stepped⟩

/-- Tables of one kind of hardware, gain_lut.hpp:47-71 -/
structure Calibration where
  freqs : List ℚ
  gainsTx : List (List ℚ)
  powersTx : List (List ℚ)
  stepTx : ℚ
  gainsRx : List (List ℚ)
  powersRx : List (List ℚ)
  stepRx : ℚ

/-- gain_lut.cpp:27-37 -/
def achievableTx (c : Calibration) (power freq : ℚ) : Res PowerGain := achievable c.freqs c.gainsTx c.powersTx c.stepTx power freq

def achievableRx (c : Calibration) (power freq : ℚ) : Res PowerGain := achievable c.freqs c.gainsRx c.powersRx c.stepRx power freq

/-- inc/radio/calibration/cal_simulator.hpp:29-37 -/
def simulator : Calibration where
  freqs := [100000000, 6000000000]
  gainsTx := [
    [0, 60],
    [0, 60]]
  powersTx := [
    [-40, 20],
    [-40, 20]]
  stepTx := 1
  gainsRx := [
    [70, 0],
    [70, 0]]
  powersRx := [
    [-60, 10],
    [-60, 10]]
  stepRx := 1

/-- inc/radio/calibration/cal_usrp_b210.hpp:29-89 -/
def b210 : Calibration where
  freqs := [500000000, 1000000000, 1500000000, 2000000000, 2500000000, 3000000000, 3500000000, 4000000000, 4500000000, 5000000000, 5500000000, 6000000000]
  gainsTx := [
    [27, 33, 39, 45, 51, 57, 63, 69, 75, 81, 87, 90],
    [27, 33, 39, 45, 51, 57, 63, 69, 75, 81, 87, 90],
    [27, 33, 39, 45, 51, 57, 63, 69, 75, 81, 87, 90],
    [27, 33, 39, 45, 51, 57, 63, 69, 75, 81, 87, 90],
    [27, 33, 39, 45, 51, 57, 63, 69, 75, 81, 87, 90],
    [27, 33, 39, 45, 51, 57, 63, 69, 75, 81, 87, 90],
    [27, 33, 39, 45, 51, 57, 63, 69, 75, 81, 87, 90],
    [27, 33, 39, 45, 51, 57, 63, 69, 75, 81, 87, 90],
    [27, 33, 39, 45, 51, 57, 63, 69, 75, 81, 87, 90],
    [27, 33, 39, 45, 51, 57, 63, 69, 75, 81, 87, 90],
    [27, 33, 39, 45, 51, 57, 63, 69, 75, 81, 87, 90],
    [27, 33, 39, 45, 51, 57, 63, 69, 75, 81, 87, 90]]
  powersTx := [
    [-40, -34, -28, -22, -16, -10, -4, 2, 8, 15, 17, 18],
    [-42, -34, -28, -22, -18, -12, -6, 0, 6, 11, 17, 17],
    [-43, -37, -31, -25, -20, -13, -7, -1, 5, 10, 17, 17],
    [-45, -39, -35, -29, -23, -17, -11, -5, 0, 6, 12, 15],
    [-50, -43, -37, -31, -25, -19, -13, -7, -2, 4, 10, 13],
    [-46, -40, -35, -29, -23, -17, -11, -6, 0, 6, 13, 15],
    [-47, -41, -37, -31, -25, -19, -13, -7, -1, 5, 11, 14],
    [-47, -41, -35, -29, -24, -18, -11, -5, 1, 7, 12, 15],
    [-46, -40, -35, -30, -23, -17, -10, -5, 1, 7, 12, 15],
    [-46, -42, -36, -30, -25, -19, -12, -6, 0, 5, 10, 13],
    [-50, -45, -39, -33, -26, -20, -13, -7, -1, 4, 8, 10],
    [-51, -45, -39, -33, -27, -21, -15, -8, -2, 2, 7, 10]]
  stepTx := 1
  gainsRx := [
    [76, 0],
    [76, 0],
    [76, 0],
    [76, 0],
    [76, 0],
    [76, 0],
    [76, 0],
    [76, 0],
    [76, 0],
    [76, 0],
    [76, 0],
    [76, 0]]
  powersRx := [
    [-673/10, 87/10],
    [-669/10, 91/10],
    [-318/5, 62/5],
    [-317/5, 63/5],
    [-62, 14],
    [-289/5, 91/5],
    [-557/10, 203/10],
    [-571/10, 189/10],
    [-551/10, 209/10],
    [-557/10, 203/10],
    [-543/10, 217/10],
    [-103/2, 49/2]]
  stepRx := 1

/-- inc/radio/calibration/cal_usrp_n310.hpp:29-89 -/
def n310 : Calibration where
  freqs := [500000000, 1000000000, 1500000000, 2000000000, 2500000000, 3000000000, 3500000000, 4000000000, 4500000000, 5000000000, 5500000000, 6000000000]
  gainsTx := [
    [0, 5, 10, 15, 20, 25, 30, 35, 40, 45],
    [0, 5, 10, 15, 20, 25, 30, 35, 40, 45, 50],
    [0, 5, 10, 15, 20, 25, 30, 35, 40, 45, 50],
    [0, 5, 10, 15, 20, 25, 30, 35, 40, 45, 50],
    [0, 5, 10, 15, 20, 25, 30, 35, 40, 45, 50, 55],
    [0, 5, 10, 15, 20, 25, 30, 35, 40, 45, 50, 55],
    [0, 5, 10, 15, 20, 25, 30, 35, 40, 45, 50, 55],
    [0, 5, 10, 15, 20, 25, 30, 35, 40, 45, 50, 55],
    [0, 5, 10, 15, 20, 25, 30, 35, 40, 45, 50, 55, 60],
    [0, 5, 10, 15, 20, 25, 30, 35, 40, 45, 50, 55, 60],
    [0, 5, 10, 15, 20, 25, 30, 35, 40, 45, 50, 55, 60],
    [0, 5, 10, 15, 20, 25, 30, 35, 40, 45, 50, 55, 60]]
  powersTx := [
    [-32, -28, -22, -18, -12, -8, -2, 8, 12, 16],
    [-32, -28, -22, -18, -12, -8, -2, 6, 11, 15, 18],
    [-34, -29, -24, -19, -14, -9, -4, 3, 8, 13, 18],
    [-34, -30, -25, -20, -14, -10, -5, 3, 9, 13, 18],
    [-36, -31, -26, -22, -16, -12, -7, 1, 5, 11, 16, 18],
    [-39, -34, -28, -23, -18, -14, -9, -2, 3, 8, 13, 16],
    [-38, -33, -28, -23, -17, -13, -8, -1, 3, 9, 13, 16],
    [-42, -36, -32, -26, -21, -16, -11, -4, 0, 5, 10, 13],
    [-45, -40, -35, -30, -25, -20, -15, -9, -3, 1, 6, 10, 13],
    [-47, -42, -36, -31, -26, -21, -15, -12, -8, -2, 2, 7, 11],
    [-47, -41, -36, -30, -26, -20, -15, -10, -6, -1, 4, 8, 13],
    [-47, -41, -36, -30, -26, -20, -15, -12, -7, -2, 3, 7, 12]]
  stepTx := 1
  gainsRx := [
    [75, 0],
    [75, 0],
    [75, 0],
    [75, 0],
    [75, 0],
    [75, 0],
    [75, 0],
    [75, 0],
    [75, 0],
    [75, 0],
    [75, 0],
    [75, 0]]
  powersRx := [
    [-181/5, 194/5],
    [-178/5, 197/5],
    [-353/10, 397/10],
    [-168/5, 207/5],
    [-166/5, 209/5],
    [-32, 43],
    [-156/5, 219/5],
    [-156/5, 219/5],
    [-156/5, 219/5],
    [-301/10, 449/10],
    [-142/5, 233/5],
    [-269/10, 481/10]]
  stepRx := 1

/-- inc/radio/calibration/cal_usrp_n320.hpp:29-89 -/
def n320 : Calibration where
  freqs := [500000000, 1000000000, 1500000000, 2000000000, 2500000000, 3000000000, 3500000000, 4000000000, 4500000000, 5000000000, 5500000000, 6000000000]
  gainsTx := [
    [0, 5, 10, 15, 20, 25, 30, 35, 40, 45, 50, 55, 60],
    [0, 5, 10, 15, 20, 25, 30, 35, 40, 45, 50, 55, 60],
    [0, 5, 10, 15, 20, 25, 30, 35, 40, 45, 50, 55, 60],
    [0, 5, 10, 15, 20, 25, 30, 35, 40, 45, 50, 55, 60],
    [0, 5, 10, 15, 20, 25, 30, 35, 40, 45, 50, 55, 60],
    [0, 5, 10, 15, 20, 25, 30, 35, 40, 45, 50, 55, 60],
    [0, 5, 10, 15, 20, 25, 30, 35, 40, 45, 50, 55, 60],
    [0, 5, 10, 15, 20, 25, 30, 35, 40, 45, 50, 55, 60],
    [0, 5, 10, 15, 20, 25, 30, 35, 40, 45, 50, 55, 60],
    [0, 5, 10, 15, 20, 25, 30, 35, 40, 45, 50, 55, 60],
    [0, 5, 10, 15, 20, 25, 30, 35, 40, 45, 50, 55, 60],
    [0, 5, 10, 15, 20, 25, 30, 35, 40, 45, 50, 55, 60]]
  powersTx := [
    [-35, -30, -25, -20, -15, -10, -5, 0, 5, 10, 15, 18, 20],
    [-36, -28, -22, -18, -12, -8, -2, 6, 11, 15, 13, 17, 19],
    [-37, -32, -27, -22, -17, -12, -7, -2, 3, 8, 13, 17, 19],
    [-35, -30, -25, -20, -15, -10, -5, 0, 5, 10, 14, 17, 19],
    [-36, -31, -26, -22, -16, -12, -7, 1, 5, 11, 13, 17, 19],
    [-36, -31, -26, -21, -16, -11, -6, -1, 4, 9, 14, 17, 19],
    [-37, -33, -28, -23, -17, -13, -8, -1, 3, 9, 13, 16, 18],
    [-40, -35, -30, -25, -20, -15, -10, -5, 0, 5, 10, 15, 17],
    [-37, -32, -27, -22, -17, -12, -7, -2, 3, 8, 13, 16, 18],
    [-40, -35, -29, -24, -19, -14, -9, -3, 2, 7, 12, 16, 18],
    [-44, -39, -34, -28, -23, -18, -13, -8, -2, 3, 8, 13, 15],
    [-47, -42, -37, -32, -26, -21, -15, -10, -5, 0, 5, 10, 15]]
  stepTx := 1
  gainsRx := [
    [60, 0],
    [60, 0],
    [60, 0],
    [60, 0],
    [60, 0],
    [60, 0],
    [60, 0],
    [60, 0],
    [60, 0],
    [60, 0],
    [60, 0],
    [60, 0]]
  powersRx := [
    [-87/2, 33/2],
    [-453/10, 147/10],
    [-443/10, 157/10],
    [-429/10, 171/10],
    [-433/10, 167/10],
    [-429/10, 171/10],
    [-431/10, 169/10],
    [-203/5, 97/5],
    [-41, 19],
    [-206/5, 94/5],
    [-191/5, 109/5],
    [-65/2, 55/2]]
  stepRx := 1

/-- inc/radio/calibration/cal_usrp_x410.hpp:29-89 -/
def x410 : Calibration where
  freqs := [500000000, 1000000000, 1500000000, 2000000000, 2500000000, 3000000000, 3500000000, 4000000000, 4500000000, 5000000000, 5500000000, 6000000000]
  gainsTx := [
    [0, 5, 10, 15, 20, 25, 30, 35, 40, 45, 50, 55, 60],
    [0, 5, 10, 15, 20, 25, 30, 35, 40, 45, 50, 55, 60],
    [0, 5, 10, 15, 20, 25, 30, 35, 40, 45, 50, 55, 60],
    [0, 5, 10, 15, 20, 25, 30, 35, 40, 45, 50, 55, 60],
    [0, 5, 10, 15, 20, 25, 30, 35, 40, 45, 50, 55, 60],
    [0, 5, 10, 15, 20, 25, 30, 35, 40, 45, 50, 55, 60],
    [0, 5, 10, 15, 20, 25, 30, 35, 40, 45, 50, 55, 60],
    [0, 5, 10, 15, 20, 25, 30, 35, 40, 45, 50, 55, 60],
    [0, 5, 10, 15, 20, 25, 30, 35, 40, 45, 50, 55, 60],
    [0, 5, 10, 15, 20, 25, 30, 35, 40, 45, 50, 55, 60],
    [0, 5, 10, 15, 20, 25, 30, 35, 40, 45, 50, 55, 60],
    [0, 5, 10, 15, 20, 25, 30, 35, 40, 45, 50, 55, 60]]
  powersTx := [
    [-85/2, -81/2, -75/2, -65/2, -55/2, -23, -17, -13, -8, -3, 9/5, 34/5, 59/5],
    [-40, -35, -63/2, -53/2, -43/2, -33/2, -23/2, -34/5, -9/5, 31/10, 8, 64/5, 35/2],
    [-40, -75/2, -65/2, -55/2, -23, -18, -13, -8, -3, 17/10, 33/5, 23/2, 81/5],
    [-40, -35, -31, -53/2, -43/2, -33/2, -23/2, -13/2, -3/2, 17/5, 83/10, 66/5, 18],
    [-40, -37, -65/2, -27, -23, -18, -13, -15/2, -14/5, 21/10, 36/5, 121/10, 84/5],
    [-42, -41, -40, -38, -33, -28, -23, -18, -13, -8, -14/5, 2, 36/5],
    [-40, -38, -34, -28, -23, -37/2, -27/2, -8, -16/5, 9/5, 33/5, 46/5, 14],
    [-41, -39, -36, -32, -27, -22, -17, -59/5, -13/2, -3/2, 33/10, 83/10, 66/5],
    [-41, -39, -35, -31, -27, -21, -33/2, -11, -61/10, -1/2, 24/5, 10, 15],
    [-42, -41, -39, -35, -30, -25, -20, -15, -10, -5, 0, 5, 10],
    [-42, -42, -40, -37, -33, -28, -23, -35/2, -12, -67/10, -8/5, 18/5, 44/5],
    [-42, -41, -39, -37, -32, -27, -22, -17, -11, -6, -1/2, 23/5, 48/5]]
  stepTx := 1
  gainsRx := [
    [38, 0],
    [60, 0],
    [60, 0],
    [60, 0],
    [60, 0],
    [60, 0],
    [60, 0],
    [60, 0],
    [60, 0],
    [60, 0],
    [60, 0],
    [60, 0]]
  powersRx := [
    [-35, 3],
    [-258/5, 42/5],
    [-257/5, 43/5],
    [-272/5, 28/5],
    [-273/5, 27/5],
    [-36, 24],
    [-249/5, 56/5],
    [-241/5, 59/5],
    [-243/5, 57/5],
    [-238/5, 62/5],
    [-234/5, 66/5],
    [-226/5, 74/5]]
  stepRx := 1

end Verif.Radio.GainLut
