import Verif.Base.Res
import Verif.Base.Cx
import Mathlib.Algebra.Order.Floor.Defs
import Mathlib.Data.Rat.Defs

/-!
# Wireless channels of the simulator

simulation/wireless/link, channel, channel_awgn, channel_flat, channel_doubly and `wchannel_execute` of simulation/vspace.cpp. Signals are lists
of `spp_size` samples, arithmetic is exact. The environment supplies `cis`, which maps an angle to cosine and sine, `tp`, which is 2 pi, `sqrt`
and the conversion from decibels. Random numbers are inputs. Not modelled: parsing of the channel name, noise, path loss formula. -/

namespace Verif.Sim.Wireless

section
variable {F : Type} [Field F]

/-- `srsran_vec_sum_ccc` -/
def vadd (a b : List (Cx F)) : List (Cx F) := List.zipWith (· + ·) a b

/-- `srsran_vec_sc_prod_cfc` -/
def vscale (c : F) (a : List (Cx F)) : List (Cx F) := a.map fun x => ⟨x.re * c, x.im * c⟩

/-- `volk_32fc_s32fc_x2_rotator2_32fc`: each sample is multiplied with `rotB`, which then turns by `rotA` -/
def rotate (rotA : Cx F) : Cx F → List (Cx F) → List (Cx F)
  | _, [] => []
  | rotB, x :: l => x * rotB :: rotate rotA (rotB * rotA) l

/-- One complex sinusoid: period in samples and phase at time 0, link.hpp:131-136 -/
structure Sine (F : Type) where
  period : Int
  phase : F
  deriving DecidableEq

/-- One tap: delay in samples, power and sinusoids, link.hpp:113-136 -/
structure Tap (F : Type) where
  delay : Nat
  power : F
  sines : List (Sine F)
  deriving DecidableEq

/-- `link_t`, link.hpp:66-136. Of `history_stage_arr` the first halves are kept, the second halves are overwritten before they are read. -/
structure Link (F : Type) where
  taps : List (Tap F)
  hist0 : List (Cx F)
  hist1 : List (Cx F)
  deriving DecidableEq

/-- Number of sinusoids, link.hpp:127 -/
def nofSinusoids : Nat := 40

/-- `static_cast` to an integer -/
def trunc [LinearOrder F] [FloorRing F] (x : F) : Int := if 0 ≤ x then ⌊x⌋ else ⌈x⌉

/-- Period of a Doppler frequency, link.cpp:195-200 -/
def periodOf [LinearOrder F] [FloorRing F] (rate : Nat) (f : F) : Int :=
  if -(1 / 100) < f ∧ f < 1 / 100 then 9223372036854775807 else trunc (rate / f)

/-- Samples rotated by one sinusoid, link.cpp:235-256; the remainder of a division by zero is undefined -/
def sineOut (cis : F → Cx F) (tp : F) (t : Int) (w : List (Cx F)) (s : Sine F) : Res (List (Cx F)) :=
  if s.period = 0 then .ub
  else
    let s2s := tp / (s.period : F)
    let off : F := ((t.tmod |s.period| : Int) : F)
    .ok (rotate (cis s2s) (cis (s2s * off + s.phase)) w)

/-- Sum of the sinusoids of a tap, link.cpp:231-260 -/
def sinesOut (cis : F → Cx F) (tp : F) (t : Int) (w : List (Cx F)) (ss : List (Sine F)) : Res (List (Cx F)) :=
  ss.foldlM (fun acc s => do
    let r ← sineOut cis tp t w s
    .ok (vadd r acc)) (List.replicate w.length 0)

/-- One tap, link.cpp:227-276: `buf` are the former and the new samples -/
def tapOut (sqrt : F → F) (cis : F → Cx F) (tp : F) (spp : Nat) (t : Int) (buf out : List (Cx F)) (p : Tap F) : Res (List (Cx F)) :=
  if spp < p.delay then .ub
  else do
    let w := (buf.drop (spp - p.delay)).take spp
    let r ← sinesOut cis tp t w p.sines
    let scale := 1 / sqrt (nofSinusoids : F) * sqrt p.power
    .ok (vadd (vscale scale r) out)

/-- `pass_through_link`, link.cpp:215-280 -/
def Link.pass (sqrt : F → F) (cis : F → Cx F) (tp : F) (spp : Nat) (l : Link F) (inp : List (Cx F)) (primary : Bool) (t : Int) :
    Res (Link F × List (Cx F)) := do
  let hist := if primary then l.hist0 else l.hist1
  let out ← l.taps.foldlM (tapOut sqrt cis tp spp t (hist ++ inp)) (List.replicate spp 0)
  .ok (if primary then { l with hist0 := inp } else { l with hist1 := inp }, out)

/-! ## Power delay profile -/

/-- Delays of the profiles in ns, the finite values of link.hpp:88-92 -/
def genericDelays : List (List Nat) :=
  [[0, 30, 70, 90, 110, 190, 410], [0, 30, 150, 310, 370, 710, 1090, 1730, 2510], [0, 50, 120, 200, 230, 500, 1600, 2300, 5000]]

/-- Powers of the profiles in dB, the finite values of link.hpp:95-99 -/
def genericPowers : List (List ℚ) :=
  [[0, -1, -2, -3, -8, -86 / 5, -104 / 5], [0, -3 / 2, -7 / 5, -18 / 5, -3 / 5, -91 / 10, -7, -12, -169 / 10], [-1, -1, -1, 0, 0, 0, -3, -5, -7]]

/-- Add a tap or add its power to the tap with the same delay, link.cpp:106-124 -/
def addTap : List (Nat × F) → Nat × F → List (Nat × F)
  | [], x => [x]
  | y :: l, x => if y.1 = x.1 then (y.1, y.2 + x.2) :: l else y :: addTap l x

/-- Normalization and asserts, link.cpp:127-146, on exact numbers -/
def normalize [LinearOrder F] (spp : Nat) (l : List (Nat × F)) : Res (List (Nat × F)) := do
  let sum := (l.map (·.2)).sum
  let l := l.map fun x => (x.1, x.2 / sum)
  Res.assert (!l.isEmpty)
  Res.assert (decide ((l.headD ((1 : Nat), 0)).1 = 0))
  Res.assert (decide (999 / 1000 < (l.map (·.2)).sum))
  Res.assert (decide ((l.map (·.2)).sum < 10001 / 10000))
  Res.assert (decide ((l.getLastD (0, 0)).1 < spp))
  .ok l

/-- `set_pdp`, link.cpp:72-146: `c` is the number of samples one ns of the profile is stretched to (`1.0e-9 * scale / Ts`), `db2pow` converts
decibels. The root mean square of the profile (link.cpp:288-322) is part of `c`. -/
def setPdp [LinearOrder F] [FloorRing F] (db2pow : ℚ → F) (c : F) (spp idx : Nat) : Res (List (Nat × F)) := do
  Res.assert (decide (idx < 3))
  normalize spp (((genericDelays.getD idx []).zip (genericPowers.getD idx [])).foldl
    (fun acc x => addTap acc (⌊(x.1 : F) * c⌋.toNat, db2pow x.2)) [])

/-! ## Channels -/

/-- The small scale fading of a channel -/
inductive Chan (F : Type) where
  | awgn
  | flat (coeffs : List (Cx F))
  | doubly (links : List (Link F))
  deriving DecidableEq

/-- Element without a check of the index -/
def atU {α : Type} (l : List α) (i : Nat) : Res α :=
  match l[i]? with
  | some x => .ok x
  | none => .ub

variable (sqrt : F → F) (cis : F → Cx F) (tp : F) (spp : Nat)

/-- Small scale fading between two antennas, channel_awgn.cpp:57, channel_flat.cpp:66-69, channel_doubly.cpp:79-80 -/
def Chan.small (c : Chan F) (idx : Nat) (primary : Bool) (t : Int) (l : List (Cx F)) : Res (Chan F × List (Cx F)) :=
  match c with
  | .awgn => .ok (.awgn, l)
  | .flat coeffs => do
    let z ← atU coeffs idx
    .ok (.flat coeffs, l.map fun x => x * z)
  | .doubly links => do
    let k ← atU links idx
    let r ← k.pass sqrt cis tp spp l primary t
    .ok (.doubly (links.set idx r.1), r.2)

/-- Body of both loops, channel_doubly.cpp:69-85 and likewise channel_flat.cpp:56-74 and channel_awgn.cpp:47-62: `g` is the large scale fading,
`x` the signals of the antennas of the other device -/
def superStep (nRx : Nat) (primary : Bool) (t : Int) (g : Nat → Nat → F) (x : List (List (Cx F))) (s : Chan F × List (List (Cx F)))
    (p : Nat × Nat) : Res (Chan F × List (List (Cx F))) := do
  let inp ← atU x p.1
  let r ← s.1.small sqrt cis tp spp (p.1 * nRx + p.2) primary t (vscale (g p.1 p.2) inp)
  let old ← atU s.2 p.2
  .ok (r.1, s.2.set p.2 (vadd r.2 old))

/-- The pairs of antennas in the order of the loops -/
def antennaPairs (nTx nRx : Nat) : List (Nat × Nat) := (List.range nTx).flatMap fun a => (List.range nRx).map fun b => (a, b)

/-- `superimpose`, channel_doubly.cpp:58-87, channel_flat.cpp:48-76, channel_awgn.cpp:39-64; `ids` are `id_0` and `id_1` -/
def superimpose (idTx idRx nTx nRx : Nat) (t : Int) (g : Nat → Nat → F) (x : List (List (Cx F))) (ids : Nat × Nat) (c : Chan F)
    (rx : List (List (Cx F))) : Res (Chan F × List (List (Cx F))) := do
  Res.assert ((decide (idTx = ids.1) && decide (idRx = ids.2)) || (decide (idTx = ids.2) && decide (idRx = ids.1)))
  (antennaPairs nTx nRx).foldlM (superStep sqrt cis tp spp nRx (decide (idTx < idRx)) t g x) (c, rx)

/-- `spp_zero`, vspp.cpp:52-58 -/
def sppZero (offset n : Nat) (rx : List (List (Cx F))) : Res (List (List (Cx F))) := do
  Res.assert (decide (n ≠ 0) && decide (offset + n ≤ spp))
  .ok (rx.map fun l => l.take offset ++ List.replicate n 0 ++ l.drop (offset + n))

/-- What a device sends: number of antennas, samples, position and length of what is not zero (`tx_idx`, negative if there is nothing),
vspp/vspptx.hpp -/
structure Tx (F : Type) where
  nAnt : Nat
  x : List (List (Cx F))
  idx : Int
  len : Nat

/-- Step 2 of `wchannel_execute` for device `d`, vspace.cpp:456-469: the channels in the order of the loop, each with the device at its
other end. The lookup of the channel is C62. -/
def executeInter (d nRx : Nat) (t : Int) (g : Nat → Nat → Nat → F) (tx : Nat → Tx F) :
    List (Nat × Chan F) → List (List (Cx F)) → Res (List (Nat × Chan F) × List (List (Cx F)))
  | [], rx => .ok ([], rx)
  | (i, c) :: cs, rx => do
    let r ← superimpose sqrt cis tp spp i d (tx i).nAnt nRx t (g i) (tx i).x (min i d, max i d) c rx
    let q ← executeInter d nRx t g tx cs r.2
    .ok ((i, r.1) :: q.1, q.2)

/-- Step 3, vspace.cpp:477-479 -/
def mute (own : Tx F) (rx : List (List (Cx F))) : Res (List (List (Cx F))) :=
  if 0 ≤ own.idx then sppZero spp own.idx.toNat own.len rx else .ok rx

/-- Steps 1 to 4 of `wchannel_execute`, vspace.cpp:449-487; noise is added afterwards -/
def execute (d nRx : Nat) (t : Int) (g : Nat → Nat → Nat → F) (tx : Nat → Tx F) (inter : List (Nat × Chan F)) (intra : Chan F)
    (rx : List (List (Cx F))) : Res (List (Nat × Chan F) × Chan F × List (List (Cx F))) := do
  let rx ← sppZero spp 0 spp rx
  let r ← executeInter sqrt cis tp spp d nRx t g tx inter rx
  let rx ← mute spp (tx d) r.2
  let q ← superimpose sqrt cis tp spp d d (tx d).nAnt nRx t (g d) (tx d).x (d, d) intra rx
  .ok (r.1, q.1, q.2)

end
end Verif.Sim.Wireless
