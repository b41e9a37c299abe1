import Verif.Model.Feedback
import Verif.Model.Plcf
import Verif.Model.Duration
import Verif.Model.Codebook
import Mathlib.Data.Rat.Defs

/-!
# Adaptation of packets to the channel

common/adt/expiring.hpp, phy/indicators/cqi_lut, phy/rx/rx_synced/mimo/mimo_csi, mac/feedback_plan and their use by upper/p2p/procedure
(steady_rd.cpp). Numbers of samples and times are 64 bit, the difference computed in steady_rd.cpp:370-372 is checked for overflow. -/

namespace Verif.Link

open Feedback

/-- `expiring_t<uint32_t>`, expiring.hpp:29-55 -/
structure Exp where
  val : Nat
  time : Int
  deriving DecidableEq, Repr

/-- Default values, expiring.hpp:53-54; `UNDEFINED_EARLY_64` of common/adt/miscellaneous.hpp -/
def Exp.init : Exp := ⟨0, -1152921504606846976⟩

/-- `is_valid`, expiring.hpp:37 -/
def Exp.isValid (e : Exp) (latest : Int) : Bool := decide (latest ≤ e.time)

/-- `get_val_or_fallback`, expiring.hpp:48-50 -/
def Exp.get (e : Exp) (latest : Int) (fallback : Nat) : Nat := if e.isValid latest then e.val else fallback

/-! ## SNR and MCS -/

/-- `snr_required`, cqi_lut.hpp:49-60 -/
def snrRequired : List ℚ := [-1, 1, 4, 7, 11, 14, 15, 35 / 2, 21, 24, 27, 30]

/-- `cqi_lut_t`, cqi_lut.hpp:46-62, without `snr_offset` -/
structure Cqi where
  min : Nat
  max : Nat
  deriving DecidableEq, Repr

/-- Constructor, cqi_lut.cpp:29-36; the check of the offset is left out -/
def Cqi.make (min max : Nat) : Res Cqi := do
  Res.assert (decide (min ≤ max))
  Res.assert (decide (max < snrRequired.length))
  .ok ⟨min, max⟩

/-- Comparison of floating point numbers, false if one of them is not a number (`none`) -/
def fle (a : ℚ) : Option ℚ → Bool
  | some b => decide (a ≤ b)
  | none => false

/-- Loop of cqi_lut.cpp:45-51; `fuel` is the number of rounds left -/
def highestLoop (p : Option ℚ) : Nat → Nat → Nat → Nat
  | 0, _, ret => ret
  | fuel + 1, i, ret => if fle (snrRequired.getD i 0) p then highestLoop p fuel (i + 1) i else ret

/-- `get_highest_mcs_possible`, cqi_lut.cpp:38-54; `p` is `snr_pessimistic`, the difference of the SNR measured and the offset -/
def Cqi.highest (l : Cqi) (p : Option ℚ) : Nat := highestLoop p (l.max - l.min) (l.min + 1) l.min

/-- `clamp_mcs`, cqi_lut.cpp:56-58 (`std::clamp`) -/
def Cqi.clamp (l : Cqi) (m : Nat) : Nat := if m < l.min then l.min else if l.max < m then l.max else m

/-! ## Channel state information -/

/-- `mimo_csi_t`, mimo_csi.hpp:61-71, without the transmission modes, which are never set -/
structure Csi where
  fbMcs : Exp
  fbCb : Exp
  phyMcs : Exp
  phyCb : Exp
  phyCbRec : Exp
  cb : Exp
  deriving DecidableEq, Repr

def Csi.init : Csi := ⟨.init, .init, .init, .init, .init, .init⟩

/-- `update_from_feedback`, mimo_csi.cpp:27-67 -/
def Csi.fromFeedback (c : Csi) (fmt : Nat) (pool : Pool) (t : Int) : Res Csi :=
  match fmt with
  | 0 => .ok c
  | 1 => .ok c
  | 2 => .ok c
  | 3 => .ok c
  | 4 => .ok { c with fbMcs := ⟨pool.f4.mcs, t⟩ }
  | 5 => .ok { c with fbCb := ⟨pool.f5.codebook, t⟩, cb := ⟨pool.f5.codebook, t⟩ }
  | 6 => .ok c
  | _ => .abort

/-- `update_from_phy` with a MIMO report, mimo_csi.cpp:69-82 -/
def Csi.fromReport (c : Csi) (idx recip : Nat) (t : Int) : Csi :=
  { c with phyCb := ⟨idx, t⟩, phyCbRec := ⟨recip, t⟩, cb := ⟨recip, t⟩ }

/-- `update_from_phy` with an MCS, mimo_csi.cpp:84-86 -/
def Csi.fromMcs (c : Csi) (mcs : Nat) (t : Int) : Csi := { c with phyMcs := ⟨mcs, t⟩ }

/-! ## Packets to a contact -/

/-- `contact_p2p_t`, contact_p2p.hpp: channel state information and feedback plan (feedback_plan.hpp:37-38) -/
structure Contact where
  csi : Csi
  plan : List Nat
  idx : Nat
  deriving DecidableEq, Repr

/-- Constructors of `mimo_csi_t` and `feedback_plan_t`, feedback_plan.cpp:27-29 -/
def Contact.init (plan : List Nat) : Contact := ⟨.init, plan, 0⟩

/-- `get_current_feedback_format`, feedback_plan.cpp:31 -/
def Contact.format (c : Contact) : Res Nat := Phy.Codebook.atA c.plan c.idx

/-- `set_next_feedback_format`, feedback_plan.cpp:33-36 -/
def Contact.next (c : Contact) : Res Contact := if c.plan.length = 0 then .ub else .ok { c with idx := (c.idx + 1) % c.plan.length }

/-- `worksub_tx_unicast_feedback`, steady_rd.cpp:446-461: contents of the feedback info -/
def feedbackPool (l : Cqi) (c : Csi) (exp : Int) (fmt : Nat) (pool : Pool) : Pool :=
  match fmt with
  | 4 => { pool with f4 := { pool.f4 with mcs := c.phyMcs.get exp l.min } }
  | 5 => { pool with f5 := { pool.f5 with codebook := c.phyCb.get exp 0 } }
  | _ => pool

/-- What a packet is sent with: MCS, feedback format, feedback info, codebook index -/
structure Packet where
  mcs : Nat
  fmt : Nat
  pool : Pool
  cb : Nat
  deriving DecidableEq, Repr

/-- `worksub_tx_unicast`, steady_rd.cpp:369-428, as far as it concerns the adaptation: `tx` is the time of transmission, `harq` tells whether
a HARQ process is available, `written` whether any data was written (lines 396-401). `mimo` is true if the firmware is compiled with
`TFW_P2P_MIMO`. The feedback info is a member of the firmware shared by all contacts. -/
def txUnicast (l : Cqi) (mimo : Bool) (rate : Nat) (tx : Int) (harq written : Bool) (pool : Pool) (c : Contact) :
    Res (Contact × Pool × Option Packet) := do
  let n ← Sp3.Duration.samples rate .ms001 50
  let exp ← Sp3.Duration.i64 (tx - n)
  let mcs := l.clamp (c.csi.fbMcs.get exp l.min)
  if !harq then .ok (c, pool, none)
  else do
    let fmt ← c.format
    let pool := feedbackPool l c.csi exp fmt pool
    if !written then .ok (c, pool, none)
    else do
      let c ← c.next
      let cb := if mimo then c.csi.cb.get exp 0 else 0
      .ok (c, pool, some ⟨mcs, fmt, pool, cb⟩)

/-- What happens to a contact: a PLCF arrives (steady_ft.cpp:295-296, steady_pt.cpp:205-206), a packet arrives of which the SNR less the offset
is `p` (steady_ft.cpp:347-349, steady_pt.cpp:258-260, 298-300), a beacon arrives with a MIMO report (steady_pt.cpp:255-256), a packet may be
sent, a packet for another contact leaves its feedback info in the firmware -/
inductive Event where
  | plcf (fmt : Nat) (pool : Pool) (t : Int)
  | snr (p : Option ℚ) (t : Int)
  | report (idx recip : Nat) (t : Int)
  | send (tx : Int) (harq written : Bool)
  | other (pool : Pool)

/-- One event; the packet sent, if any -/
def step (l : Cqi) (mimo : Bool) (rate : Nat) (s : Contact × Pool) : Event → Res ((Contact × Pool) × Option Packet)
  | .plcf fmt pool t => do
    let csi ← s.1.csi.fromFeedback fmt pool t
    .ok (({ s.1 with csi := csi }, s.2), none)
  | .snr p t => .ok (({ s.1 with csi := s.1.csi.fromMcs (l.highest p) t }, s.2), none)
  | .report idx recip t => .ok (({ s.1 with csi := s.1.csi.fromReport idx recip t }, s.2), none)
  | .send tx harq written => do
    let r ← txUnicast l mimo rate tx harq written s.2 s.1
    .ok ((r.1, r.2.1), r.2.2)
  | .other pool => .ok ((s.1, pool), none)

/-- A history, and the packets sent in it -/
def run (l : Cqi) (mimo : Bool) (rate : Nat) : Contact × Pool → List Event → Res ((Contact × Pool) × List Packet)
  | s, [] => .ok (s, [])
  | s, e :: es => do
    let r ← step l mimo rate s e
    let q ← run l mimo rate r.1 es
    .ok (q.1, r.2.toList ++ q.2)

end Verif.Link
