import Verif.Model.Encoder
import Verif.Model.Queue

/-!
# The point-to-point firmware: user data

lib/src/upper/p2p/procedure/steady_rd.cpp:354-417 and 463-510 (transmitter), steady_ft.cpp:328-346 and steady_pt.cpp:275-296,
356-359 (receiver). -/

namespace Verif.P2p

open Verif.Mac Verif.App

/-- Writing to a transport block. Its memory is as large as the transport block. -/
def put (mem : List Nat) (pos : Nat) (l : List Nat) : Res (List Nat) :=
  if pos + l.length ≤ mem.length then .ok (mem.take pos ++ (l ++ mem.drop (pos + l.length))) else .ub

/-- Datagrams that the thread of the application server writes to the queue, application_server.cpp:59 -/
def serverWrites (q : Queue) : List (List Nat) → Res Queue
  | [] => .ok q
  | d :: ds => do
    let r ← q.write d
    serverWrites r.1 ds

/-- The loop steady_rd.cpp:470-499, from datagram `i` on: position in the transport block, transport block, and queue. The
list contains the levels reported before. `conc i` are the datagrams that the server writes before datagram `i` is
read. -/
def sduLoop (tb : Nat) (conc : Nat → List (List Nat)) : List Nat → Nat → Nat → List Nat → Queue →
    Res (Nat × List Nat × Queue)
  | [], _, w, mem, q => .ok (w, mem, q)
  | n :: ls, i, w, mem, q => do
    let ie ← flowIe 1
    let h ← setDataSize { Mmh.zero with ie := ie } n
    let hs ← h.packedSize
    if tb ≤ w + (hs + n) then .ok (w, mem, q)
    else do
      let l ← h.pack
      let mem ← put mem w l
      Res.assert (decide (w + hs + n ≤ tb))
      let q ← serverWrites q (conc i)
      let mem ← put mem (w + hs) q.read.2.2
      if q.read.2.1 = 0 then .ok (w, mem, q.read.1)
      else sduLoop tb conc ls (i + 1) (w + (hs + n)) mem q.read.1

/-- `worksub_tx_unicast_mac_sdu`, steady_rd.cpp:463-510: the queue and, if something is sent, the transport block -/
def macSdu (tb : Nat) (h : HeaderType) (m : Mch) (conc : Nat → List (List Nat)) (levels : List Nat) (mem : List Nat) (q : Queue) :
    Res (Queue × Option (List Nat)) := do
  let a ← h.pack
  let b ← m.pack
  let mem ← put mem 0 (a ++ b)
  let w := a.length + b.length
  let r ← sduLoop tb conc levels 0 w mem q
  if r.1 = w then .ok (r.2.2, none)
  else do
    let p ← fillWithPadding (r.2.1.drop r.1) (tb - r.1)
    .ok (r.2.2, some (r.2.1.take r.1 ++ p))

/-- `worksub_tx_unicast`, steady_rd.cpp:354-417, as far as it concerns the data, with a HARQ process available -/
def txUnicast (tb : Nat) (h : HeaderType) (m : Mch) (conc : Nat → List (List Nat)) (mem : List Nat) (q : Queue) :
    Res (Queue × Option (List Nat)) := do
  let levels ← q.levels 8
  if levels = [] then .ok (q, none) else macSdu tb h m conc levels mem q

/-- The loop over the elements decoded, steady_ft.cpp:331-344, steady_pt.cpp:285-294: all user data is written to the queue
of the application client; the number of datagrams is passed to `trigger_forward_nto`. -/
def rxUnicast (q : Queue) : List Dec.Seen → Res (Queue × Nat)
  | [] => .ok (q, 0)
  | .data _ bytes :: ss => do
    let r ← q.write bytes
    let t ← rxUnicast r.1 ss
    .ok (t.1, if 0 < r.2 then t.2 + 1 else t.2)
  | _ :: ss => rxUnicast q ss

end Verif.P2p
