import Verif.Model.Allocation

/-!
# The point-to-point firmware: resources and scheduling

lib/src/upper/p2p/procedure/steady_rd.cpp, steady_ft.cpp, steady_pt.cpp.

Left out: the content of the packets (C51), HARQ processes, and the receiving side. Whether `worksub_tx_unicast`
(steady_rd.cpp:354-418) sends something depends on the queue of the application, the HARQ processes and the size of the
datagram; here it is an arbitrary Boolean of the environment, as is the time returned by `get_rx_time_passed`. -/

namespace Verif.P2p

open Verif.Mac.Allocation Verif.Sp3.Duration

/-- Beacon period of 10 ms, steady_rd.cpp:54 -/
def beaconPeriod (rate : Nat) : Res Nat := samples rate .ms001 10

/-- `init_allocation_pt`, steady_rd.cpp:207-262, with `gap = 0`; `nPt` is `rd.N_pt`. Arithmetic of `uint32_t`. -/
def initAllocationPt (rate nPt nRes : Nat) (turnaround : Int) (firmwareId : Nat) : Res Alloc := do
  let period ← beaconPeriod rate
  let validBeacon ← samples rate .ms001 16
  let validNow ← samples rate .ms001 11
  let a := Alloc.make period validBeacon validNow turnaround
  if nPt ≤ firmwareId then .ok a
  else do
    let offset := (2 + firmwareId * 4) % 4294967296
    let stride := 4 * nPt % 4294967296
    let a ← Alloc.addRegular rate .ul offset 2 stride .slot001 nRes 0 a
    Alloc.addRegular rate .dl ((offset + 2) % 4294967296) 2 stride .slot001 nRes 0 a

/-- `init_identity_pt`, steady_rd.cpp:197-205, with the identity of steady_rd.cpp:51: long and short radio device ID -/
def initIdentityPt (firmwareId : Nat) : Nat × Nat :=
  ((10000000 + (1 + firmwareId)) % 4294967296, (1000 + (1 + firmwareId)) % 4294967296)

open Classical in
/-- `get_tx_opportunity`: the result with which the loop ends. A loop that does not end and has no effect is undefined. -/
noncomputable def opportunity (a : Alloc) (d : Dir) (now earliest : Int) : Res Opportunity :=
  if h : ∃ r, ∃ F, ∀ fuel, F ≤ fuel → getTxOpportunity fuel a d now earliest = some r then h.choose else .ub

/-- A transmission: order, time, number of samples reserved, for which contact (`none`: beacon), and for the others when
it was decided -/
structure Tx where
  order : Nat
  time : Int
  len : Int
  dest : Option Nat
  now : Int
  deriving DecidableEq, Repr

/-- `get_rx_time_passed` and whether `worksub_tx_unicast` sends -/
structure Env where
  now : Int
  sent : Bool

/-- The fixed termination point: `rd.allocation_ft`, allocations of the contacts, `tx_order_id`, `tx_earliest_64`, and all
transmissions so far. -/
structure FtSys where
  ft : Ft
  contacts : List Alloc
  order : Nat
  earliest : Int
  log : List Tx

/-- `worksub_tx_beacon`, steady_ft.cpp:354-397, with a HARQ process available; `len` is the length of the beacon. -/
def FtSys.beacon (len : Nat) (s : FtSys) : Res FtSys := do
  let t := s.ft.scheduled
  let ft ← s.ft.setNext
  .ok { s with ft := ft, order := s.order + 1, earliest := t, log := s.log ++ [⟨s.order, t, len, none, t⟩] }

/-- `worksub_tx_unicast`, steady_rd.cpp:403-417, as far as it concerns the schedule -/
def FtSys.unicast (j : Nat) (now : Int) (o : Opportunity) (s : FtSys) : Res FtSys := do
  let e ← i64 (o.time + o.n)
  .ok { s with order := s.order + 1, earliest := e, log := s.log ++ [⟨s.order, o.time, o.n, some j, now⟩] }

/-- Body of the loop over the contacts, steady_ft.cpp:474-496, for contact `j`. The Boolean tells whether the function
returns. -/
noncomputable def FtSys.attempt (e : Env) (j : Nat) (s : FtSys) : Res (FtSys × Bool) :=
  match s.contacts[j]? with
  | none => .ub
  | some a => do
    let a := a.setBeacon s.ft.transmitted
    let s := { s with contacts := s.contacts.set j a }
    let o ← opportunity a .dl e.now s.earliest
    if o.time < 0 then .ok (s, true)
    else if e.sent then do
      let s ← s.unicast j e.now o
      .ok (s, false)
    else .ok (s, false)

/-- The loop over the contacts from contact `j` on, `k` of them -/
noncomputable def FtSys.contactLoop (env : Nat → Env) : Nat → Nat → FtSys → Res (FtSys × Bool)
  | 0, _, s => .ok (s, false)
  | k + 1, j, s => do
    let r ← s.attempt (env j) j
    if r.2 then .ok r else contactLoop env k (j + 1) r.1

/-- The loop over the packets, `k` of them, steady_ft.cpp:472 -/
noncomputable def FtSys.packetLoop (env : Nat → Nat → Env) : Nat → FtSys → Res FtSys
  | 0, s => .ok s
  | k + 1, s => do
    let r ← s.contactLoop (env k) s.contacts.length 0
    if r.2 then .ok r.1 else packetLoop env k r.1

/-- `worksub_tx_unicast_consecutive`, steady_ft.cpp:470-498; `max_simultaneous_tx_unicast` is 8. -/
noncomputable def FtSys.consecutive (env : Nat → Nat → Env) (s : FtSys) : Res FtSys := s.packetLoop env 8

inductive FtEvent
  /-- `work_irregular`; times of the report -/
  | irregular (asap delay : Int) (env : Nat → Nat → Env)
  | application (env : Nat → Nat → Env)

/-- `work_irregular`, steady_ft.cpp:109-143, and `work_application`, 145-152; not shutting down. -/
noncomputable def FtSys.event (len : Nat) (s : FtSys) : FtEvent → Res FtSys
  | .irregular asap delay env => do
    Res.assert (decide (asap < s.ft.scheduled))
    Res.assert (decide (0 < delay))
    let s ← s.beacon len
    s.consecutive env
  | .application env => s.consecutive env

noncomputable def FtSys.run (len : Nat) (s : FtSys) : List FtEvent → Res FtSys
  | [] => .ok s
  | e :: es => do
    let s ← s.event len e
    s.run len es

/-- After the constructor, steady_ft.cpp:33-103, and `entry`, 158-201, with the first beacon at time `B` -/
def FtSys.start (period prepare : Nat) (contacts : List Alloc) (B : Int) : FtSys :=
  ⟨(Ft.make period prepare).setScheduled B, contacts, 0, -1152921504606846976, []⟩

/-- The portable termination point: allocation, `tx_order_id`, `tx_earliest_64`, and all transmissions so far -/
structure PtSys where
  alloc : Alloc
  order : Nat
  earliest : Int
  log : List Tx

inductive PtEvent
  /-- `worksub_pcc_10`, steady_pt.cpp:129-150: a beacon was received at this time -/
  | beacon (t : Int)
  /-- one pass of the loop in `worksub_tx_unicast_consecutive`, steady_pt.cpp:306-325. The number of passes is left open. -/
  | attempt (e : Env)

/-- One event. In the loop a pass that finds no opportunity or sends nothing changes nothing. -/
noncomputable def PtSys.event (s : PtSys) : PtEvent → Res PtSys
  | .beacon t => .ok { s with alloc := s.alloc.setBeacon t }
  | .attempt e => do
    let o ← opportunity s.alloc .ul e.now s.earliest
    if o.time < 0 then .ok s
    else if e.sent then do
      let end' ← i64 (o.time + o.n)
      .ok { s with order := s.order + 1, earliest := end', log := s.log ++ [⟨s.order, o.time, o.n, none, e.now⟩] }
    else .ok s

noncomputable def PtSys.run (s : PtSys) : List PtEvent → Res PtSys
  | [] => .ok s
  | e :: es => do
    let s ← s.event e
    s.run es

/-- steady_pt.cpp:36-66 -/
def PtSys.start (a : Alloc) : PtSys := ⟨a, 0, -1152921504606846976, []⟩

end Verif.P2p
