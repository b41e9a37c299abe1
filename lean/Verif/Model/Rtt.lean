import Verif.Model.Queue
import Verif.Model.Identity

/-!
# Measuring the round-trip time

lib/src/upper/rtt/tfw_rtt.cpp with the thread that receives datagrams, lib/src/application/application_server.cpp and
lib/src/application/socket/socket_server.cpp, and the start of the job queue, lib/src/phy/pool/worker_sync.cpp:100-114,
lib/src/phy/pool/baton.cpp:76-84.

One device is a system of threads: the server thread, the threads of the worker pool, and the thread that starts the
device. Calls of the firmware are made one at a time and jobs are processed in the order in which they entered the job
queue (C16, C18), so one call of the firmware is one step; during `work_application` the server can only add datagrams
behind the one that is read. A call of a queue is one step (C13). An event that is not possible in a state leaves the
state unchanged, so a list of events is a schedule. Clocks, the content of uninitialised memory, the availability of
HARQ processes and the values of the AGC are arguments of the events. The counters of packets (uint32_t) do not wrap. -/

namespace Verif.Upper.Rtt

open Verif.App

/-- `TFW_RTT_TX_LENGTH_MAXIMUM_BYTE`, tfw_rtt_param.hpp:28: size of `stage_a`, tfw_rtt.cpp:94 -/
def stageLen : Nat := 2000

/-- `TFW_RTT_TX_VS_RX_VERIFICATION_LENGTH_BYTE`, tfw_rtt_param.hpp:31 -/
def verLen : Nat := 8

/-- `N_datagram`, tfw_rtt.cpp:71-72 -/
def nDatagram : Nat := 4

/-- `application_max_queue_datagram_byte`, limits.hpp:79: size of a slot and of `buffer_local`, application.hpp:90 -/
def maxByte : Nat := 1600

/-- `UNDEFINED_EARLY_64`, miscellaneous.hpp:71 -/
def undefinedEarly : Int := -1152921504606846976

/-- Constants of a device. -/
structure Cfg where
  /-- `tpoint_config.firmware_id == 0` -/
  ft : Bool
  /-- `packet_sizes.N_TB_byte` for `psdef`, tfw_rtt.cpp:44-50 -/
  nTb : Nat
  /-- `get_N_samples_in_packet_length` for the same -/
  nSamples : Nat
  /-- `hw.get_tmin_samples(turnaround)` -/
  turnaround : Nat
  /-- 50 ms in samples, tfw_rtt.cpp:329-331 -/
  agcPause : Nat
  /-- `job_queue_access_protection_ns_64`, application_server.hpp:101; zero if not set -/
  prot : Nat

/-- Gains requested together with a packet. -/
abbrev Adj := List Int × List Int

/-- A packet for transmission, `tx_descriptor_t`: content of the transport block, `tx_order_id`, `tx_time_64` and the
requested gains. -/
structure Tx where
  tb : List Nat
  order : Nat
  time : Int
  adj : Option Adj
  deriving DecidableEq, Repr

/-- Members of `tfw_rtt_t`, tfw_rtt.hpp:60-92, and of `tpoint_t`. `watch` is the time of the last reset. -/
structure Fw where
  txCnt : Nat
  rxCnt : Nat
  rttMin : Int
  rttMax : Int
  watch : Int
  stage : List Nat
  order : Nat
  earliest : Int
  tAgc : Int
  deriving DecidableEq, Repr

/-- After the constructor, tfw_rtt.cpp:35-95; `clk` is the time at which the watch was constructed, `first` the initial
value of `tx_earliest_64`, which is at most `UNDEFINED_EARLY_64` (tpoint.cpp:47-48). -/
def Fw.init (clk first : Int) : Fw :=
  ⟨0, 0, -undefinedEarly, undefinedEarly, clk, List.replicate stageLen 0, 0, first, undefinedEarly⟩

/-- The bytes of an int64_t in memory, little endian. -/
def le8 (x : Int) : List Nat := (List.range 8).map fun i => (x % 18446744073709551616).toNat / 256 ^ i % 256

/-- `memcpy` of `src` to position `pos` of `dst`; undefined if it does not fit. -/
def copyAt (dst : List Nat) (pos : Nat) (src : List Nat) : Res (List Nat) :=
  if pos + src.length ≤ dst.length then .ok (dst.take pos ++ src ++ dst.drop (pos + src.length)) else .ub

/-- The first `n` bytes of a buffer; undefined if it is smaller. -/
def firstBytes (a : List Nat) (n : Nat) : Res (List Nat) := if n ≤ a.length then .ok (a.take n) else .ub

/-- The part of `generate_packet_asap` that fills the transport block, tfw_rtt.cpp:254-269. -/
def fill (c : Cfg) (stage : List Nat) (q : Queue) (buf : List Nat) : Res (Queue × List Nat) :=
  if c.ft then do
    let l ← q.levels 1
    match l with
    | [] => .abort
    | n :: _ => do
      Res.assert (decide (n ≤ c.nTb))
      let (q', m, d) := q.read
      let buf ← copyAt buf 0 d
      Res.assert (decide (n = m))
      pure (q', buf)
  else do
    let s ← firstBytes stage c.nTb
    let buf ← copyAt buf 0 s
    pure (q, buf)

/-- `generate_packet_asap`, tfw_rtt.cpp:236-293. `hp` is the buffer of the HARQ process with its old content, or none
if there is no process (process_pool.cpp:50-66, the assert is line 53); `now` is `get_rx_time_passed()`. -/
def generate (c : Cfg) (f : Fw) (q : Queue) (hp : Option (List Nat)) (now : Int) (adj : Option Adj) :
    Res (Fw × Queue × Option Tx) :=
  match hp with
  | none => .ok (f, q, none)
  | some buf => do
    Res.assert (decide (c.nTb ≤ buf.length))
    let (q', buf) ← fill c f.stage q buf
    let time := max f.earliest (now + c.turnaround)
    pure ({ f with order := f.order + 1, earliest := time + c.nSamples }, q', some ⟨buf.take c.nTb, f.order, time, adj⟩)

/-- `work_application` for connection 1, tfw_rtt.cpp:178-211; the output to the log is left out. -/
def report (f : Fw) : Fw := { f with txCnt := 0, rxCnt := 0, rttMin := -undefinedEarly, rttMax := undefinedEarly }

/-- `work_application`, tfw_rtt.cpp:167-222; `clk` is the time of the operating system. -/
def workApplication (c : Cfg) (f : Fw) (q : Nat → Queue) (conn : Nat) (clk : Int) (hp : Option (List Nat)) (now : Int) :
    Res (Fw × (Nat → Queue) × Option Tx) :=
  if !c.ft then .ok (f, q, none)
  else if conn = 1 then .ok (report f, Function.update q 1 (q 1).read.1, none)
  else do
    let (f, q0, tx) ← generate c { f with watch := clk } (q 0) hp now none
    pure ({ f with txCnt := f.txCnt + 1 }, Function.update q 0 q0, tx)

/-- The portable device answers, tfw_rtt.cpp:326-341. -/
def answer (c : Cfg) (f : Fw) (q : Queue) (hp : Option (List Nat)) (now : Int) (adj : Adj) : Res (Fw × Queue × Option Tx) :=
  if f.tAgc + c.agcPause ≤ now then generate c { f with tAgc := now } q hp now (some adj)
  else generate c f q hp now none

/-- `work_pdc` and `work_pdc_error`, tfw_rtt.cpp:159-165, 295-345. `mem` is the buffer that holds the received transport
block, `cnt` the number of bytes of the transport block. `write_immediate` sends the whole datagram or the program aborts
(socket_client.cpp:71). The result includes the datagram sent to the program that measures. -/
def workPdc (c : Cfg) (f : Fw) (q : Queue) (mem : List Nat) (cnt : Nat) (clk : Int) (hp : Option (List Nat)) (now : Int)
    (adj : Adj) : Res (Fw × Queue × Option (List Nat) × Option Tx) :=
  if c.ft then do
    let rtt := clk - f.watch
    let a ← firstBytes mem verLen
    let s ← copyAt f.stage 0 a
    let s ← copyAt s verLen (le8 rtt)
    let out ← firstBytes s cnt
    pure ({ f with rttMin := min f.rttMin rtt, rttMax := max f.rttMax rtt, stage := s, rxCnt := f.rxCnt + 1 }, q, some out, none)
  else do
    let a ← firstBytes mem cnt
    let s ← copyAt f.stage 0 a
    let (f, q, tx) ← answer c { f with stage := s } q hp now adj
    pure (f, q, none, tx)

/-- Fields of a PLCF of type 1 as far as they are tested. -/
structure Plcf where
  header : Nat
  net : Nat
  tx : Nat

/-- The identities of both devices, tfw_rtt.cpp:52-55. -/
def identities : Res (Identity.Ident × Identity.Ident) := do
  let ft ← Identity.mk 100 444 555
  pure (ft, { ft with longRdId := ft.longRdId + 1, shortRdId := ft.shortRdId + 1 })

/-- The PLCF that a device sends, tfw_rtt.cpp:57-69. -/
def ownPlcf (c : Cfg) : Res Plcf := do
  let (ft, pt) ← identities
  pure (if c.ft then ⟨0, ft.shortNetworkId, ft.shortRdId⟩ else ⟨0, pt.shortNetworkId, pt.shortRdId⟩)

/-- `work_pcc`, tfw_rtt.cpp:113-157: whether the PDC is received. `p` is the PLCF of type 1, if there is one. -/
def workPcc (c : Cfg) (p : Option Plcf) : Res Bool := do
  let (ft, pt) ← identities
  match p with
  | none => .ok false
  | some p =>
    if p.header ≠ 0 then .ok false
    else if p.net ≠ ft.shortNetworkId then .ok false
    else if c.ft then .ok (p.tx = pt.shortRdId)
    else .ok (p.tx = ft.shortRdId)

/-! ## The threads of a device -/

/-- The server thread. -/
inductive Srv
  /-- in `poll` or before it -/
  | idle
  /-- has written a datagram of `n` bytes, `enqueue_job_nto` next, application_server.cpp:64 -/
  | written (conn n : Nat)
  /-- `enqueue_nto` has found the queue permeable, job_queue_mc.cpp:39 -/
  | enqueuing (conn n : Nat)
  deriving DecidableEq, Repr

/-- The thread that starts the device. -/
inductive Boot
  /-- `work_start`, tfw_rtt.cpp:98: `queue_vec[0]` of the server is cleared next, application.cpp:72-76 -/
  | clear0
  | clear1
  /-- `set_permeable` next, worker_sync.cpp:112-114 -/
  | permeable
  | done
  deriving DecidableEq, Repr

/-- State and history: the datagrams accepted since the queue was cleared, the packets transmitted and the datagrams
returned to the program, oldest first, and the times measured since the last report. -/
structure Sys where
  fw : Fw
  q : Nat → Queue
  permeable : Bool
  /-- connection and number of bytes, oldest first, `application_report_t` -/
  jobs : List (Nat × Nat)
  srv : Srv
  boot : Boot
  got : Nat → List (List Nat)
  since : List Int
  sent : List Tx
  replies : List (List Nat)

/-- The server was started in the constructor, tfw_rtt.cpp:92. -/
def Sys.init (junk : Nat → Nat → List Nat) (clk first : Int) : Sys :=
  ⟨Fw.init clk first, fun i => Queue.init nDatagram maxByte (junk i), false, [], .idle, .clear0, fun _ => [], [], [], []⟩

inductive Ev
  /-- The server thread receives a datagram. -/
  | recv (conn : Nat) (d : List Nat)
  /-- The server thread calls `enqueue_job_nto`, `elapsed` ns after the watch was reset. -/
  | announce (elapsed : Nat)
  /-- The server thread puts the job into the queue. -/
  | enqueue
  /-- The thread that starts the device. -/
  | boot
  /-- A worker processes the oldest job. -/
  | work (clk : Int) (hp : Option (List Nat)) (now : Int)
  /-- A worker has received a packet; `crc` is the result of the checksum. -/
  | pdc (mem : List Nat) (cnt : Nat) (crc : Bool) (clk : Int) (hp : Option (List Nat)) (now : Int) (adj : Adj)
  deriving DecidableEq, Repr

/-- `work_sc` for one datagram, application_server.cpp:46-66. The operating system cuts the datagram to the size of the
buffer, socket_server.cpp:89-96; the filter admits everything, socket_server.cpp:98-102. -/
def recvStep (s : Sys) (conn : Nat) (d : List Nat) : Res Sys :=
  match s.srv with
  | .idle =>
    if conn < 2 then
      let d := d.take maxByte
      if 0 < d.length then do
        let (q, n) ← (s.q conn).write d
        pure { s with
          q := Function.update s.q conn q
          srv := if 0 < n then .written conn n else .idle
          got := if 0 < n then Function.update s.got conn (s.got conn ++ [d]) else s.got }
      else .ok s
    else .ok s
  | _ => .ok s

/-- `enqueue_job_nto`, application_server.cpp:76-83, up to the test in job_queue_mc.cpp:39-41. -/
def announceStep (c : Cfg) (s : Sys) (elapsed : Nat) : Sys :=
  match s.srv with
  | .written conn n =>
    { s with srv := if c.prot ≤ elapsed then (if s.permeable then .enqueuing conn n else .idle) else .idle }
  | _ => s

/-- job_queue_mc.cpp:43-55 -/
def enqueueStep (s : Sys) : Sys :=
  match s.srv with
  | .enqueuing conn n => { s with srv := .idle, jobs := s.jobs ++ [(conn, n)] }
  | _ => s

def bootStep (s : Sys) : Sys :=
  match s.boot with
  | .clear0 => { s with boot := .clear1, q := Function.update s.q 0 (s.q 0).clear, got := Function.update s.got 0 [] }
  | .clear1 => { s with boot := .permeable, q := Function.update s.q 1 (s.q 1).clear, got := Function.update s.got 1 [] }
  | .permeable => { s with boot := .done, permeable := true }
  | .done => s

/-- worker_tx_rx.cpp:230-234; the packet is transmitted, `run_tx_chscan`. -/
def workStep (c : Cfg) (s : Sys) (clk : Int) (hp : Option (List Nat)) (now : Int) : Res Sys :=
  match s.jobs with
  | [] => .ok s
  | (conn, _) :: js => do
    let (f, q, tx) ← workApplication c s.fw s.q conn clk hp now
    pure { s with
      fw := f
      q := q
      jobs := js
      sent := s.sent ++ tx.toList
      since := if c.ft && conn = 1 then [] else s.since }

/-- worker_tx_rx.cpp:191-201: both results of the checksum lead to the same function. -/
def pdcStep (c : Cfg) (s : Sys) (mem : List Nat) (cnt : Nat) (clk : Int) (hp : Option (List Nat)) (now : Int) (adj : Adj) : Res Sys := do
  let (f, q, out, tx) ← workPdc c s.fw (s.q 0) mem cnt clk hp now adj
  pure { s with
    fw := f
    q := Function.update s.q 0 q
    sent := s.sent ++ tx.toList
    replies := s.replies ++ out.toList
    since := if c.ft then s.since ++ [clk - s.fw.watch] else s.since }

def step (c : Cfg) (s : Sys) : Ev → Res Sys
  | .recv conn d => recvStep s conn d
  | .announce e => .ok (announceStep c s e)
  | .enqueue => .ok (enqueueStep s)
  | .boot => .ok (bootStep s)
  | .work clk hp now => workStep c s clk hp now
  | .pdc mem cnt _ clk hp now adj => pdcStep c s mem cnt clk hp now adj

/-- A schedule. -/
def run (c : Cfg) (s : Sys) : List Ev → Res Sys
  | [] => .ok s
  | e :: es => do
    let s ← step c s e
    run c s es

end Verif.Upper.Rtt
