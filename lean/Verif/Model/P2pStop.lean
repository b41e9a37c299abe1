import Verif.Base.Res

/-!
# Life of a point-to-point device from start to stop

upper/p2p/tfw_p2p_ft, tfw_p2p_pt, tfw_p2p_rd and the procedures, with the parts of worker_sync and worker_tx_rx that carry irregular reports.

One event is one step of some thread. A job is processed in one step, as the token (C18) serialises the calls of the firmware. The irregular queue is
a multiset with a limit, of which the earliest report is popped (C17); the job queue is FIFO (C16). What a firmware in steady state does beyond
requesting the next irregular call (beacons, data) is left to the environment: how many packets it sends, whether the beacon could be sent and
the time of the next call. -/

namespace Verif.P2p.Stop

/-- FT or PT -/
inductive Kind | ft | pt
  deriving DecidableEq

/-- `tpoint_state`: `resource` or `association`, `steady_*`, `dissociation_*`, `nop` -/
inductive Fw | first | steady | diss | nop
  deriving DecidableEq

/-- `irregular_report_t`: time and handle -/
structure Report where
  time : Int
  handle : Nat
  deriving DecidableEq

/-- A job: an irregular report with the time it was recognized, or something else -/
inductive Job | irr (r : Report) (recognized : Int) | other
  deriving DecidableEq

/-- Main thread: before `work_stop`, about to check `stop_released` with the mutex, waiting for `stop_cvar`, past the wait, queue impermeable,
server stopped, client stopped -/
inductive Main | running | checking | sleeping | passed | closed | serverStopped | done
  deriving DecidableEq

/-- Kind of device, capacities of job queue and irregular queue, samples in 100 ms and 500 ms -/
structure Cfg where
  kind : Kind
  cap : Nat
  slots : Nat
  ms100 : Int
  ms500 : Int

structure St where
  started : Bool
  fw : Fw
  shutting : Bool
  irr : List Report
  jobs : List Job
  permeable : Bool
  main : Main
  released : Bool
  now : Int
  tx : Nat
  deriving DecidableEq

def St.init : St := ⟨false, .first, false, [], [], false, .running, false, 0, 0⟩

/-- Handle of the report of the first state: none for the resource procedure, association.cpp:27 -/
def handleFirst : Kind → Nat
  | .ft => 0
  | .pt => 123

/-- dissociation_ft.cpp:27, dissociation_pt.cpp:27 -/
def handleDiss : Kind → Nat
  | .ft => 1234
  | .pt => 12345

/-- `resource_t::entry`, resource.cpp:64-68, and `association_t::entry`, association.cpp:73-78 -/
def entryFirst (c : Cfg) (t0 : Int) : Report :=
  match c.kind with
  | .ft => ⟨t0 + c.ms500, handleFirst .ft⟩
  | .pt => ⟨t0 + c.ms100, handleFirst .pt⟩

/-- `entry` of the dissociation, dissociation_ft.cpp:75-82, dissociation_pt.cpp:75-82; `rx` is `get_rx_time_passed()` -/
def entryDiss (c : Cfg) (s : St) (rx : Int) : Res Report := do
  Res.assert s.shutting
  .ok ⟨rx + c.ms100, handleDiss c.kind⟩

/-- `stop_request_unblock`, tfw_p2p_rd.cpp:60-64, with the mutex -/
def unblock (s : St) : St :=
  { s with released := true, main := if s.main = .sleeping then .checking else s.main }

/-- `state_transitions`, tfw_p2p_ft.cpp:194-219, tfw_p2p_pt.cpp:190-215: the new state and the report; `next` is the time requested by
`entry` of the steady state (steady_ft.cpp:158-203, steady_pt.cpp:103-117) -/
def transitions (c : Cfg) (s : St) (next rx : Int) : Res (St × Option Report) :=
  match s.fw with
  | .first =>
    if s.shutting then do
      let r ← entryDiss c s rx
      .ok ({ s with fw := .diss }, some r)
    else .ok ({ s with fw := .steady }, some ⟨next, 0⟩)
  | .steady => do
    let r ← entryDiss c s rx
    .ok ({ s with fw := .diss }, some r)
  | .diss => .ok (unblock { s with fw := .nop }, none)
  | .nop => .ok (s, none)

/-- `work_irregular` of the first state: resource.cpp:35-40 and association.cpp:39-49 -/
def workFirst (c : Cfg) (s : St) (r : Report) (next rx : Int) : Res (St × Option Report) := do
  Res.assert (decide (c.kind = .ft) || decide (r.handle = handleFirst .pt))
  transitions c s next rx

/-- `work_irregular` of the steady state, steady_ft.cpp:109-143, steady_pt.cpp:73-88: `n` packets are sent, `beacon` tells whether
`worksub_tx_beacon` succeeds. The assert "too late" of steady_ft.cpp:118-120 is left out, the report being the scheduled time of the beacon
minus a positive duration. -/
def workSteady (c : Cfg) (s : St) (r : Report) (recognized next rx : Int) (beacon : Bool) (n : Nat) : Res (St × Option Report) :=
  if s.shutting then transitions c s next rx
  else
    match c.kind with
    | .ft => do
      Res.assert (decide (0 < recognized - r.time))
      Res.assert beacon
      .ok ({ s with tx := s.tx + n }, some ⟨next, 0⟩)
    | .pt => .ok ({ s with tx := s.tx + n }, some ⟨next, r.handle⟩)

/-- `work_irregular` of the dissociation, dissociation_ft.cpp:39-48, dissociation_pt.cpp:39-48 -/
def workDiss (c : Cfg) (s : St) (r : Report) (next rx : Int) : Res (St × Option Report) :=
  if r.handle = handleDiss c.kind then transitions c s next rx else .ok (s, none)

/-- `work_irregular`, tfw_p2p_ft.cpp:72-74, tfw_p2p_pt.cpp:70-72; nop.cpp returns nothing -/
def workIrregular (c : Cfg) (s : St) (r : Report) (recognized next rx : Int) (beacon : Bool) (n : Nat) : Res (St × Option Report) :=
  match s.fw with
  | .first => workFirst c s r next rx
  | .steady => workSteady c s r recognized next rx beacon n
  | .diss => workDiss c s r next rx
  | .nop => .ok (s, none)

/-- All other work functions: only the steady states answer, with packets -/
def workOther (s : St) (n : Nat) : St := if s.fw = .steady then { s with tx := s.tx + n } else s

/-- `irregular_queue_t::push`, irregular_queue.cpp:38-63 -/
def push (c : Cfg) (s : St) (r : Report) : Res St := do
  Res.assert (decide (s.irr.length < c.slots))
  .ok { s with irr := r :: s.irr }

/-- `run_tx_chscan`, worker_tx_rx.cpp:335-337 -/
def pushIf (c : Cfg) (s : St) : Option Report → Res St
  | none => .ok s
  | some r => push c s r

/-- `enqueue_nto`, job_queue_mc.cpp:38-63 -/
def enqueue (c : Cfg) (s : St) (j : Job) : Res St :=
  if !s.permeable then .ok s
  else do
    Res.assert (decide (s.jobs.length < c.cap))
    .ok { s with jobs := s.jobs ++ [j] }

/-- One step of a thread -/
inductive Ev
  /-- `worker_sync_t::work`, worker_sync.cpp:96-103: IQ streaming starts at the time -/
  | start (t0 : Int)
  /-- worker_sync.cpp:112-114; the worker that does this holds the baton first -/
  | permeate
  /-- time of synchronization -/
  | tick (n : Nat)
  /-- `enqueue_irregular_job_if_due`, worker_sync.cpp:293-317: the chosen report is an earliest one -/
  | due
  /-- any other job from synchronization or application -/
  | packet
  /-- a worker takes a job and calls the firmware -/
  | work (next rx : Int) (beacon : Bool) (n : Nat)
  /-- `work_stop`, tfw_p2p_rd.cpp:35-40 -/
  | stop
  /-- `stop_request_block_nto`, tfw_p2p_rd.cpp:52-58: the check of the flag -/
  | check
  /-- spurious wake-up -/
  | spurious
  /-- rest of `work_stop`, tfw_p2p_rd.cpp:42-49, statement by statement -/
  | close

/-- The earliest report -/
def earliest : List Report → Option Report
  | [] => none
  | r :: l => match earliest l with
    | none => some r
    | some q => if r.time ≤ q.time then some r else some q

/-- `enqueue_irregular_job_if_due`, worker_sync.cpp:293-317 -/
def due (c : Cfg) (s : St) : Res St :=
  match earliest s.irr with
  | none => .ok s
  | some r =>
    if s.now < r.time then .ok s
    else do
      Res.assert (decide (0 ≤ s.now - r.time))
      enqueue c { s with irr := s.irr.erase r } (.irr r s.now)

/-- A job is processed -/
def work (c : Cfg) (s : St) (next rx : Int) (beacon : Bool) (n : Nat) : Res St :=
  match s.jobs with
  | [] => .ok s
  | .other :: js => .ok (workOther { s with jobs := js } n)
  | .irr r recognized :: js => do
    let q ← workIrregular c { s with jobs := js } r recognized next rx beacon n
    pushIf c q.1 q.2

/-- `work_start`, tfw_p2p_rd.cpp:27-33, and the push of its report, worker_sync.cpp:96-103 -/
def start (c : Cfg) (s : St) (t0 : Int) : Res St :=
  if s.started then .ok s
  else do
    Res.assert (decide (t0 ≤ (entryFirst c t0).time))
    push c { s with started := true, now := t0 } (entryFirst c t0)

/-- Main thread after the wait -/
def close (s : St) : St :=
  match s.main with
  | .passed => { s with main := .closed, permeable := false }
  | .closed => { s with main := .serverStopped }
  | .serverStopped => { s with main := .done }
  | _ => s

/-- One event. Events that are not possible in a state leave it as it is. Jobs from synchronization and workers only come after the queue has
been made permeable once, `permeate` happens once. -/
def step (c : Cfg) (s : St) : Ev → Res St
  | .start t0 => start c s t0
  | .permeate => if s.started && decide (s.main ≠ .closed) && decide (s.main ≠ .serverStopped) && decide (s.main ≠ .done) then .ok { s with permeable := true } else .ok s
  | .tick n => .ok { s with now := s.now + n }
  | .due => if s.permeable || decide (s.released = true) then due c s else .ok s
  | .packet => enqueue c s .other
  | .work next rx beacon n => work c s next rx beacon n
  | .stop => .ok (if s.main = .running then { s with shutting := true, main := .checking } else s)
  | .check => .ok (if s.main = .checking then { s with main := if s.released then .passed else .sleeping } else s)
  | .spurious => .ok (if s.main = .sleeping then { s with main := .checking } else s)
  | .close => .ok (close s)

/-- A sequence of events -/
def run (c : Cfg) : St → List Ev → Res St
  | s, [] => .ok s
  | s, e :: es => do
    let s ← step c s e
    run c s es

end Verif.P2p.Stop
