import Verif.Model.Baton

/-!
# Main loop of the synchronization threads (src/phy/pool/worker_sync.cpp:116-221, 319-329)

with the search in the chunks, src/phy/rx/sync/sync_chunk.cpp:146-283, and the movement of the read index,
src/phy/rx/sync/autocorrelator_detection.cpp:134, 157-280.

The signal is an arbitrary function `det`: `det g i` is the synchronization time of the packet reported by the
`i`-th step (counted from 1) of the search in the `g`-th chunk of the time axis, if there is one. Which steps
report a packet depends on the samples only: a chunk is searched by exactly one thread, from its beginning, and
in one direction. Waiting for samples is left out (a thread may pause before any step), and so are the
irregular jobs (Model/Callbacks.lean), the regular jobs (Model/Baton.lean) and the end of the threads
(`keep_running`).
-/

namespace Verif.Phy.SyncWorker
open Verif.Phy.Baton

/-- `RX_SYNC_PARAM_MAX_NOF_BUFFERABLE_SYNC_BEFORE_ACQUIRING_BATON`, include/dectnrp/phy/rx/sync/sync_param.hpp:45 -/
def maxBuffered : Nat := 10

structure Geo where
  /-- threads and chunks -/
  cfg : Cfg
  /-- `stf_bos_pattern_length_samples`, read index at the beginning of a chunk, autocorrelator_detection.cpp:134 -/
  pattern : Nat
  /-- `search_step_samples` -/
  step : Nat
  /-- `search_length_samples`, sync_chunk.cpp:81 -/
  searchLen : Nat

/-- `localbuffer_cnt_r` after `i` steps -/
def Geo.cntR (z : Geo) (i : Nat) : Nat := z.pattern + i * z.step

/-- `is_chunk_completely_processed`, sync_chunk.cpp:280-283 -/
def Geo.complete (z : Geo) (i : Nat) : Bool := decide (z.searchLen ≤ z.cntR i)

/-- Number of the chunk on the time axis that is the `k`-th one (counted from 0) of thread `t` -/
def Geo.chunk (z : Geo) (t k : Nat) : Nat := k * z.cfg.n + t

inductive Pc
  /-- about to call `search()`; the flag tells the first loop (without the baton, line 129) from the second
  one (line 189) -/
  | call (first : Bool)
  /-- in the loop of `search()`, sync_chunk.cpp:160 -/
  | run (first : Bool)
  /-- `search()` has returned a report in the first loop, line 132 -/
  | got (r : Int)
  /-- `wait_to`, line 160; with the report not yet submitted -/
  | wait (opt : Option Int)
  /-- has the baton and submits the buffered reports, line 169 -/
  | flush (l : List Int) (opt : Option Int)
  /-- top of the second loop, line 178 -/
  | emit (opt : Option Int)
  /-- end of the chunk, line 193 -/
  | close
  /-- `pass_on`, line 220 -/
  | pass
deriving DecidableEq

structure Thread where
  pc : Pc
  /-- number of the current chunk of the thread -/
  k : Nat
  /-- steps of the search made in it -/
  i : Nat
  /-- `sync_report_arr` up to `sync_report_arr_cnt` -/
  buf : List Int

structure Sys where
  th : Nat → Thread
  holder : Nat
  chunkEnd : Int
  syncLast : Int
  /-- synchronization times submitted, i.e. the calls of `enqueue_job_nto`, in order -/
  submitted : List Int
  /-- synchronization times of the packet jobs put into the queue, in order -/
  jobs : List Int
  /-- chunks closed, i.e. calls of `pass_on`: number of the thread and of its chunk -/
  closed : List (Nat × Nat)
  aborted : Bool

/-- baton.cpp:37-55; all threads are at the beginning of their first chunk, worker_sync.cpp:110, 121 -/
def init : Sys := ⟨fun _ => ⟨.call true, 0, 0, []⟩, 0, Verif.Adt.int64Max, undefinedEarly, [], [], [], false⟩

/-- `enqueue_job_nto`, worker_sync.cpp:319-329, without the irregular job -/
def enqueue (limit : Int) (s : Sys) (r : Int) : Sys :=
  { s with
    submitted := s.submitted ++ [r]
    syncLast := (syncTimeUnique limit s.syncLast r).1
    jobs := if (syncTimeUnique limit s.syncLast r).2 then s.jobs ++ [r] else s.jobs }

/-- A thread changes its own state. -/
def Sys.set (s : Sys) (t : Nat) (x : Thread) : Sys := { s with th := Function.update s.th t x }

/-- Beginning of `search()`, sync_chunk.cpp:152-157: when the chunk is complete, the thread moves to its next
one. -/
def enter (z : Geo) (x : Thread) (first : Bool) : Thread :=
  if z.complete x.i then { x with k := x.k + 1, i := 0, pc := .run first } else { x with pc := .run first }

/-- One step of thread `t`. -/
inductive Step (z : Geo) (det : Nat → Nat → Option Int) : Sys → Sys → Prop
  /-- lines 129, 189 -/
  | call (s : Sys) (t) (b) : t < z.cfg.n → (s.th t).pc = .call b →
      Step z det s (s.set t (enter z (s.th t) b))
  /-- a step of the search without a valid peak, sync_chunk.cpp:160-273 -/
  | stepNone (s : Sys) (t) (b) : (s.th t).pc = .run b → z.complete (s.th t).i = false →
      det (z.chunk t (s.th t).k) ((s.th t).i + 1) = none →
      Step z det s (s.set t { s.th t with i := (s.th t).i + 1 })
  /-- a step of the search with a valid peak, sync_chunk.cpp:259 -/
  | stepFound (s : Sys) (t) (b) (r : Int) : (s.th t).pc = .run b → z.complete (s.th t).i = false →
      det (z.chunk t (s.th t).k) ((s.th t).i + 1) = some r →
      Step z det s (s.set t { s.th t with i := (s.th t).i + 1, pc := if b then .got r else .emit (some r) })
  /-- end of the loop, sync_chunk.cpp:275-277 -/
  | finish (s : Sys) (t) (b) : (s.th t).pc = .run b → z.complete (s.th t).i = true →
      Step z det s (s.set t { s.th t with pc := if b then .wait none else .emit none })
  /-- lines 134-136 -/
  | gotHolder (s : Sys) (t) (r : Int) : (s.th t).pc = .got r → s.holder = t →
      Step z det s (s.set t { s.th t with pc := .wait (some r) })
  /-- lines 138-145 -/
  | gotBuffer (s : Sys) (t) (r : Int) : (s.th t).pc = .got r → s.holder ≠ t → (s.th t).buf.length < maxBuffered →
      Step z det s (s.set t { s.th t with pc := .call true, buf := (s.th t).buf ++ [r] })
  /-- lines 146-149 -/
  | gotFull (s : Sys) (t) (r : Int) : (s.th t).pc = .got r → s.holder ≠ t → ¬ (s.th t).buf.length < maxBuffered →
      Step z det s (s.set t { s.th t with pc := .wait (some r) })
  /-- `wait_to` returns true, line 160; a timeout changes nothing -/
  | acquire (s : Sys) (t) (opt) : (s.th t).pc = .wait opt → s.holder = t →
      Step z det s (s.set t { s.th t with pc := .flush (s.th t).buf opt })
  /-- lines 169-171 -/
  | flush (s : Sys) (t) (r l opt) : (s.th t).pc = .flush (r :: l) opt →
      Step z det s ((enqueue z.cfg.limit s r).set t { s.th t with pc := .flush l opt })
  | flushed (s : Sys) (t) (opt) : (s.th t).pc = .flush [] opt →
      Step z det s (s.set t { s.th t with pc := .emit opt })
  /-- lines 178-189 with a report -/
  | emitSome (s : Sys) (t) (r) : (s.th t).pc = .emit (some r) →
      Step z det s ((enqueue z.cfg.limit s r).set t
        { s.th t with pc := if z.complete (s.th t).i then .close else .call false })
  /-- lines 178-189 without a report -/
  | emitNone (s : Sys) (t) : (s.th t).pc = .emit none →
      Step z det s (s.set t { s.th t with pc := if z.complete (s.th t).i then .close else .call false })
  /-- lines 208-218 -/
  | close (s : Sys) (t) : (s.th t).pc = .close →
      ¬ (s.chunkEnd < Verif.Adt.int64Max ∧ z.cfg.chunkStart t (s.th t).k - s.chunkEnd ≠ 1) →
      Step z det s { s.set t { s.th t with pc := .pass } with chunkEnd := z.cfg.chunkEnd t (s.th t).k }
  | closeFail (s : Sys) (t) : (s.th t).pc = .close →
      s.chunkEnd < Verif.Adt.int64Max ∧ z.cfg.chunkStart t (s.th t).k - s.chunkEnd ≠ 1 →
      Step z det s { s with aborted := true }
  /-- baton.cpp:139-157; then line 116 again, with the counter reset in line 121 -/
  | pass (s : Sys) (t) : (s.th t).pc = .pass → s.holder = t →
      Step z det s { s.set t { s.th t with pc := .call true, buf := [] } with
        holder := (s.holder + 1) % z.cfg.n, closed := s.closed ++ [(t, (s.th t).k)] }
  | passFail (s : Sys) (t) : (s.th t).pc = .pass → s.holder ≠ t → Step z det s { s with aborted := true }

inductive Reach (z : Geo) (det : Nat → Nat → Option Int) : Sys → Prop
  | init : Reach z det init
  | step {a b} : Reach z det a → Step z det a b → Reach z det b

end Verif.Phy.SyncWorker
