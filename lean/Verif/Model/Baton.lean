import Verif.Model.Callbacks
import Mathlib.Logic.Function.Basic

/-!
# Baton of the synchronization threads (src/phy/pool/baton.cpp, src/phy/pool/worker_sync.cpp:57-222)

`n` synchronization threads with ids `0..n-1`. Sections executed with one of the two mutexes held are
one step (Base/Locked.lean); a condition variable may wake a thread at any time.
-/

namespace Verif.Phy.Baton
open Verif.Adt

/-- `common::adt::UNDEFINED_EARLY_64` -/
def undefinedEarly : Int := -2 ^ 63 / 8

/-! ## Registration, baton.cpp:62-97 -/

inductive RegPc
  /-- about to call with its own suggestion -/
  | start
  /-- waiting for the others, line 89-91 -/
  | waiting
  /-- returned the time; the flag tells whether it also returned the report of `work_start` -/
  | done (time : Int) (report : Bool)
deriving DecidableEq

structure RegSys where
  cnt : Nat
  now : Int
  pc : Nat → RegPc
  /-- threads in the order of their registration -/
  registered : List Nat
  aborted : Bool

def regInit : RegSys := ⟨0, undefinedEarly, fun _ => .start, [], false⟩

/-- Lines 65-70 -/
def registerNow (now v : Int) : Int := if now < v then v else now

/-- `v t` is the suggestion of thread `t`. -/
inductive RegStep (n : Nat) (v : Nat → Int) : RegSys → RegSys → Prop
  /-- not the last one: lines 63-91 until waiting -/
  | register (s : RegSys) (t) : t < n → s.pc t = .start → s.cnt + 1 < n →
      RegStep n v s { s with
        cnt := s.cnt + 1, now := registerNow s.now (v t)
        pc := Function.update s.pc t .waiting, registered := s.registered ++ [t] }
  /-- the last one, and the token is free: lines 63-95 -/
  | registerLast (s : RegSys) (t) : t < n → s.pc t = .start → s.cnt + 1 = n →
      RegStep n v s { s with
        cnt := s.cnt + 1, now := registerNow s.now (v t)
        pc := Function.update s.pc t (.done (registerNow s.now (v t)) true), registered := s.registered ++ [t] }
  /-- the last one, but the token is held by somebody else: line 79 -/
  | tokenBusy (s : RegSys) (t) : t < n → s.pc t = .start → s.cnt + 1 = n → RegStep n v s { s with aborted := true }
  /-- too many registrations, line 86 -/
  | tooMany (s : RegSys) (t) : t < n → s.pc t = .start → n < s.cnt + 1 → RegStep n v s { s with aborted := true }
  /-- woken up after the last one has registered: lines 89-95 -/
  | wake (s : RegSys) (t) : s.pc t = .waiting → s.cnt = n →
      RegStep n v s { s with pc := Function.update s.pc t (.done s.now false) }

inductive RegReach (n : Nat) (v : Nat → Int) : RegSys → Prop
  | init : RegReach n v regInit
  | step {a b} : RegReach n v a → RegStep n v a b → RegReach n v b

/-! ## Sync times and regular jobs -/

/-- `is_sync_time_unique`, baton.cpp:157-169: the new `sync_time_last_64` and the return value -/
def syncTimeUnique (limit last cand : Int) : Int × Bool :=
  if limit < cand - last then (cand, true) else (last, false)

/-- `is_job_regular_due`, baton.cpp:171-184: the new counter and the return value -/
def regularDue (period cnt : Nat) : Nat × Bool :=
  if period = 0 then (cnt, false)
  else if cnt + 1 = period then (0, true)
  else (cnt + 1, false)

/-! ## Rotation, baton.cpp:99-155, worker_sync.cpp:116-221 -/

inductive Pc
  /-- searching in its chunk without the baton, worker_sync.cpp:127-157 -/
  | search
  /-- `wait_to`, worker_sync.cpp:160-165 -/
  | wait
  /-- has the baton: worker_sync.cpp:169-190 -/
  | hold
  /-- chunk closed, `pass_on` called, assert next, baton.cpp:140 -/
  | closing
  /-- assert passed, baton.cpp:143-154 next -/
  | pass
deriving DecidableEq

structure Cfg where
  /-- number of synchronization threads -/
  n : Nat
  /-- common start time of the search -/
  start : Int
  /-- chunk length in samples -/
  len : Int
  limit : Int
  period : Nat

/-- `sync_chunk_t::wait_for_first_chunk_nto`, src/phy/rx/sync/sync_chunk.cpp:125-144, with stride `n * len` and
offset `t * len` (worker_sync.cpp:47-54): start of the first chunk of thread `t`. -/
def Cfg.firstChunk (c : Cfg) (t : Nat) : Int :=
  let stride := (c.n : Int) * c.len
  let a := c.start - c.start.tmod stride + (t : Int) * c.len
  if a + c.len ≤ c.start then a + stride else a

/-- Start of the chunk after `k` chunks, sync_chunk.cpp:285, 291-297 -/
def Cfg.chunkStart (c : Cfg) (t k : Nat) : Int := c.firstChunk t + (k : Int) * ((c.n : Int) * c.len)

/-- End of that chunk, sync_chunk.cpp:287-289 -/
def Cfg.chunkEnd (c : Cfg) (t k : Nat) : Int := c.chunkStart t k + (c.len - 1)

structure Sys where
  holder : Nat
  chunkEnd : Int
  syncLast : Int
  regCnt : Nat
  pc : Nat → Pc
  /-- chunks completed by each thread -/
  done : Nat → Nat
  /-- threads in the order in which they passed the baton on -/
  passes : List Nat
  /-- sync times accepted, in order -/
  accepted : List Int
  /-- return values of `is_job_regular_due` -/
  regular : List Bool
  aborted : Bool

/-- baton.cpp:37-55 -/
def init : Sys := ⟨0, int64Max, undefinedEarly, 0, fun _ => .search, fun _ => 0, [], [], [], false⟩

/-- One step of thread `t`. -/
inductive Step (c : Cfg) : Sys → Sys → Prop
  /-- end of the search without the baton -/
  | searched (s : Sys) (t) : t < c.n → s.pc t = .search → Step c s { s with pc := Function.update s.pc t .wait }
  /-- `wait_to` returns true, baton.cpp:108-137; a timeout changes nothing -/
  | got (s : Sys) (t) : s.pc t = .wait → s.holder = t → Step c s { s with pc := Function.update s.pc t .hold }
  /-- a packet is reported, worker_sync.cpp:177-180, 319-329 -/
  | accept (s : Sys) (t) (cand : Int) : s.pc t = .hold → (syncTimeUnique c.limit s.syncLast cand).2 = true →
      Step c s { s with
        syncLast := (syncTimeUnique c.limit s.syncLast cand).1, accepted := s.accepted ++ [cand] }
  | reject (s : Sys) (t) (cand : Int) : s.pc t = .hold → (syncTimeUnique c.limit s.syncLast cand).2 = false →
      Step c s { s with syncLast := (syncTimeUnique c.limit s.syncLast cand).1 }
  /-- end of the chunk, worker_sync.cpp:192-220 -/
  | close (s : Sys) (t) : s.pc t = .hold →
      ¬ (s.chunkEnd < int64Max ∧ c.chunkStart t (s.done t) - s.chunkEnd ≠ 1) →
      Step c s { s with
        pc := Function.update s.pc t .closing
        chunkEnd := c.chunkEnd t (s.done t)
        regCnt := (regularDue c.period s.regCnt).1
        regular := s.regular ++ [(regularDue c.period s.regCnt).2] }
  | closeFail (s : Sys) (t) : s.pc t = .hold → s.chunkEnd < int64Max ∧ c.chunkStart t (s.done t) - s.chunkEnd ≠ 1 →
      Step c s { s with aborted := true }
  /-- `pass_on`, baton.cpp:140 -/
  | check (s : Sys) (t) : s.pc t = .closing → s.holder = t → Step c s { s with pc := Function.update s.pc t .pass }
  | checkFail (s : Sys) (t) : s.pc t = .closing → s.holder ≠ t → Step c s { s with aborted := true }
  /-- baton.cpp:143-154 -/
  | pass (s : Sys) (t) : s.pc t = .pass →
      Step c s { s with
        pc := Function.update s.pc t .search
        holder := (s.holder + 1) % c.n
        done := Function.update s.done t (s.done t + 1)
        passes := s.passes ++ [t] }

inductive Reach (c : Cfg) : Sys → Prop
  | init : Reach c init
  | step {a b} : Reach c a → Step c a b → Reach c b

end Verif.Phy.Baton
