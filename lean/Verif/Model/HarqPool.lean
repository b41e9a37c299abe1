import Mathlib.Logic.Function.Basic

/-!
# HARQ process pool

src/phy/harq/process_pool.cpp:39-129, src/phy/harq/process_tx.cpp:43-99, src/phy/harq/process_rx.cpp:35-68,
src/phy/harq/process.cpp:57-63, src/common/thread/lockable_outer_inner.cpp:26-91.

Any number of threads (lower MAC, PHY workers) work with `n` processes. A step is one atomic operation on a
lock, together with accesses to the other fields, which are not atomic. TX and RX processes are the same except
for the redundancy version, which for RX is an argument of the request and for TX is a state of the process.
The packet sizes are represented by the number of codeblocks `C`; that the packet is well-defined and not larger
than the buffers (process_pool.cpp:43-53) is assumed here, see C26. PLCF type and network ID are plain
arguments without influence on the locks and left out. A thread here works with one process at a time: a real
thread that works with several ones is several threads of the model (see the step `hand`). Softbuffers are represented by one flag per
codeblock: contents of a previous packet.
-/

namespace Verif.Phy.HarqPool

/-- `finalize_tx_t` and `finalize_rx_t`, include/dectnrp/phy/harq/finalize.hpp -/
inductive Kind
  /-- `reset_and_terminate` -/
  | terminate
  /-- TX: `increase_rv_and_keep_running` -/
  | increase
  /-- TX: `keep_rv_and_keep_running`, RX: `keep_running` -/
  | keep
  /-- RX: `keep_running_or_reset_and_terminate_if_crc_correct` -/
  | untilCrc
deriving DecidableEq

/-- Arguments of a request -/
structure Req where
  /-- number of codeblocks of the packet -/
  C : Nat
  /-- RX only: redundancy version -/
  rv : Option Nat
  kind : Kind
deriving DecidableEq

inductive Pc
  | idle
  /-- `get_process_tx/rx` at index `i` of the loop, before `try_lock_outer` -/
  | scan (i : Nat) (r : Req)
  /-- outer lock taken, process_pool.cpp:53-60 next -/
  | entry (i : Nat) (r : Req)
  /-- `lock_inner` called, asserts next -/
  | filled (i : Nat)
  /-- asserts of `lock_inner` passed, store next -/
  | checked (i : Nat)
  /-- returned `nullptr` -/
  | null
  /-- `get_process_tx/rx_running` called -/
  | run1 (i : Nat) (r : Req)
  /-- assert passed, test of the inner lock next -/
  | run2 (i : Nat) (r : Req)
  /-- inner lock was free -/
  | run3 (i : Nat) (r : Req)
  /-- `lock_inner` called, asserts next -/
  | run4 (i : Nat)
  /-- asserts of `lock_inner` passed, store next -/
  | run5 (i : Nat)
  /-- the call returned the process, the thread (or the one it is passed on to) works with it -/
  | own (i : Nat)
  /-- `finalize`, keep running: `unlock_inner` next -/
  | keep1 (i : Nat)
  /-- `reset_and_terminate_func`: `unlock_inner` next -/
  | term1 (i : Nat)
  /-- `reset_and_terminate_func`: `unlock_outer` next -/
  | term2 (i : Nat)
deriving DecidableEq

/-- Record of a process returned by `get_process_tx/rx` -/
structure Handed where
  process : Nat
  /-- redundancy version at that time -/
  rv : Nat
  /-- redundancy version requested -/
  rvReq : Option Nat
  /-- codeblocks with contents of a previous packet -/
  soft : Nat → Bool

structure Sys where
  outer : Nat → Bool
  inner : Nat → Bool
  rv : Nat → Nat
  rvUnwrapped : Nat → Nat
  C : Nat → Nat
  kind : Nat → Kind
  soft : Nat → Nat → Bool
  pc : Nat → Pc
  /-- redundancy versions of the transmissions finalized with `increase` since the process was handed out -/
  sent : Nat → List Nat
  handed : List Handed
  /-- redundancy version argument of the request being served -/
  req : Nat → Option Nat
  /-- no request since the process was handed out had a redundancy version as argument, as is the case for TX -/
  noRv : Nat → Bool
  /-- an assert on the lock state failed -/
  aborted : Bool
  /-- assert of process_tx.cpp:84 failed -/
  exhausted : Bool

def init : Sys :=
  ⟨fun _ => false, fun _ => false, fun _ => 0, fun _ => 0, fun _ => 0, fun _ => .terminate, fun _ _ => false, fun _ => .idle,
    fun _ => [], [], fun _ => none, fun _ => true, false, false⟩

/-- `set_next_rv`, process_tx.cpp:64-80 (only values 0..3 occur) -/
def nextRv (rv : Nat) : Nat := if rv = 0 then 2 else if rv = 1 then 0 else if rv = 2 then 3 else 1

/-- `finalize`: is the process reset? process_tx.cpp:47-49, process_rx.cpp:39-53 -/
def terminates (k : Kind) (crc : Bool) : Bool := k = .terminate || (k = .untilCrc && crc)

/-- Asserts on the lock state. -/
def failing (s : Sys) : Pc → Prop
  | .entry i _ => s.inner i = true
  | .filled i | .run4 i | .term2 i => ¬ (s.outer i = true ∧ s.inner i = false)
  | .run1 i _ => ¬ s.outer i = true
  | .own i | .keep1 i | .term1 i => ¬ (s.outer i = true ∧ s.inner i = true)
  | _ => False

/-- Steps of thread `t`; `allowed s i` restricts the calls of `get_process_tx/rx_running` for process `i`. -/
inductive Step (n : Nat) (allowed : Sys → Nat → Prop) : Sys → Sys → Prop
  | fail (s : Sys) (t) : failing s (s.pc t) → Step n allowed s { s with aborted := true }
  /-- call of `get_process_tx/rx` -/
  | call (s : Sys) (t) (r : Req) : s.pc t = .idle → Step n allowed s { s with pc := Function.update s.pc t (.scan 0 r) }
  /-- exchange on a free lock -/
  | take (s : Sys) (t i r) : s.pc t = .scan i r → i < n → s.outer i = false →
      Step n allowed s { s with pc := Function.update s.pc t (.entry i r), outer := Function.update s.outer i true }
  /-- exchange on a taken lock -/
  | skip (s : Sys) (t i r) : s.pc t = .scan i r → i < n → s.outer i = true →
      Step n allowed s { s with pc := Function.update s.pc t (.scan (i + 1) r) }
  | none (s : Sys) (t i r) : s.pc t = .scan i r → n ≤ i → Step n allowed s { s with pc := Function.update s.pc t .null }
  | forget (s : Sys) (t) : s.pc t = .null → Step n allowed s { s with pc := Function.update s.pc t .idle }
  | fill (s : Sys) (t i r) : s.pc t = .entry i r → s.inner i = false →
      Step n allowed s { s with
        pc := Function.update s.pc t (.filled i)
        C := Function.update s.C i r.C
        rv := Function.update s.rv i (r.rv.getD (s.rv i))
        req := Function.update s.req i r.rv
        noRv := Function.update s.noRv i r.rv.isNone
        kind := Function.update s.kind i r.kind
        sent := Function.update s.sent i [] }
  | check (s : Sys) (t i) : s.pc t = .filled i → s.outer i = true → s.inner i = false →
      Step n allowed s { s with pc := Function.update s.pc t (.checked i) }
  | lock (s : Sys) (t i) : s.pc t = .checked i →
      Step n allowed s { s with
        pc := Function.update s.pc t (.own i)
        inner := Function.update s.inner i true
        handed := s.handed ++ [⟨i, s.rv i, s.req i, s.soft i⟩] }
  /-- call of `get_process_tx/rx_running` -/
  | runCall (s : Sys) (t i) (r : Req) : s.pc t = .idle → allowed s i →
      Step n allowed s { s with pc := Function.update s.pc t (.run1 i r) }
  | runCheck (s : Sys) (t i r) : s.pc t = .run1 i r → s.outer i = true →
      Step n allowed s { s with pc := Function.update s.pc t (.run2 i r) }
  | runBusy (s : Sys) (t i r) : s.pc t = .run2 i r → s.inner i = true →
      Step n allowed s { s with pc := Function.update s.pc t .null }
  | runFree (s : Sys) (t i r) : s.pc t = .run2 i r → s.inner i = false →
      Step n allowed s { s with pc := Function.update s.pc t (.run3 i r) }
  | runFill (s : Sys) (t i r) : s.pc t = .run3 i r →
      Step n allowed s { s with
        pc := Function.update s.pc t (.run4 i)
        rv := Function.update s.rv i (r.rv.getD (s.rv i))
        noRv := Function.update s.noRv i (s.noRv i && r.rv.isNone)
        kind := Function.update s.kind i r.kind }
  | runLockCheck (s : Sys) (t i) : s.pc t = .run4 i → s.outer i = true → s.inner i = false →
      Step n allowed s { s with pc := Function.update s.pc t (.run5 i) }
  | runLock (s : Sys) (t i) : s.pc t = .run5 i →
      Step n allowed s { s with
        pc := Function.update s.pc t (.own i)
        inner := Function.update s.inner i true }
  /-- encoding or decoding of codeblock `cb` -/
  | use (s : Sys) (t i cb) : s.pc t = .own i → cb < s.C i →
      Step n allowed s { s with soft := Function.update s.soft i (Function.update (s.soft i) cb true) }
  /-- the process is passed on to another thread (descriptor, maclow_phy_t) -/
  | hand (s : Sys) (t u i) : s.pc t = .own i → s.pc u = .idle →
      Step n allowed s { s with pc := Function.update (Function.update s.pc t .idle) u (.own i) }
  | finTerminate (s : Sys) (t i) (crc : Bool) : s.pc t = .own i → s.outer i = true → s.inner i = true →
      terminates (s.kind i) crc = true →
      Step n allowed s { s with
        pc := Function.update s.pc t (.term1 i)
        soft := Function.update s.soft i (fun cb => if cb < s.C i then false else s.soft i cb)
        rvUnwrapped := Function.update s.rvUnwrapped i 0
        kind := Function.update s.kind i .terminate
        C := Function.update s.C i 0
        rv := Function.update s.rv i 0
        sent := Function.update s.sent i [] }
  | finIncrease (s : Sys) (t i) : s.pc t = .own i → s.outer i = true → s.inner i = true → s.kind i = .increase →
      s.rvUnwrapped i + 1 ≤ 7 →
      Step n allowed s { s with
        pc := Function.update s.pc t (.keep1 i)
        rv := Function.update s.rv i (nextRv (s.rv i))
        rvUnwrapped := Function.update s.rvUnwrapped i (s.rvUnwrapped i + 1)
        sent := Function.update s.sent i (s.sent i ++ [s.rv i]) }
  | finExhausted (s : Sys) (t i) : s.pc t = .own i → s.kind i = .increase → 7 < s.rvUnwrapped i + 1 →
      Step n allowed s { s with exhausted := true }
  | finKeep (s : Sys) (t i) (crc : Bool) : s.pc t = .own i → s.kind i ≠ .increase → terminates (s.kind i) crc = false →
      Step n allowed s { s with pc := Function.update s.pc t (.keep1 i) }
  | keepUnlock (s : Sys) (t i) : s.pc t = .keep1 i → s.outer i = true → s.inner i = true →
      Step n allowed s { s with pc := Function.update s.pc t .idle, inner := Function.update s.inner i false }
  | termInner (s : Sys) (t i) : s.pc t = .term1 i → s.outer i = true → s.inner i = true →
      Step n allowed s { s with pc := Function.update s.pc t (.term2 i), inner := Function.update s.inner i false }
  | termOuter (s : Sys) (t i) : s.pc t = .term2 i → s.outer i = true → s.inner i = false →
      Step n allowed s { s with pc := Function.update s.pc t .idle, outer := Function.update s.outer i false }

inductive Reach (n : Nat) (allowed : Sys → Nat → Prop) : Sys → Prop
  | init : Reach n allowed init
  | step {a b} : Reach n allowed a → Step n allowed a b → Reach n allowed b

end Verif.Phy.HarqPool
