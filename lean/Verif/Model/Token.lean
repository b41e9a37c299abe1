import Verif.Base.Res
import Mathlib.Logic.Function.Basic

/-!
# Token and worker threads (src/phy/pool/token.cpp, src/phy/pool/worker_tx_rx.cpp:67-260)

Any number of worker threads of up to four pools share one token. A worker of pool `p` takes the next
job of its queue (numbers 0, 1, 2, ... without gap, C16), calls `lock_fifo_to` with the number until it
succeeds, works, calls `unlock_fifo`, and for a job with PDC calls `lock` and `unlock` afterwards. The
synchronization threads call `try_lock(0)` and `unlock` (baton.cpp:76-84). The mutex `lockv` protects
`fifo_cnt` and `id_holder` and is also the token itself: it remains locked while the token is held.
Every statement that touches shared data is a step of its own; a failing assert leads to `aborted`.
The condition variable may wake a waiting thread at any time (spuriously, by notification, or by
timeout), which covers all its behaviours. The variant with `PHY_POOL_TOKEN_CONDITION_VARIABLE_OR_BUSY_WAITING`
defined (inc/phy/pool/token.hpp:27) is modelled.
-/

namespace Verif.Phy.Token

/-- `limits::max_nof_radio_phy_pairs_one_tpoint` -/
def maxPools : Nat := 4

/-- Where a thread is. `p` is the pool (`token_call_id`), `n` the number of its job. -/
inductive Pc
  /-- waiting for a job, worker_tx_rx.cpp:82 -/
  | idle
  /-- in `lock_fifo_to` before line 53 or in between two calls, worker_tx_rx.cpp:34-39 -/
  | want (p n : Nat)
  /-- mutex acquired, token.cpp:53 -/
  | entered (p n : Nat)
  /-- mutex held and assert passed, or woken up with the mutex held: line 57 next -/
  | checking (p n : Nat)
  /-- waiting on the condition variable without the mutex, token.cpp:59 -/
  | asleep (p n : Nat)
  /-- left the block, mutex released, token.cpp:86 next -/
  | granted (p n : Nat)
  /-- mutex acquired in `lock`, assert next, token.cpp:109-112; `n` is the job number if called by
  `lock_fifo_to` -/
  | locked (p : Nat) (n : Option Nat)
  /-- holds the token -/
  | holds (p : Nat) (n : Option Nat)
  /-- in `unlock` with `id_holder` reset, token.cpp:131-136; about to release -/
  | leaving (p : Nat) (n : Option Nat)
  /-- has done `unlock_fifo`, may call `lock` for the PDC, worker_tx_rx.cpp:188-205 -/
  | pdc (p : Nat)
  /-- left the thread function because of the exit request with job `n` undone, worker_tx_rx.cpp:35-37 -/
  | quit (p n : Nat)
deriving DecidableEq

/-- Shared state, thread positions, and the history: jobs taken out of each queue and jobs (pool,
number) in the order in which `lock_fifo_to` returned true. -/
structure Sys where
  mutex : Option Nat
  fifoCnt : Nat → Nat
  idHolder : Nat
  pc : Nat → Pc
  taken : Nat → Nat
  order : List (Nat × Nat)
  aborted : Bool

/-- token.cpp:33-43: `n_pools` counters start at zero, the others at the maximum. -/
def init (nPools : Nat) : Sys :=
  ⟨none, fun p => if p < nPools then 0 else 2 ^ 63 - 1, maxPools, fun _ => .idle, fun _ => 0, [], false⟩

/-- Thread `t` goes to `x`. -/
def Sys.goto (s : Sys) (t : Nat) (x : Pc) : Sys := { s with pc := Function.update s.pc t x }

def Sys.abort (s : Sys) : Sys := { s with aborted := true }

/-- What a job number adds to the history; locking without a number adds nothing. -/
def orderEntry (p : Nat) : Option Nat → List (Nat × Nat)
  | some n => [(p, n)]
  | none => []

/-- One step of thread `t`. -/
inductive Step (nPools : Nat) : Sys → Sys → Prop
  /-- `wait_for_new_job_to` returns a job of pool `p` -/
  | take (s t p) : s.pc t = .idle → p < nPools →
      Step nPools s { s.goto t (.want p (s.taken p)) with taken := Function.update s.taken p (s.taken p + 1) }
  /-- token.cpp:53 -/
  | enter (s t p n) : s.pc t = .want p n → s.mutex = none →
      Step nPools s { s.goto t (.entered p n) with mutex := some t }
  /-- token.cpp:55 -/
  | assertOk (s t p n) : s.pc t = .entered p n → s.fifoCnt p ≤ n → Step nPools s (s.goto t (.checking p n))
  | assertFail (s t p n) : s.pc t = .entered p n → n < s.fifoCnt p → Step nPools s s.abort
  /-- token.cpp:57-59: not this job's turn, release the mutex and sleep -/
  | sleep (s t p n) : s.pc t = .checking p n → s.fifoCnt p ≠ n →
      Step nPools s { s.goto t (.asleep p n) with mutex := none }
  /-- token.cpp:59: woken up, mutex acquired, loop again -/
  | wake (s t p n) : s.pc t = .asleep p n → s.mutex = none →
      Step nPools s { s.goto t (.checking p n) with mutex := some t }
  /-- token.cpp:62-64: timeout (the mutex is acquired and released), `lock_fifo_to` returns false and is
  called again -/
  | timeout (s t p n) : s.pc t = .asleep p n → s.mutex = none → Step nPools s (s.goto t (.want p n))
  /-- worker_tx_rx.cpp:35-37: exit requested -/
  | quit (s t p n) : s.pc t = .asleep p n → s.mutex = none → Step nPools s (s.goto t (.quit p n))
  /-- token.cpp:57, 67: this job's turn, leave the block and release the mutex -/
  | grant (s t p n) : s.pc t = .checking p n → s.fifoCnt p = n →
      Step nPools s { s.goto t (.granted p n) with mutex := none }
  /-- token.cpp:86, 110 -/
  | lockFifo (s t p n) : s.pc t = .granted p n → s.mutex = none →
      Step nPools s { s.goto t (.locked p (some n)) with mutex := some t }
  /-- worker_tx_rx.cpp:196, token.cpp:110 -/
  | lockPdc (s t p) : s.pc t = .pdc p → s.mutex = none →
      Step nPools s { s.goto t (.locked p none) with mutex := some t }
  /-- `try_lock(0)` of a synchronization thread, token.cpp:118-129; if it fails nothing changes -/
  | tryLock (s t) : s.pc t = .idle → s.mutex = none →
      Step nPools s { s.goto t (.locked 0 none) with mutex := some t }
  /-- token.cpp:112-115, 120-123 -/
  | holdOk (s t p n) : s.pc t = .locked p n → maxPools ≤ s.idHolder →
      Step nPools s { s.goto t (.holds p n) with
        idHolder := p
        order := s.order ++ orderEntry p n }
  | holdFail (s t p n) : s.pc t = .locked p n → s.idHolder < maxPools → Step nPools s s.abort
  /-- `unlock_fifo`, token.cpp:86-101 -/
  | releaseFifo (s t p n) : s.pc t = .holds p (some n) → s.idHolder < maxPools →
      Step nPools s { s.goto t (.leaving p (some n)) with
        fifoCnt := Function.update s.fifoCnt s.idHolder (s.fifoCnt s.idHolder + 1), idHolder := maxPools }
  | releaseFail (s t p n) : s.pc t = .holds p (some n) → maxPools ≤ s.idHolder → Step nPools s s.abort
  /-- `unlock`, token.cpp:131-133 -/
  | release (s t p) : s.pc t = .holds p none → Step nPools s { s.goto t (.leaving p none) with idHolder := maxPools }
  /-- token.cpp:135; after `unlock_fifo` the job may go on with its PDC -/
  | leaveFifo (s t p n) : s.pc t = .leaving p (some n) → Step nPools s { s.goto t .idle with mutex := none }
  | leavePdc (s t p n) : s.pc t = .leaving p (some n) → Step nPools s { s.goto t (.pdc p) with mutex := none }
  | leave (s t p) : s.pc t = .leaving p none → Step nPools s { s.goto t .idle with mutex := none }

inductive Reach (nPools : Nat) : Sys → Prop
  | init : Reach nPools (init nPools)
  | step {a b} : Reach nPools a → Step nPools a b → Reach nPools b

end Verif.Phy.Token
