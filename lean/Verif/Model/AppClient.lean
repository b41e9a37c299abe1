import Verif.Base.Res
import Mathlib.Logic.Function.Basic

/-!
# The application client

lib/src/application/application_client.cpp, with the condition variable (`APPLICATION_APP_CLIENT_CONDITION_VARIABLE_OR_BUSY_WAITING`
is defined, application_client.hpp:26). Two threads: the thread that processes received packets and calls `write_nto` and
`trigger_forward_nto` (steady_ft.cpp:331-345, steady_pt.cpp:285-296; one at a time since it holds the job token, C18) and
the thread `work_sc`.

Every access to shared data is one step. A call of a queue is one step since queues are locked objects (C13). Both
implementations of `filter_egress_datagram` return true (vnic_client.cpp:60-64, socket_client.cpp:80-84) and it is left
out. `write_immediate` writes the whole datagram; if the operating system refuses it, the program aborts. Datagrams are
not empty (C51). -/

namespace Verif.App.Client

/-- The thread that processes packets. -/
inductive Prod
  | idle
  /-- `write_nto` has accepted `c` datagrams of the packet -/
  | writing (c : Nat)
  /-- in `trigger_forward_nto(c)` before the lock, line 37 -/
  | want (c : Nat)
  /-- the counter is increased, the mutex not yet released, lines 41-44 -/
  | locked
  /-- mutex released, `notify_all` next, line 45 -/
  | notify
deriving DecidableEq

/-- The thread `work_sc`. -/
inductive Cons
  /-- test of `keep_running` next, line 51 -/
  | start
  /-- got the mutex, test of the counter next, line 59 -/
  | check
  /-- test in line 115 next -/
  | top
  /-- in the loop line 121, queue `i` next; `e` is `all_queues_empty` -/
  | scan (i : Nat) (e : Bool)
  /-- in `wait_for`, line 64; `woken` if notified since then -/
  | asleep (woken : Bool)
  | stopped
deriving DecidableEq

inductive Owner
  | prod
  | cons
deriving DecidableEq

/-- Shared state, positions, and the history: datagrams accepted and forwarded per connection. -/
structure Sys where
  mutex : Option Owner
  /-- `indicator_cnt`, int32_t -/
  ind : Int
  queue : Nat → List (List Nat)
  running : Bool
  prod : Prod
  cons : Cons
  accepted : Nat → List (List Nat)
  forwarded : Nat → List (List Nat)
  aborted : Bool

/-- After `start_sc` -/
def init : Sys := ⟨none, 0, fun _ => [], true, .idle, .start, fun _ => [], fun _ => [], false⟩

/-- The value of `get_indicator_cnt_under_lock`, lines 107-111: conversion to uint32_t -/
def asU32 (x : Int) : Int := x % 4294967296

/-- `notify_all` -/
def wakeUp : Cons → Cons
  | .asleep _ => .asleep true
  | c => c

/-- One step of one thread; `n` connections, queues for `cap` datagrams. -/
inductive Step (n cap : Nat) : Sys → Sys → Prop
  /-- a packet was decoded -/
  | packet (s) : s.prod = .idle → Step n cap s { s with prod := .writing 0 }
  /-- `write_nto` returns the number of bytes, steady_ft.cpp:339-342 -/
  | write (s c i d) : s.prod = .writing c → i < n → (s.queue i).length < cap →
      Step n cap s { s with
        prod := .writing (c + 1)
        queue := Function.update s.queue i (s.queue i ++ [d])
        accepted := Function.update s.accepted i (s.accepted i ++ [d]) }
  /-- `write_nto` returns zero, the queue is full -/
  | full (s c i) : s.prod = .writing c → i < n → (s.queue i).length = cap → Step n cap s s
  /-- steady_ft.cpp:345 -/
  | trigger (s c) : s.prod = .writing c → Step n cap s { s with prod := .want c }
  /-- lines 37-41, 95-99 -/
  | increase (s) (c : Nat) : s.prod = .want c → s.mutex = none →
      Step n cap s { s with prod := .locked, mutex := some .prod, ind := s.ind + c }
  /-- line 44 -/
  | unlock (s) : s.prod = .locked → Step n cap s { s with prod := .notify, mutex := none }
  /-- line 45 -/
  | notify (s) : s.prod = .notify → Step n cap s { s with prod := .idle, cons := wakeUp s.cons }
  /-- `stop_sc`, application.cpp:66 -/
  | stop (s) : Step n cap s { s with running := false }
  /-- line 51 -/
  | leave (s) : s.cons = .start → s.running = false → Step n cap s { s with cons := .stopped }
  /-- lines 51-55 -/
  | enter (s) : s.cons = .start → s.running = true → s.mutex = none →
      Step n cap s { s with cons := .check, mutex := some .cons }
  /-- lines 59-64, nothing to forward -/
  | sleep (s) : s.cons = .check → s.ind ≤ 0 → Step n cap s { s with cons := .asleep false, mutex := none }
  /-- lines 59-60 -/
  | forward (s) : s.cons = .check → 0 < s.ind → Step n cap s { s with cons := .top }
  /-- line 115, then line 64 -/
  | done (s) : s.cons = .top → asU32 s.ind = 0 → Step n cap s { s with cons := .asleep false, mutex := none }
  /-- lines 115-121 -/
  | again (s) : s.cons = .top → asU32 s.ind ≠ 0 → Step n cap s { s with cons := .scan 0 true }
  /-- lines 121-136 with data -/
  | take (s i e d q) : s.cons = .scan i e → i < n → s.queue i = d :: q →
      Step n cap s { s with
        cons := .scan (i + 1) false
        queue := Function.update s.queue i q
        forwarded := Function.update s.forwarded i (s.forwarded i ++ [d])
        ind := s.ind - 1 }
  /-- lines 121-126 without data -/
  | skip (s i e) : s.cons = .scan i e → i < n → s.queue i = [] → Step n cap s { s with cons := .scan (i + 1) e }
  /-- line 145, the assert fails -/
  | assertFail (s) : s.cons = .scan n true → Step n cap s { s with aborted := true }
  /-- line 145, the assert holds -/
  | assertOk (s) : s.cons = .scan n false → Step n cap s { s with cons := .top }
  /-- line 64: woken up by a notification or spuriously, mutex acquired -/
  | wake (s w) : s.cons = .asleep w → s.mutex = none → Step n cap s { s with cons := .check, mutex := some .cons }
  /-- lines 67-69, timeout; the mutex is released at the end of the block -/
  | timeout (s w) : s.cons = .asleep w → s.mutex = none → Step n cap s { s with cons := .start }

inductive Reach (n cap : Nat) : Sys → Prop
  | init : Reach n cap init
  | step {a b} : Reach n cap a → a.aborted = false → Step n cap a b → Reach n cap b

end Verif.App.Client
