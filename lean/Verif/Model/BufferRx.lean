import Mathlib.Logic.Function.Basic

/-!
# RX ring buffer

src/radio/buffer_rx.cpp:33-227 and its callers hw_usrp.cpp:1133-1185, hw_simulator.cpp:645-700.

One antenna stream (all are treated alike). A step is one sample written by the hardware, one sample copied when
wrapping, or one atomic operation, so that a reader may look at the memory between any two of them.
Simplifications: times reported by the hardware are not negative and no 64 bit overflow occurs; the notification
mechanism is the configured one (`RADIO_BUFFER_RX_ATOMIC_WAIT`). -/

namespace Verif.Radio.BufferRx

/-- Constructor arguments, buffer_rx.cpp:33-66 -/
structure Par where
  /-- `ant_streams_length_samples` -/
  L : Nat
  /-- `nof_new_samples_max`; the memory has `L + K` samples -/
  K : Nat
  /-- initial `rx_prestream_64` -/
  prestream : Int
  /-- `notification_period_samples` -/
  period : Int

/-- assert of line 68 (and a nonempty buffer) -/
def Par.Ok (c : Par) : Prop := 0 < c.K ∧ c.K * 8 ≤ c.L

inductive Phase
  /-- the hardware has written `j` samples of the current block -/
  | writing (j : Nat)
  /-- `get_ant_streams_next` for a block of `n` samples; `i` of `w` samples have been wrapped, lines 159-167 -/
  | wrapping (n w i : Nat)
  /-- new samples in place, line 193: `rx_time_passed_64` not yet updated -/
  | publishing
  /-- `rx_time_passed_64` updated, notification next, line 203 -/
  | notifying

structure Sys (α : Type) where
  mem : Nat → α
  /-- `time_as_sample_cnt_64` -/
  cnt : Nat
  /-- index of the address handed to the hardware -/
  ptr : Nat
  /-- `rx_prestream_64` -/
  pre : Int
  /-- `rx_time_passed_64` -/
  passed : Nat
  /-- `notification_next` -/
  next : Int
  phase : Phase
  /-- history: sample delivered by the hardware as number `t` -/
  hist : Nat → α
  /-- history: end of the first block after the last discontinuity, 0 at the start -/
  base : Nat
  /-- history: time of the last notification -/
  notified : Int
  /-- history: a block went back in time -/
  back : Bool

/-- Constructor, and the first call `get_ant_streams_next(ant_streams, 0, 0)` (hw_usrp.cpp:1133); `z` is the zero
sample. The first call publishes time 0 if there is no prestream, which does not change anything. -/
def init {α : Type} (c : Par) (z : α) : Sys α :=
  ⟨fun _ => z, 0, 0, c.prestream, 0, 0, .writing 0, fun _ => z, 0, 0, false⟩

/-- Time of the first sample of a block that the hardware says starts at `t0`, lines 140-155 -/
def start (cnt t0 : Nat) : Nat := if (cnt : Int) - t0 < -1 ∨ 1 < (cnt : Int) - t0 then t0 else cnt

/-- Phase after the wrap check, line 162 -/
def wrapPhase (c : Par) (st n : Nat) : Phase :=
  if st % c.L + n > c.L then .wrapping n (st % c.L + n - c.L) 0 else .wrapping n 0 0

inductive Step {α : Type} (c : Par) : Sys α → Sys α → Prop
  /-- the hardware writes a sample -/
  | write (s : Sys α) (j v) : s.phase = .writing j → j < c.K →
      Step c s { s with
        mem := Function.update s.mem (s.ptr + j) v, hist := Function.update s.hist (s.cnt + j) v, phase := .writing (j + 1) }
  /-- `get_ant_streams_next(_, t0, n)`, the counter is right -/
  | call (s : Sys α) (n t0) : s.phase = .writing n → start s.cnt t0 = s.cnt →
      Step c s { s with phase := wrapPhase c s.cnt n }
  /-- `get_ant_streams_next(_, t0, n)`, discontinuity -/
  | jump (s : Sys α) (n t0) : s.phase = .writing n → start s.cnt t0 ≠ s.cnt →
      Step c s { s with
        phase := wrapPhase c (start s.cnt t0) n, cnt := start s.cnt t0, base := start s.cnt t0 + n
        back := s.back || decide (start s.cnt t0 < s.cnt) }
  | copy (s : Sys α) (n w i) : s.phase = .wrapping n w i → i < w →
      Step c s { s with mem := Function.update s.mem i (s.mem (c.L + i)), phase := .wrapping n w (i + 1) }
  /-- lines 178-192 -/
  | advance (s : Sys α) (n w) : s.phase = .wrapping n w w →
      Step c s { s with
        cnt := s.cnt + n, ptr := (s.cnt + n) % c.L, pre := s.pre - n, phase := .publishing }
  /-- line 196: still prestreaming -/
  | prestream (s : Sys α) : s.phase = .publishing → 0 ≤ s.pre → Step c s { s with phase := .writing 0 }
  | publish (s : Sys α) : s.phase = .publishing → s.pre < 0 →
      Step c s { s with passed := s.cnt, phase := .notifying }
  | notify (s : Sys α) : s.phase = .notifying → s.next ≤ s.cnt →
      Step c s { s with next := s.cnt + c.period, notified := s.cnt, phase := .writing 0 }
  | quiet (s : Sys α) : s.phase = .notifying → (s.cnt : Int) < s.next → Step c s { s with phase := .writing 0 }

inductive Reach {α : Type} (c : Par) (z : α) : Sys α → Prop
  | init : Reach c z (init c z)
  | step {a b} : Reach c z a → Step c a b → Reach c z b

/-- `wait_until_nto`, lines 98-122: the argument lists the values which the thread loads from `rx_time_passed_64`,
`none` if it is still waiting after these -/
def waitUntil (target : Int) : List Int → Option Int
  | [] => none
  | now :: l => if target < now then some now else l.find? (fun x => decide (target ≤ x))

end Verif.Radio.BufferRx
