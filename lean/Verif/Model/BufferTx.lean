import Mathlib.Logic.Function.Basic

/-!
# TX buffer pool

src/radio/buffer_tx.cpp:70-168, src/radio/buffer_tx_pool.cpp:55-135, src/common/thread/lockable_outer_inner.cpp:26-91,
the producer src/phy/tx/tx.cpp:165-310 (as far as it calls the buffer) and the TX thread src/radio/hw_usrp.cpp:839-1090
(same).

`n` buffers, any number of producers (PHY workers), one TX thread. A step is one atomic operation or one
section under the mutex. Simplifications: one antenna; the packet is not longer than the buffer
(buffer_tx.cpp:79 is assumed, see C26); the counter `tx_new_packet_cnt` is an unbounded integer, which agrees with
`uint32_t` in all comparisons as long as fewer than 2^32 packets are announced during one wait; the TX thread of
the model always releases a buffer before it looks for the next one, while the USRP thread may look for it just
before (what is found then is still there after the release). -/

namespace Verif.Radio.BufferTx

/-- Packet of a producer: samples and `buffer_tx_meta_t` -/
structure Pkt where
  order : Int
  /-- `tx_order_id_expect_next` -/
  next : Int
  len : Nat
  sample : Nat → Nat

inductive PPc
  | idle
  /-- `get_buffer_tx_to_fill` at index `i` -/
  | scan (i : Nat) (p : Pkt)
  /-- outer lock taken -/
  | entry (i : Nat) (p : Pkt)
  /-- `w` samples written; the flag tells whether the final number of samples has been published -/
  | fill (i : Nat) (p : Pkt) (w : Nat) (fin : Bool)
  /-- `set_transmittable`: meta data written, buffer_tx.cpp:88 -/
  | sub (i : Nat) (p : Pkt) (w : Nat) (fin : Bool)
  /-- asserts of `lock_inner` passed -/
  | chk (i : Nat) (p : Pkt) (w : Nat) (fin : Bool)
  /-- inner lock taken, increment of the counter next, buffer_tx.cpp:92-99 -/
  | pend (i : Nat) (p : Pkt) (w : Nat) (fin : Bool)
  /-- after `set_transmittable`, samples still to be written (`PHY_TX_BACKPRESSURED...`) -/
  | rest (i : Nat) (p : Pkt) (w : Nat)

inductive TPc
  /-- about to call `wait_for_specific_tx_order_id_to(e)` -/
  | idle (e : Int)
  /-- initial search at index `i`, buffer_tx_pool.cpp:91 -/
  | scan1 (i : Nat) (e : Int)
  /-- mutex locked, condition of the inner loop next, line 113; the flag tells whether the reference value is that
  of a search -/
  | loop (ref : Int) (searched : Bool) (e : Int)
  /-- `wait_for`, line 115 -/
  | wait (ref : Int) (searched : Bool) (e : Int)
  /-- mutex locked, search at index `i`, line 124 -/
  | scan2 (i : Nat) (e : Int)
  /-- packet `e` found in buffer `i`, `read` samples transmitted, `e'` is the next order number to wait for -/
  | send (i : Nat) (e e' : Int) (read : List Nat)
  /-- `set_transmitted_or_abort`: internals reset, `unlock_inner` next -/
  | relInner (i : Nat) (e' : Int)
  /-- `unlock_outer` next -/
  | relOuter (i : Nat) (e' : Int)
  /-- decrement of the counter next -/
  | relCnt (i : Nat) (e' : Int)

structure Sys where
  outer : Nat → Bool
  inner : Nat → Bool
  /-- `buffer_tx_meta.tx_order_id` -/
  order : Nat → Int
  /-- `buffer_tx_meta.tx_order_id_expect_next` -/
  next : Nat → Int
  /-- `tx_length_samples` -/
  length : Nat → Nat
  /-- `tx_length_samples_cnt` -/
  lengthCnt : Nat → Nat
  mem : Nat → Nat → Nat
  /-- `tx_new_packet_cnt` -/
  cnt : Int
  pc : Nat → PPc
  tx : TPc
  /-- packets submitted with `set_transmittable` -/
  submitted : List Pkt
  /-- order number looked for, order number to be looked for next, samples transmitted -/
  sent : List (Int × Int × List Nat)
  /-- packet of each buffer (history) -/
  pkt : Nat → Pkt
  /-- inner-locked buffers (history) -/
  lockedB : List Nat
  /-- threads in `set_transmittable` before the increment (history) -/
  pending : List Nat
  aborted : Bool

def init : Sys :=
  ⟨fun _ => false, fun _ => false, fun _ => -1, fun _ => -1, fun _ => 0, fun _ => 0, fun _ _ => 0, 0, fun _ => .idle, .idle 0, [], [],
    fun _ => ⟨0, 0, 0, fun _ => 0⟩, [], [], false⟩

/-- hw_usrp.cpp:891-898 -/
def nextOrder (e next : Int) : Int := if next < 0 then e + 1 else next

/-- Asserts of a producer on the lock state -/
def failing (s : Sys) : PPc → Prop
  | .entry i _ => ¬ (s.outer i = true ∧ s.inner i = false)
  | .fill i _ _ _ => ¬ (s.outer i = true ∧ s.inner i = false)
  | .sub i _ _ _ => ¬ (s.outer i = true ∧ s.inner i = false)
  | _ => False

/-- Asserts of the TX thread on the lock state -/
def failingTx (s : Sys) : TPc → Prop
  | .send i _ _ _ => ¬ (s.outer i = true ∧ s.inner i = true)
  | .relInner i _ => ¬ (s.outer i = true ∧ s.inner i = true)
  | .relOuter i _ => ¬ (s.outer i = true ∧ s.inner i = false)
  | _ => False

/-- The TX thread holds the mutex. -/
def hasMutex : TPc → Bool
  | .loop _ _ _ => true
  | .scan2 _ _ => true
  | _ => false

/-- Thread `t` after `set_transmittable` -/
def afterPend (i : Nat) (p : Pkt) (w : Nat) (fin : Bool) : PPc := if fin then .idle else .rest i p w

inductive Step (n : Nat) : Sys → Sys → Prop
  | fail (s : Sys) (t) : failing s (s.pc t) → Step n s { s with aborted := true }
  | failTx (s : Sys) : failingTx s s.tx → Step n s { s with aborted := true }
  /-- a producer with packet `p` calls `get_buffer_tx_to_fill`; packets are not empty (hw_usrp.cpp:911) -/
  | call (s : Sys) (t p) : s.pc t = .idle → 0 < p.len → Step n s { s with pc := Function.update s.pc t (.scan 0 p) }
  | take (s : Sys) (t i p) : s.pc t = .scan i p → i < n → s.outer i = false →
      Step n s { s with pc := Function.update s.pc t (.entry i p), outer := Function.update s.outer i true }
  | skip (s : Sys) (t i p) : s.pc t = .scan i p → i < n → s.outer i = true →
      Step n s { s with pc := Function.update s.pc t (.scan (i + 1) p) }
  | none (s : Sys) (t i p) : s.pc t = .scan i p → n ≤ i → Step n s { s with pc := Function.update s.pc t .idle }
  /-- `get_ant_streams`, buffer_tx.cpp:70-83 -/
  | streams (s : Sys) (t i p) : s.pc t = .entry i p → s.outer i = true → s.inner i = false →
      Step n s { s with
        pc := Function.update s.pc t (.fill i p 0 false), length := Function.update s.length i p.len
        pkt := Function.update s.pkt i p }
  /-- a sample is written -/
  | write (s : Sys) (t i p w) : s.pc t = .fill i p w false → w < p.len →
      Step n s { s with
        pc := Function.update s.pc t (.fill i p (w + 1) false)
        mem := Function.update s.mem i (Function.update (s.mem i) w (p.sample w)) }
  /-- `set_tx_length_samples_cnt` with some samples missing -/
  | publish (s : Sys) (t i p w) : s.pc t = .fill i p w false → w < p.len →
      Step n s { s with lengthCnt := Function.update s.lengthCnt i w }
  /-- `set_tx_length_samples_cnt` with all samples, tx.cpp:292 -/
  | publishAll (s : Sys) (t i p) : s.pc t = .fill i p p.len false →
      Step n s { s with
        pc := Function.update s.pc t (.fill i p p.len true), lengthCnt := Function.update s.lengthCnt i p.len }
  /-- `set_transmittable`, buffer_tx.cpp:86-88 -/
  | submit (s : Sys) (t i p w fin) : s.pc t = .fill i p w fin → s.outer i = true → s.inner i = false →
      Step n s { s with
        pc := Function.update s.pc t (.sub i p w fin)
        order := Function.update s.order i p.order, next := Function.update s.next i p.next
        submitted := s.submitted ++ [p] }
  | check (s : Sys) (t i p w fin) : s.pc t = .sub i p w fin → s.outer i = true → s.inner i = false →
      Step n s { s with pc := Function.update s.pc t (.chk i p w fin) }
  | lock (s : Sys) (t i p w fin) : s.pc t = .chk i p w fin →
      Step n s { s with
        pc := Function.update s.pc t (.pend i p w fin), inner := Function.update s.inner i true
        lockedB := i :: s.lockedB, pending := t :: s.pending }
  /-- increment under the mutex and notification -/
  | announce (s : Sys) (t i p w fin) : s.pc t = .pend i p w fin → hasMutex s.tx = false →
      Step n s { s with
        pc := Function.update s.pc t (afterPend i p w fin), cnt := s.cnt + 1, pending := s.pending.erase t }
  | writeRest (s : Sys) (t i p w) : s.pc t = .rest i p w → w < p.len →
      Step n s { s with
        pc := Function.update s.pc t (.rest i p (w + 1))
        mem := Function.update s.mem i (Function.update (s.mem i) w (p.sample w)) }
  | publishRest (s : Sys) (t i p w) : s.pc t = .rest i p w → w < p.len →
      Step n s { s with lengthCnt := Function.update s.lengthCnt i w }
  | publishRestAll (s : Sys) (t i p) : s.pc t = .rest i p p.len →
      Step n s { s with pc := Function.update s.pc t .idle, lengthCnt := Function.update s.lengthCnt i p.len }
  /-- TX thread -/
  | txCall (s : Sys) (e) : s.tx = .idle e → Step n s { s with tx := .scan1 0 e }
  | txSkip1 (s : Sys) (i e) : s.tx = .scan1 i e → i < n → ¬ (s.inner i = true ∧ s.order i = e) →
      Step n s { s with tx := .scan1 (i + 1) e }
  | txFound1 (s : Sys) (i e) : s.tx = .scan1 i e → i < n → s.inner i = true → s.order i = e →
      Step n s { s with tx := .send i e (nextOrder e (s.next i)) [] }
  /-- mutex locked, buffer_tx_pool.cpp:98-104 -/
  | txLock (s : Sys) (i e) : s.tx = .scan1 i e → n ≤ i → Step n s { s with tx := .loop 0 false e }
  | txWait (s : Sys) (ref ch e) : s.tx = .loop ref ch e → s.cnt = ref → Step n s { s with tx := .wait ref ch e }
  /-- woken by a notification or spuriously -/
  | txWake (s : Sys) (ref ch e) : s.tx = .wait ref ch e → Step n s { s with tx := .loop ref ch e }
  | txTimeout (s : Sys) (ref ch e) : s.tx = .wait ref ch e → Step n s { s with tx := .idle e }
  | txSearch (s : Sys) (ref ch e) : s.tx = .loop ref ch e → s.cnt ≠ ref → Step n s { s with tx := .scan2 0 e }
  | txSkip2 (s : Sys) (i e) : s.tx = .scan2 i e → i < n → ¬ (s.inner i = true ∧ s.order i = e) →
      Step n s { s with tx := .scan2 (i + 1) e }
  | txFound2 (s : Sys) (i e) : s.tx = .scan2 i e → i < n → s.inner i = true → s.order i = e →
      Step n s { s with tx := .send i e (nextOrder e (s.next i)) [] }
  | txRef (s : Sys) (i e) : s.tx = .scan2 i e → n ≤ i → Step n s { s with tx := .loop s.cnt true e }
  /-- a sample is transmitted after `wait_for_samples_busy_nto` -/
  | txRead (s : Sys) (i e e' l) : s.tx = .send i e e' l → l.length < s.length i → l.length < s.lengthCnt i →
      Step n s { s with tx := .send i e e' (l ++ [s.mem i l.length]) }
  /-- `set_transmitted_or_abort` after the last sample and the wait for all samples (hw_usrp.cpp:966), `reset` -/
  | txDone (s : Sys) (i e e' l) : s.tx = .send i e e' l → l.length = s.length i → s.length i ≤ s.lengthCnt i →
      s.outer i = true → s.inner i = true →
      Step n s { s with
        tx := .relInner i e', sent := s.sent ++ [(e, e', l)]
        length := Function.update s.length i 0, lengthCnt := Function.update s.lengthCnt i 0
        order := Function.update s.order i (-1) }
  | txInner (s : Sys) (i e') : s.tx = .relInner i e' → s.outer i = true → s.inner i = true →
      Step n s { s with tx := .relOuter i e', inner := Function.update s.inner i false, lockedB := s.lockedB.erase i }
  | txOuter (s : Sys) (i e') : s.tx = .relOuter i e' → s.outer i = true → s.inner i = false →
      Step n s { s with tx := .relCnt i e', outer := Function.update s.outer i false }
  | txCnt (s : Sys) (i e') : s.tx = .relCnt i e' → Step n s { s with tx := .idle e', cnt := s.cnt - 1 }

inductive Reach (n : Nat) : Sys → Prop
  | init : Reach n init
  | step {a b} : Reach n a → Step n a b → Reach n b

end Verif.Radio.BufferTx
