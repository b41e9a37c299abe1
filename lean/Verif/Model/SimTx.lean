import Verif.Base.Res

/-!
# TX thread of a simulated device

src/radio/hw_simulator.cpp:358-611, function `work_tx`, one antenna. The thread takes the packets from the pool in the order the
firmware asked for and hands packets of `spp` samples to the virtual space, one for each interval of the time axis. Whether a
packet is in the pool when the thread asks for it is not determined (`get_specific_tx_order_id_if_available`); the waits for the
virtual space (C61) and for samples of the packet (C20) only delay it. Simplifications: power adjustments and statistics are left
out; `clip_and_quantize` acts on each sample alone and is left out; the sequence of packets in the order expected is given as a
list, that is `tx_order_id_expect_next` is taken to be read before the buffer can be reused (hw_simulator.cpp:483-493 reads it after
`set_transmitted_or_abort`). Sample counts are below 2^32 (`uint32_t`). -/

namespace Verif.SimTx

variable {α : Type}

/-- A packet in a TX buffer: `buffer_tx_meta.tx_time_64`, `tx_length_samples` and the samples, buffer_tx.hpp -/
structure Pkt (α : Type) where
  time : Int
  len : Nat
  sample : Nat → α

/-- What one call of `vspace.write` hands over: `tx_idx`, `tx_length` and the samples, vspptx.hpp -/
structure Out (α : Type) where
  idx : Int
  len : Int
  spp : List α

/-- `spp_write_v`, vspp.cpp: `n` samples to offset `off` -/
def put (mem : Nat → α) (off n : Nat) (src : Nat → α) : Nat → α :=
  fun k => if off ≤ k ∧ k < off + n then src (k - off) else mem k

/-- Where the thread is: at the head of the outer loop; sending `k` more spp of zeros before packet `p`; in the inner loop with
buffer `p`, `tx_length_samples_cnt` and `spp_offset` -/
inductive Mode (α : Type) where
  | idle
  | zeros (p : Pkt α) (k : Nat)
  | send (p : Pkt α) (cnt off : Nat)

/-- Members: simulation time `now_64`, packets not yet set as transmitted in the order expected, packets set as transmitted and
what was written so far -/
structure Tx (α : Type) where
  now : Int
  mode : Mode α
  todo : List (Pkt α)
  done : List (Pkt α)
  out : List (Out α)

/-- Outer loop with the expected packet `p` available: hw_simulator.cpp:363-391. The quotient is that of non-negative numbers. -/
def found (spp : Nat) (now : Int) (p : Pkt α) : Res (Mode α) := do
  Res.assert (decide (spp < p.len))
  Res.assert (decide (now ≤ p.time))
  .ok (.zeros p ((p.time - now) / (spp : Int)).toNat)

/-- After the spp of zeros: hw_simulator.cpp:411-427 -/
def start (spp : Nat) (now : Int) (p : Pkt α) : Res (Mode α) := do
  let off := (p.time - now).toNat
  Res.assert (decide (off < spp))
  .ok (.send p 0 off)

/-- State of the variables at the end of one run of the inner loop: which buffer, `tx_length_samples_cnt`, whether the first packet
was set as transmitted, and what is written -/
structure Iter (α : Type) where
  cur : Pkt α
  cnt : Nat
  over : Bool
  out : Out α

/-- One run of the inner loop: hw_simulator.cpp:430-584. `next` is the packet found if the first one ends within the spp,
none if it is not available. -/
def iter [Zero α] (spp : Nat) (now : Int) (p : Pkt α) (cnt off : Nat) (next : Option (Pkt α)) : Res (Iter α) := do
  let m := min (p.len - cnt) (spp - off)
  let mem := put (fun _ => 0) off m (fun k => p.sample (cnt + k))
  let cnt' := cnt + m
  let cont : Iter α := ⟨p, cnt', decide (cnt' = p.len), ⟨off, m, (List.range spp).map mem⟩⟩
  if cnt' = p.len then
    if off + m < spp then
      match next with
      | none => .ok cont
      | some q =>
        Res.assert (decide (spp < q.len))
        Res.assert (decide (now + ((off + m : Nat) : Int) ≤ q.time))
        if q.time < now + (spp : Int) then
          let off2 := (q.time - now).toNat
          Res.assert (decide (off2 < spp))
          let m2 := spp - off2
          .ok ⟨q, m2, true, ⟨0, spp, (List.range spp).map (put mem off2 m2 q.sample)⟩⟩
        else .ok { cont with cur := q }
    else .ok cont
  else .ok cont

/-- An spp of zeros, `tx_set_no_non_zero_samples`: vspptx.cpp -/
def zeroOut [Zero α] (spp : Nat) : Out α := ⟨-1, -1, List.replicate spp 0⟩

/-- Steps of the thread, one for each spp written -/
inductive Step [Zero α] (spp : Nat) : Tx α → Tx α → Prop
  /-- hw_simulator.cpp:588-611, expected packet not available -/
  | idle (s : Tx α) : s.mode = .idle →
      Step spp s { s with now := s.now + spp, out := s.out ++ [zeroOut spp] }
  /-- hw_simulator.cpp:363-391 -/
  | found (s : Tx α) (p : Pkt α) (rest : List (Pkt α)) (md : Mode α) : s.mode = .idle → s.todo = p :: rest →
      found spp s.now p = .ok md → Step spp s { s with mode := md }
  /-- hw_simulator.cpp:393-409 -/
  | zero (s : Tx α) (p : Pkt α) (k : Nat) : s.mode = .zeros p (k + 1) →
      Step spp s { s with now := s.now + spp, mode := .zeros p k, out := s.out ++ [zeroOut spp] }
  | start (s : Tx α) (p : Pkt α) (md : Mode α) : s.mode = .zeros p 0 → start spp s.now p = .ok md →
      Step spp s { s with mode := md }
  /-- hw_simulator.cpp:430-584; `avail` tells whether the next packet is found should the current one end -/
  | send (s : Tx α) (p : Pkt α) (cnt off : Nat) (avail : Bool) (it : Iter α) : s.mode = .send p cnt off →
      iter spp s.now p cnt off (if avail then s.todo.tail.head? else none) = .ok it →
      Step spp s
        { now := s.now + spp
          mode := if it.cnt < it.cur.len then .send it.cur it.cnt 0 else .idle
          todo := if it.over then s.todo.tail else s.todo
          done := if it.over then s.done ++ [p] else s.done
          out := s.out ++ [it.out] }

/-- States reached from time `T` with the packets `ps` in the order expected. A run in which an assert fails ends there. -/
inductive Reach [Zero α] (spp : Nat) (T : Int) (ps : List (Pkt α)) : Tx α → Prop
  | init : Reach spp T ps ⟨T, .idle, ps, [], []⟩
  | step {s s'} : Reach spp T ps s → Step spp s s' → Reach spp T ps s'

end Verif.SimTx
