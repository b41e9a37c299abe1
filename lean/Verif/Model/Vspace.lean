import Verif.Base.Res
import Mathlib.Logic.Function.Basic

/-!
# Virtual space of the simulator

src/simulation/vspace.cpp:70-269, 328-397 and the threads of src/radio/hw_simulator.cpp:326-342, 372-398, 560-611 (TX),
621-703 (RX). `n` simulated devices, each with a TX and an RX thread. The functions of `vspace_t` hold the mutex from the
first to the last statement, so each of them is one step; a condition variable may wake a thread at any time and a timeout
only repeats the wait. `α` is what one call of `write` hands over: the samples and the meta data of the device (`vspptx_t`).
What the channels make of it is a function of the list of all `vspptx_t` (vspace.cpp:440-512); the model hands over this
list. Simplifications: sample rate and size of a packet of samples (`spp`) are the same for all devices
(vspace.cpp:84-91 asserts it); the alignment with wall clock time (vspace.cpp:262-264) only sleeps. -/

namespace Verif.Sim

variable {α : Type}

/-- Members of `vspace_t`, vspace.hpp:97-121. `rxReg i` is `vspptx_vec[i]->meta.vspprx_counterpart_registered` until
registration is over. -/
structure Space (α : Type) where
  allTx : Bool
  allRx : Bool
  txReg : Nat → Bool
  rxReg : Nat → Bool
  written : Nat → Bool
  rd : Nat → Bool
  slot : Nat → α
  now : Int

/-- All of the first `n` entries are set: vspace.cpp:346-352, 366-375, 377-384, 386-392 -/
def allSet (n : Nat) (f : Nat → Bool) : Bool := (List.range n).all f

/-- None of the first `n` entries is set: vspace.cpp:354-364 -/
def noneSet (n : Nat) (f : Nat → Bool) : Bool := (List.range n).all fun i => !f i

namespace Space

/-- `hw_register_tx`, vspace.cpp:70-106 -/
def registerTx (n : Nat) (i : Nat) (s : Space α) : Res (Space α) := do
  Res.assert (decide (i < n))
  Res.assert (!s.txReg i)
  let s := { s with txReg := Function.update s.txReg i true }
  if allSet n s.txReg then .ok { s with now := 0, allTx := true } else .ok s

/-- `hw_register_rx`, vspace.cpp:108-140; `t` is `vspprx.meta.now_64`. Before all TX are registered there may be no
counterpart. -/
def registerRx (n : Nat) (i : Nat) (t : Int) (s : Space α) : Res (Space α) :=
  if !s.txReg i then .ub
  else do
    Res.assert (!s.rxReg i)
    Res.assert s.allTx
    Res.assert (!(noneSet n s.rxReg) || decide (s.now = 0))
    let s := if noneSet n s.rxReg then { s with now := t } else s
    let s := { s with rxReg := Function.update s.rxReg i true }
    Res.assert (decide (t = s.now))
    if allSet n s.rxReg then
      .ok { s with written := fun _ => false, rd := fun _ => true, allRx := true }
    else .ok s

/-- `write`, vspace.cpp:202-236 -/
def write (n : Nat) (i : Nat) (t : Int) (v : α) (s : Space α) : Res (Space α) := do
  Res.assert (!s.written i)
  Res.assert (decide (t = s.now))
  let s := { s with slot := Function.update s.slot i v }
  let s := { s with written := Function.update s.written i true }
  if allSet n s.written then .ok { s with rd := fun _ => false } else .ok s

/-- `read`, vspace.cpp:238-269: the contents of all `vspptx_t` at the time of the call -/
def read (n : Nat) (spp : Int) (i : Nat) (t : Int) (s : Space α) : Res (Space α × List α) := do
  Res.assert (!s.rd i)
  Res.assert (decide (t = s.now))
  let out := (List.range n).map s.slot
  let s := { s with rd := Function.update s.rd i true }
  if allSet n s.rd then .ok ({ s with now := s.now + spp, written := fun _ => false }, out) else .ok (s, out)

end Space

/-- TX thread, hw_simulator.cpp:326-613 -/
inductive TxPc (α : Type)
  | start
  /-- registered, waiting for the RX threads, line 342 -/
  | reg
  /-- next: wait until writable, lines 396, 570, 598; the flag tells whether a packet has been found, so that the thread
  waits without checking `keep_running` (lines 374-590) -/
  | loop (now : Int) (pkt : Bool)
  /-- writable; `write` next -/
  | ready (now : Int) (v : α)
  | stopped

/-- RX thread, hw_simulator.cpp:621-703 -/
inductive RxPc
  | start
  /-- all TX registered and time set, lines 633-636 -/
  | timed
  | reg
  /-- next: wait until readable, line 671 -/
  | loop (now : Int)
  /-- readable; `read` next -/
  | ready (now : Int)
  | stopped
  deriving DecidableEq

structure Cfg where
  n : Nat
  /-- number of samples of an spp -/
  spp : Int
  /-- time set by the RX thread of a device, hw_simulator.cpp:250-253 -/
  start : Nat → Int

structure Sys (α : Type) where
  sp : Space α
  /-- `keep_running` -/
  running : Nat → Bool
  tx : Nat → TxPc α
  rx : Nat → RxPc
  /-- spp written by each device, with the time at which each starts -/
  sent : Nat → List (Int × α)
  /-- spp read by each device -/
  recv : Nat → List (Int × List α)
  aborted : Bool

/-- vspace.cpp:36-68 -/
def Sys.init (junk : Nat → α) : Sys α :=
  ⟨⟨false, false, fun _ => false, fun _ => false, fun _ => false, fun _ => false, junk, 0⟩, fun _ => true, fun _ => .start,
    fun _ => .start, fun _ => [], fun _ => [], false⟩

/-- A call which does not return normally -/
def Sys.fails (c : Cfg) (s : Sys α) (i : Nat) : Prop :=
  (s.tx i = .start ∧ (s.sp.registerTx c.n i).isOk = false) ∨
  (s.rx i = .timed ∧ (s.sp.registerRx c.n i (c.start i)).isOk = false) ∨
  (∃ t v, s.tx i = .ready t v ∧ (s.sp.write c.n i t v).isOk = false) ∨
  (∃ t, s.rx i = .ready t ∧ (s.sp.read c.n c.spp i t).isOk = false)

/-- One step of a thread of device `i`. -/
inductive Step (c : Cfg) : Sys α → Sys α → Prop
  | fail (s : Sys α) (i) : i < c.n → s.fails c i → Step c s { s with aborted := true }
  | txRegister (s : Sys α) (i sp') : i < c.n → s.tx i = .start → s.sp.registerTx c.n i = .ok sp' →
      Step c s { s with sp := sp', tx := Function.update s.tx i .reg }
  /-- vspace.cpp:151-158; the time is that of the buffer of the RX thread, hw_simulator.cpp:351-352 -/
  | txGo (s : Sys α) (i) : i < c.n → s.tx i = .reg → s.sp.allRx = true →
      Step c s { s with tx := Function.update s.tx i (.loop (c.start i) false) }
  /-- vspace.cpp:160-173 returns true -/
  | txSee (s : Sys α) (i t b) (v : α) : i < c.n → s.tx i = .loop t b → (s.running i = true ∨ b = true) →
      s.sp.written i = false → Step c s { s with tx := Function.update s.tx i (.ready t v) }
  /-- `b` tells whether the packet goes on -/
  | txWrite (s : Sys α) (i t v sp') (b : Bool) : i < c.n → s.tx i = .ready t v → s.sp.write c.n i t v = .ok sp' →
      Step c s { s with
        sp := sp', tx := Function.update s.tx i (.loop (t + c.spp) b)
        sent := Function.update s.sent i (s.sent i ++ [(t, v)]) }
  | txStop (s : Sys α) (i t) : i < c.n → s.tx i = .loop t false → s.running i = false →
      Step c s { s with tx := Function.update s.tx i .stopped }
  /-- vspace.cpp:142-149, hw_simulator.cpp:633-636 -/
  | rxTime (s : Sys α) (i) : i < c.n → s.rx i = .start → s.sp.allTx = true →
      Step c s { s with rx := Function.update s.rx i .timed }
  | rxRegister (s : Sys α) (i sp') : i < c.n → s.rx i = .timed → s.sp.registerRx c.n i (c.start i) = .ok sp' →
      Step c s { s with sp := sp', rx := Function.update s.rx i .reg }
  | rxGo (s : Sys α) (i) : i < c.n → s.rx i = .reg → s.sp.allRx = true →
      Step c s { s with rx := Function.update s.rx i (.loop (c.start i)) }
  /-- vspace.cpp:181-194 returns true -/
  | rxSee (s : Sys α) (i t) : i < c.n → s.rx i = .loop t → s.running i = true → s.sp.rd i = false →
      Step c s { s with rx := Function.update s.rx i (.ready t) }
  | rxRead (s : Sys α) (i t sp' out) : i < c.n → s.rx i = .ready t → s.sp.read c.n c.spp i t = .ok (sp', out) →
      Step c s { s with
        sp := sp', rx := Function.update s.rx i (.loop (t + c.spp))
        recv := Function.update s.recv i (s.recv i ++ [(t, out)]) }
  | rxStop (s : Sys α) (i t) : i < c.n → s.rx i = .loop t → s.running i = false →
      Step c s { s with rx := Function.update s.rx i .stopped }
  /-- `work_stop`, hw_simulator.cpp:305-308 -/
  | halt (s : Sys α) (i) : i < c.n → s.running i = true → Step c s { s with running := Function.update s.running i false }

/-- States after `k` steps -/
inductive Reach (c : Cfg) (junk : Nat → α) : Nat → Sys α → Prop
  | init : Reach c junk 0 (Sys.init junk)
  | step {k a b} : Reach c junk k a → Step c a b → Reach c junk (k + 1) b

/-! ## Complete graph, src/simulation/topology/graph.cpp -/

/-- graph.cpp:26-28; `uint32_t` -/
def nofEdges (n : Nat) : Nat := n * ((n + 4294967295) % 4294967296) % 4294967296 / 2

/-- graph.cpp:30-52; `uint32_t` -/
def edgeIndex (n v0 v1 : Nat) : Res Nat :=
  if v0 = v1 then .abort
  else
    let A := if v0 < v1 then v0 else v1
    let B := if v0 < v1 then v1 else v0
    .ok (((2 * n * A + 2 * 4294967296 * 4294967296 - A - A * A) % 4294967296 / 2 + B + 4294967296 * 2 - A - 1) % 4294967296)

/-- The channels created by vspace.cpp:404-447: pairs of devices in the order of their creation -/
def generateGraph (n : Nat) : List (Nat × Nat) :=
  (List.range (n - 1)).flatMap fun i => (List.range (n - 1 - i)).map fun k => (i, i + 1 + k)

end Verif.Sim
