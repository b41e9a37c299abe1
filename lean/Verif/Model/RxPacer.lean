import Verif.Model.Resampler

/-!
# RX pacer

src/phy/rx/rx_pacer.cpp:71-300. One antenna stream. `mem t` is the content of the RX ring buffer while the unit whose
first sample has time `t` is being read (each unit is read once, after `wait_until_nto`). Times are not
negative. -/

namespace Verif.Phy.RxPacer

structure Par where
  /-- `ant_streams_length_samples` -/
  L : Nat
  /-- `ant_streams_unit_length_samples` -/
  U : Nat

/-- asserts of the constructor, lines 42-48 -/
def Par.Ok (c : Par) : Prop := 0 < c.U ∧ 0 < c.L ∧ c.L % c.U = 0

/-- localbuffer_t -/
structure Lb (α : Type) where
  /-- `nof_samples` -/
  size : Nat
  buf : Nat → α
  /-- `ant_streams_time_64` -/
  time : Nat
  /-- `cnt_w` -/
  cntW : Nat

variable {α β : Type}

/-- srsran_vec_cf_copy from index `soff` of a memory of `slen` samples to index `doff` of one of `dlen` samples -/
def copy (dlen slen : Nat) (dst : Nat → α) (doff : Nat) (src : Nat → α) (soff n : Nat) : Res (Nat → α) :=
  if doff + n ≤ dlen ∧ soff + n ≤ slen then
    .ok (fun k => if doff ≤ k ∧ k < doff + n then src (soff + (k - doff)) else dst k)
  else .ub

/-- `filter_single_unit`, lines 71-104, without the update of `cnt_w`; `K` is the overhang of the ring buffer -/
def filterUnit (c : Par) (mem : Nat → α) (lb : Lb α) : Res (Nat → α) :=
  let index := lb.time % c.L
  let right := c.L - index
  if c.U ≤ right then copy lb.size c.L lb.buf lb.cntW mem index c.U
  else do
    let b ← copy lb.size c.L lb.buf lb.cntW mem index right
    copy lb.size c.L b (lb.cntW + right) mem 0 (c.U - right)

/-- `filter_until_nto`, lines 239-270 -/
def filterUntil (c : Par) (mem : Nat → Nat → α) (min : Nat) (lb : Lb α) : Res (Lb α) :=
  if lb.cntW < min ∧ 0 < c.U then
    match filterUnit c (mem lb.time) lb with
    | .ok b => filterUntil c mem min { lb with buf := b, cntW := lb.cntW + c.U, time := lb.time + c.U }
    | .abort => .abort
    | .ub => .ub
  else .ok lb
termination_by min - lb.cntW

/-- Several calls of `filter_until_nto` -/
def filterAll (c : Par) (mem : Nat → Nat → α) : List Nat → Lb α → Res (Lb α)
  | [], lb => .ok lb
  | m :: ms, lb => do
    let lb ← filterUntil c mem m lb
    filterAll c mem ms lb

/-- `get_initialized_localbuffer` and `reset_localbuffer`, lines 157-169, 206-210 -/
def newFilter (c : Par) (z : α) (max time : Nat) : Lb α := ⟨(max + c.U - 1) / c.U * c.U, fun _ => z, time, 0⟩

/-- Input of the resampler, lines 106-139: directly from the ring buffer or by way of `ant_streams_edge` -/
def unitInput (c : Par) (mem : Nat → α) (time : Nat) : Res (List α) :=
  let index := time % c.L
  let right := c.L - index
  if c.U ≤ right then .ok ((List.range c.U).map (fun k => mem (index + k)))
  else do
    let e ← copy c.U c.L (fun _ => mem 0) 0 mem index right
    let e ← copy c.U c.L e right mem 0 (c.U - right)
    .ok ((List.range c.U).map e)

/-- localbuffer for resampling with the state of the resampler -/
structure Lr (α β : Type) where
  size : Nat
  buf : Nat → β
  time : Nat
  cntW : Nat
  rs : Resampler.State α
  /-- history: all samples put out since the reset -/
  log : List β

/-- `resample`, lines 330-334: `resample_L1M1` or `resample_LXMX` -/
def dispatch (r : Resampler.Cfg α β) (impl : Nat → Nat → List α → Res (List β × Nat)) (same : α → β) (s : Resampler.State α)
    (b : List α) : Res (List β × Resampler.State α) :=
  if r.L = 1 ∧ r.M = 1 then .ok (b.map same, s) else Resampler.resample r impl s b

/-- `resample_single_unit`, lines 141-153; writing beyond the local buffer is undefined behaviour -/
def resampleUnit (c : Par) (res : Resampler.State α → List α → Res (List β × Resampler.State α)) (mem : Nat → α)
    (lb : Lr α β) : Res (Lr α β) := do
  let x ← unitInput c mem lb.time
  let r ← res lb.rs x
  if lb.cntW + r.1.length ≤ lb.size then
    .ok { lb with
      buf := fun k => if lb.cntW ≤ k ∧ k < lb.cntW + r.1.length then r.1.getD (k - lb.cntW) (lb.buf k) else lb.buf k
      cntW := lb.cntW + r.1.length, rs := r.2, log := lb.log ++ r.1 }
  else .ub

/-- `resample_until_nto`, lines 274-305; `fuel` bounds the number of units (a unit may yield no sample) -/
def resampleUntil (c : Par) (res : Resampler.State α → List α → Res (List β × Resampler.State α)) (mem : Nat → Nat → α)
    (min : Nat) : Nat → Lr α β → Res (Option (Lr α β))
  | 0, lb => if lb.cntW < min then .ok none else .ok (some lb)
  | fuel + 1, lb => if lb.cntW < min then
      match resampleUnit c res (mem lb.time) lb with
      | .ok lb' => resampleUntil c res mem min fuel { lb' with time := lb.time + c.U }
      | .abort => .abort
      | .ub => .ub
    else .ok (some lb)

/-- Size of the local buffer, lines 173-193 -/
def resampleSize (c : Par) (r : Resampler.Cfg α β) (max : Nat) : Nat :=
  let perUnit := (c.U + r.M - 1) / r.M * r.L
  perUnit * (1 + (max + perUnit - 1) / perUnit)

/-- `get_initialized_localbuffer`, `reset_localbuffer`, lines 173-200, 212-216 -/
def newResample (c : Par) (r : Resampler.Cfg α β) (z : β) (max time : Nat) : Lr α β :=
  ⟨resampleSize c r max, fun _ => z, time, 0, Resampler.reset r, []⟩

/-- `rewind_localbuffer_resample_cnt_w`, line 272 -/
def rewind (lb : Lr α β) : Lr α β := { lb with cntW := 0 }

/-- What a deriving class does with the local buffer -/
inductive Op
  /-- `resample_until_nto(min)`, at most `fuel` units are received -/
  | request (min fuel : Nat)
  | rewind

/-- Several calls; `none` if one of them is still waiting for units -/
def run (c : Par) (res : Resampler.State α → List α → Res (List β × Resampler.State α)) (mem : Nat → Nat → α) :
    List Op → Lr α β → Res (Option (Lr α β))
  | [], lb => .ok (some lb)
  | .request m f :: ops, lb => do
    let r ← resampleUntil c res mem m f lb
    match r with
    | some lb => run c res mem ops lb
    | none => .ok none
  | .rewind :: ops, lb => run c res mem ops (rewind lb)

end Verif.Phy.RxPacer
