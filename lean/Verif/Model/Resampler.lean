import Verif.Base.Res

/-!
# Rational polyphase resampler

src/phy/resample/resampler.cpp. One antenna stream (all are treated alike). Samples and filter coefficients are
abstract: `dot f w` stands for the dot product of subfilter `f` with the window `w` of `h + 1` samples, computed by
volk in the code. Reading a window beyond the end of the memory passed to the function is undefined behaviour. -/

namespace Verif.Phy.Resampler

/-- Constants set by the constructor -/
structure Cfg (α β : Type) where
  L : Nat
  M : Nat
  /-- `history_length = subfilter_length - 1` -/
  h : Nat
  /-- `N_skip_input_samples_front` -/
  skip : Nat
  /-- `subfilter_indices` -/
  idx : Nat → List Nat
  dot : Nat → List α → β
  zero : α

/-- Asserts of the constructor, lines 240-254, and no division by zero -/
structure Cfg.Ok {α β : Type} (c : Cfg α β) : Prop where
  pos : 0 < c.M
  perPeriod : ((List.range c.M).map (fun i => (c.idx i).length)).sum = c.L
  skip : c.skip ≤ c.h

/-- while loop of lines 217-220 starting with `k < L` -/
def pushes (L M : Nat) : Nat → Nat → List Nat × Nat
  | 0, k => ([], k)
  | fuel + 1, k => if k < L then
      let r := pushes L M fuel (k + M)
      (k :: r.1, r.2)
    else ([], k)

/-- for loop of lines 214-232; `fuel` bounds the number of passes, the loop variable is `p` -/
def indicesLoop (L M : Nat) : Nat → Nat → Nat → List (List Nat)
  | 0, _, _ => []
  | fuel + 1, p, k => if p < M then
      let r := pushes L M (L + 1) k
      if 2 * L ≤ r.2 then r.1 :: [] :: indicesLoop L M fuel (p + 2) (r.2 % L)
      else r.1 :: indicesLoop L M fuel (p + 1) (r.2 % L)
    else []

/-- `subfilter_indices` for a filter of odd length, lines 140, 206-232 -/
def indices (L M filterLength : Nat) : List (List Nat) := indicesLoop L M M 0 ((filterLength - 1) / 2 % L)

variable {α β : Type}

/-- Output samples for one input sample, lines 418-425; `inp` is the memory from the input sample on -/
def one (c : Cfg α β) (pos : Nat) (inp : List α) : Res (List β) :=
  if c.idx pos = [] then .ok []
  else if inp.length < c.h + 1 then .ub
  else .ok ((c.idx pos).map (fun f => c.dot f (inp.take (c.h + 1))))

/-- `resample_LXMX_generic_impl`, lines 412-434: `n` input samples; returns the output and `input_sample_cnt` -/
def generic (c : Cfg α β) : Nat → Nat → List α → Res (List β × Nat)
  | pos, 0, _ => .ok ([], pos)
  | pos, n + 1, inp => do
    let y ← one c pos inp
    let r ← generic c ((pos + 1) % c.M) n inp.tail
    .ok (y ++ r.1, r.2)

/-- One pass of an unrolled loop; an entry `(k, f)` of the table is a dot product of subfilter `f` at offset `k` -/
def unrolledPass (c : Cfg α β) (inp : List α) : List (Nat × Nat) → Res (List β)
  | [] => .ok []
  | e :: l => if (inp.drop e.1).length < c.h + 1 then .ub else do
    let r ← unrolledPass c inp l
    .ok (c.dot e.2 ((inp.drop e.1).take (c.h + 1)) :: r)

/-- `full_M` passes -/
def unrolledLoop (c : Cfg α β) (tbl : List (Nat × Nat)) : Nat → List α → Res (List β)
  | 0, _ => .ok []
  | n + 1, inp => do
    let y ← unrolledPass c inp tbl
    let r ← unrolledLoop c tbl n (inp.drop c.M)
    .ok (y ++ r)

/-- MANUALLY_UNROLLED_BACK, lines 45-50 -/
def unrolledBack (c : Cfg α β) (n cntIn pos : Nat) (inp : List α) (y : List β) : Res (List β × Nat) :=
  if cntIn < n then do
    let r ← generic c pos (n - cntIn) (inp.drop cntIn)
    .ok (y ++ r.1, r.2)
  else .ok (y, pos)

/-- An unrolled implementation, lines 38-50, 436-562 -/
def unrolled (c : Cfg α β) (tbl : List (Nat × Nat)) (pos n : Nat) (inp : List α) : Res (List β × Nat) := do
  let cntIn := min n (c.M - pos)
  let r1 ← generic c pos cntIn inp
  let full := (n - cntIn) / c.M
  let y2 ← unrolledLoop c tbl full (inp.drop cntIn)
  unrolledBack c n (cntIn + full * c.M) r1.2 inp (r1.1 ++ y2)

/-- lines 441-452, `resample_L10M9_223_23_impl` -/
def tblL10M9_223 : List (Nat × Nat) := [(0, 1), (1, 0), (1, 9), (2, 8), (3, 7), (4, 6), (5, 5), (6, 4), (7, 3), (8, 2)]
/-- lines 468-478, `resample_L9M10_223_25_impl` -/
def tblL9M10_223 : List (Nat × Nat) := [(0, 3), (1, 4), (2, 5), (3, 6), (4, 7), (5, 8), (7, 0), (8, 1), (9, 2)]
/-- lines 495-505, `resample_L10M9_45_5_impl` -/
def tblL10M9_45 : List (Nat × Nat) := [(0, 2), (1, 1), (2, 0), (2, 9), (3, 8), (4, 7), (5, 6), (6, 5), (7, 4), (8, 3)]
/-- lines 521-531, `resample_L9M10_45_5_impl` -/
def tblL9M10_45 : List (Nat × Nat) := [(0, 4), (1, 5), (2, 6), (3, 7), (4, 8), (6, 0), (7, 1), (8, 2), (9, 3)]

structure State (α : Type) where
  /-- first half of `history_vec` -/
  hist : List α
  /-- `N_skip_input_samples_current` -/
  skip : Nat
  /-- `input_sample_cnt` -/
  pos : Nat
  deriving DecidableEq

/-- `reset`, lines 359-367 -/
def reset (c : Cfg α β) : State α := ⟨List.replicate c.h c.zero, c.skip, 0⟩

/-- `resample_LXMX`, lines 375-410; `impl` is the dispatched implementation -/
def resample (c : Cfg α β) (impl : Nat → Nat → List α → Res (List β × Nat)) (s : State α) (b : List α) :
    Res (List β × State α) := do
  Res.assert (decide (c.h ≤ b.length))
  let r1 ← impl s.pos (c.h - s.skip) ((s.hist ++ b.take c.h).drop s.skip)
  let r2 ← impl r1.2 (b.length - c.h) b
  .ok (r1.1 ++ r2.1, ⟨b.drop (b.length - c.h), 0, r2.2⟩)

/-- Several calls of `resample` -/
def resampleAll (c : Cfg α β) (impl : Nat → Nat → List α → Res (List β × Nat)) :
    State α → List (List α) → Res (List β × State α)
  | s, [] => .ok ([], s)
  | s, b :: bs => do
    let r1 ← resample c impl s b
    let r2 ← resampleAll c impl r1.2 bs
    .ok (r1.1 ++ r2.1, r2.2)

/-- `resample_final_samples`, lines 336-357 -/
def final (c : Cfg α β) (s : State α) : Res (List β × Nat) :=
  generic c s.pos c.h (s.hist ++ List.replicate c.h c.zero)

/-- `get_N_samples_after_resampling`, lines 311-328 -/
def nofSamplesAfter (c : Cfg α β) (n : Nat) : Nat :=
  let eff := c.h + n - c.skip
  let mult := eff / c.M
  let res := eff - mult * c.M
  mult * c.L + ((List.range res).map (fun i => (c.idx i).length)).sum

end Verif.Phy.Resampler
