import Verif.Lemma.ChScan
import Verif.Props.C22_BufferRx
import Mathlib.Tactic.NormNum

/-!
# C76: A channel measurement covers the samples it is asked for -/

namespace Verif.ChScan

variable {R : Type} [Field R]

/-- The scan returns one RMS per partial scan, over exactly the samples of the window: `nPartial` times `len` samples, the last of time `endT`,
of the antennas asked for as far as they exist, wherever the ring buffer wraps. The second result is the sum of the partial ones. `x` are the
samples by time, of which the scan must find those of the window. `len` is at least 2: with a single sample the code would take the whole ring. -/
theorem C76_scan (c : Ring) (h32 : c.L < 2 ^ 32) (sqrt : R → R) (p1 p2 : Int) (v : Nat → Nat → Nat → Cx R) (x : Nat → Nat → Cx R)
    (q : Req) (len t0 : Nat) (h2 : 2 ≤ len) (hp : 0 < q.nPartial) (ha : 0 < q.nAnt) (hw : q.nPartial * len ≤ c.L)
    (ht : q.endT = (t0 : Int) + q.nPartial * len - 1) (h1 : q.endT ≤ p1) (h3 : p2 ≤ t0 + c.L)
    (find : ∀ n < q.nPartial, ∀ a < min q.nAnt c.nAnt, ∀ t, t0 + n * len ≤ t → t < t0 + n * len + len → v n a (t % c.L) = x a t) :
    scan c sqrt p1 p2 v q len = .ok ⟨(List.range q.nPartial).map fun n => rms sqrt x (min q.nAnt c.nAnt) (t0 + n * len) len,
      ∑ n ∈ Finset.range q.nPartial, rms sqrt x (min q.nAnt c.nAnt) (t0 + n * len) len⟩ := by
  have hlen : len ≤ q.nPartial * len := Nat.le_mul_of_pos_left _ hp
  have hw' : ((q.nPartial * len : Nat) : Int) ≤ c.L := by exact_mod_cast hw
  push_cast at hw'
  have hlen' : (len : Int) ≤ (q.nPartial : Int) * len := by exact_mod_cast hlen
  unfold scan
  have st : q.endT - ((q.nPartial : Int) * (len : Int) - 1) = (t0 : Int) := by omega
  simp only [st]
  rw [decide_eq_true h1, Res.assert_true, Res.ok_bind, decide_eq_true hp, Res.assert_true, Res.ok_bind, decide_eq_true ha, Res.assert_true,
    Res.ok_bind, decide_eq_true (by omega), Res.assert_true, Res.ok_bind, decide_eq_true (by omega), Res.assert_true, Res.ok_bind,
    decide_eq_true (by omega), Res.assert_true, Res.ok_bind, decide_eq_true (by omega), Res.assert_true, Res.ok_bind,
    scanLoop_ok h32 sqrt v x _ len h2 (by omega)]
  · simp
  · intro j hj a ha' i hi
    rw [Nat.zero_add]
    exact find j hj a ha' _ (by omega) (by omega)

/-- The scan ends the program unless the window ends by now, is not empty, fits the ring and begins at most the length of the ring ago -/
theorem C76_aborts (c : Ring) (sqrt : R → R) (p1 p2 : Int) (v : Nat → Nat → Nat → Cx R) (q : Req) (len : Int)
    (h : ¬ (q.endT ≤ p1 ∧ 0 < q.nPartial ∧ 0 < q.nAnt ∧ 0 < len ∧ (q.nPartial : Int) * len ≤ c.L ∧ p2 - c.L ≤ q.endT - (q.nPartial * len - 1))) :
    scan c sqrt p1 p2 v q len = .abort := by
  unfold scan
  by_cases a1 : q.endT ≤ p1
  swap
  · simp [a1]
  by_cases a2 : 0 < q.nPartial
  swap
  · simp [a1, a2]
  by_cases a3 : 0 < q.nAnt
  swap
  · simp [a1, a2, a3]
  by_cases a4 : 0 < len
  swap
  · simp [a1, a2, a3, a4]
  rw [decide_eq_true a1, Res.assert_true, Res.ok_bind, decide_eq_true a2, Res.assert_true, Res.ok_bind, decide_eq_true a3, Res.assert_true,
    Res.ok_bind, decide_eq_true a4, Res.assert_true, Res.ok_bind]
  dsimp only
  by_cases a5 : q.endT - ((q.nPartial : Int) * len - 1) ≤ q.endT
  swap
  · rw [decide_eq_false a5, Res.assert_false, Res.abort_bind]
  rw [decide_eq_true a5, Res.assert_true, Res.ok_bind]
  by_cases a6 : q.endT - (q.endT - ((q.nPartial : Int) * len - 1)) < c.L
  swap
  · rw [decide_eq_false a6, Res.assert_false, Res.abort_bind]
  rw [decide_eq_true a6, Res.assert_true, Res.ok_bind]
  have a7 : ¬ p2 - (c.L : Int) ≤ q.endT - ((q.nPartial : Int) * len - 1) := fun a7 => h ⟨a1, a2, a3, a4, by omega, a7⟩
  rw [decide_eq_false a7, Res.assert_false, Res.abort_bind]

open Radio.BufferRx in
/-- With the RX ring buffer of C22: each sample is read in some state of the ring of its antenna, while the hardware goes on writing. If, when it
is read, its time has been published and lies at least one block within the ring, the RMS values are those of the samples delivered by the hardware.
The assertions of the scan alone do not ensure this: `C76_last_sample_finding`. -/
theorem C76_received_partial (c : Ring) (h32 : c.L < 2 ^ 32) (sqrt : R → R) (p1 p2 : Int) (par : Par) (ok : par.Ok) (hL : par.L = c.L)
    (z : Cx R) (s : Nat → Nat → Nat → Sys (Cx R)) (reach : ∀ n a i, Radio.BufferRx.Reach par z (s n a i)) (x : Nat → Nat → Cx R)
    (q : Req) (len t0 : Nat) (h2 : 2 ≤ len) (hp : 0 < q.nPartial) (ha : 0 < q.nAnt) (hw : q.nPartial * len ≤ c.L)
    (ht : q.endT = (t0 : Int) + q.nPartial * len - 1) (h1 : q.endT ≤ p1) (h3 : p2 ≤ t0 + c.L)
    (hist : ∀ n < q.nPartial, ∀ a < min q.nAnt c.nAnt, ∀ t, t0 + n * len ≤ t → t < t0 + n * len + len →
      let w := s n a (t % c.L)
      w.hist t = x a t ∧ w.base ≤ t ∧ t < w.passed ∧ w.back = false ∧ w.passed + par.K ≤ t + par.L) :
    scan c sqrt p1 p2 (fun n a i => (s n a i).mem i) q len =
      .ok ⟨(List.range q.nPartial).map fun n => rms sqrt x (min q.nAnt c.nAnt) (t0 + n * len) len,
        ∑ n ∈ Finset.range q.nPartial, rms sqrt x (min q.nAnt c.nAnt) (t0 + n * len) len⟩ := by
  refine C76_scan c h32 sqrt p1 p2 _ x q len t0 h2 hp ha hw ht h1 h3 ?_
  intro n hn a ha' t k1 k2
  obtain ⟨e1, e2, e3, e4, e5⟩ := hist n hn a ha' t k1 k2
  have le := C22_published_not_ahead ok (reach n a (t % c.L)) e4
  have := C22_window ok (reach n a (t % c.L)) e2 e3 (by omega) e5
  rw [hL] at this
  rw [this, e1]

section
variable [LinearOrder R]

/-- The scanning firmware measures each frequency `nMeas` times, one after the other and from the beginning again, and reports for each the smallest
and the largest of exactly the values measured on it; measurements are one period apart, the first one on a new frequency is the spacing later. -/
theorem C76_firmware (c : FwCfg R) (t0 d : Int) (hf : 0 < c.nFreq) (hm : 0 < c.nMeas) (l : List R) :
    let s := Fw.run c (Fw.start c t0 d) l
    let k := l.length / c.nMeas
    s.freq = k % c.nFreq ∧
    s.reports.reverse = (List.range k).map (fun j =>
      (j % c.nFreq, lowest c.top ((l.drop (j * c.nMeas)).take c.nMeas), highest c.bot ((l.drop (j * c.nMeas)).take c.nMeas))) ∧
    s.next = t0 + d + (l.length - k) * c.period + k * c.spacing := by
  suffices H : ∀ l : List R, let s := Fw.run c (Fw.start c t0 d) l
      let k := l.length / c.nMeas
      s.freq = k % c.nFreq ∧
      s.reports.reverse = (List.range k).map (fun j =>
        (j % c.nFreq, lowest c.top ((l.drop (j * c.nMeas)).take c.nMeas), highest c.bot ((l.drop (j * c.nMeas)).take c.nMeas))) ∧
      s.next = t0 + d + (l.length - k) * c.period + k * c.spacing ∧ s.cnt = l.length % c.nMeas ∧
      s.lo = lowest c.top (l.drop (k * c.nMeas)) ∧ s.hi = highest c.bot (l.drop (k * c.nMeas)) by
    obtain ⟨a, b, e, -⟩ := H l
    exact ⟨a, b, e⟩
  clear l
  intro l
  induction l using List.reverseRecOn with
  | nil => simp [Fw.run, Fw.start, lowest, highest]
  | append_singleton l x ih =>
    simp only at ih ⊢
    obtain ⟨i1, i2, i3, i4, i5, i6⟩ := ih
    have e : Fw.run c (Fw.start c t0 d) (l ++ [x]) = Fw.work c (Fw.run c (Fw.start c t0 d) l) x := by simp [Fw.run]
    rw [e]
    generalize Fw.run c (Fw.start c t0 d) l = s at *
    have dm := Nat.div_add_mod l.length c.nMeas
    have ml := Nat.mod_lt l.length hm
    have cm : c.nMeas * (l.length / c.nMeas) = l.length / c.nMeas * c.nMeas := Nat.mul_comm _ _
    have lt : (l ++ [x]).length = l.length + 1 := by simp
    rw [lt]
    have blk : ∀ j, j < l.length / c.nMeas → ((l ++ [x]).drop (j * c.nMeas)).take c.nMeas = (l.drop (j * c.nMeas)).take c.nMeas := by
      intro j hj
      have : (j + 1) * c.nMeas ≤ l.length / c.nMeas * c.nMeas := Nat.mul_le_mul_right _ hj
      rw [Nat.add_mul] at this
      rw [List.drop_append_of_le_length (by omega), List.take_append_of_le_length (by simp; omega)]
    unfold Fw.work
    simp only [i4]
    by_cases full : l.length % c.nMeas + 1 = c.nMeas
    · have dv : (l.length + 1) / c.nMeas = l.length / c.nMeas + 1 := by
        rw [Nat.div_eq_iff hm]
        rw [Nat.add_mul]
        omega
      have md : (l.length + 1) % c.nMeas = 0 := by
        have := Nat.div_add_mod (l.length + 1) c.nMeas
        rw [dv, Nat.mul_add] at this
        omega
      have last : ((l ++ [x]).drop (l.length / c.nMeas * c.nMeas)).take c.nMeas = l.drop (l.length / c.nMeas * c.nMeas) ++ [x] := by
        rw [List.drop_append_of_le_length (by omega), List.take_of_length_le (by simp; omega)]
      have rest : (l ++ [x]).drop ((l.length / c.nMeas + 1) * c.nMeas) = [] := by
        apply List.drop_of_length_le
        rw [Nat.add_mul, lt]
        omega
      rw [if_pos full, dv, md]
      refine ⟨?_, ?_, ?_, rfl, ?_, ?_⟩
      · simp only [i1]
        have := Nat.mod_lt (l.length / c.nMeas) hf
        split
        · next h =>
          have := Nat.div_add_mod (l.length / c.nMeas) c.nFreq
          have : l.length / c.nMeas + 1 = c.nFreq * (l.length / c.nMeas / c.nFreq + 1) := by rw [Nat.mul_add]; omega
          rw [this, Nat.mul_mod_right]
        · next h =>
          rw [Nat.add_mod, Nat.mod_eq_of_lt (show 1 < c.nFreq by omega)]
          exact (Nat.mod_eq_of_lt (by omega)).symm
      · simp only [List.reverse_cons, i2]
        rw [List.range_succ, List.map_append, List.map_cons, List.map_nil, last]
        congr 1
        · apply List.map_congr_left
          intro j hj
          rw [blk j (List.mem_range.1 hj)]
        · simp [i1, i5, i6, lowest, highest, List.foldl_append]
      · simp only [i3]
        push_cast
        ring
      · rw [rest]; rfl
      · rw [rest]; rfl
    · have dv : (l.length + 1) / c.nMeas = l.length / c.nMeas := by
        rw [Nat.div_eq_iff hm]
        omega
      have md : (l.length + 1) % c.nMeas = l.length % c.nMeas + 1 := by
        have := Nat.div_add_mod (l.length + 1) c.nMeas
        rw [dv] at this
        omega
      have rest : (l ++ [x]).drop (l.length / c.nMeas * c.nMeas) = l.drop (l.length / c.nMeas * c.nMeas) ++ [x] :=
        List.drop_append_of_le_length (by omega)
      rw [if_neg full, dv, md]
      refine ⟨i1, ?_, ?_, rfl, ?_, ?_⟩
      · rw [i2]
        apply List.map_congr_left
        intro j hj
        rw [blk j (List.mem_range.1 hj)]
      · simp only [i3]
        push_cast
        ring
      · rw [rest]; simp [i5, lowest, List.foldl_append]
      · rw [rest]; simp [i6, highest, List.foldl_append]

end

/-! ## Findings and examples -/

/-- Stands for the square root: the results below are squares of RMS values -/
def root (x : ℚ) : ℚ := x

def exRing : Ring := ⟨16, 2, 2⟩

/-- Samples of amplitude 1 on both antennas, the fourth one of amplitude 2 -/
def exX : Nat → Nat → Cx ℚ := fun _ t => if t = 19 then ⟨0, 2⟩ else ⟨1, 0⟩

/-- Two partial scans of four samples each, the first of which wraps (times 14 to 21) -/
theorem C76_example : scan exRing root 22 22 (fun _ _ i => if i = 3 then ⟨0, 2⟩ else ⟨1, 0⟩) ⟨21, 2, 5⟩ 4 = .ok ⟨[1, 7 / 4], 11 / 4⟩ := by
  have h := C76_scan exRing (by decide) root 22 22 (fun _ _ i => if i = 3 then ⟨0, 2⟩ else ⟨1, 0⟩) exX ⟨21, 2, 5⟩ 4 14 (by decide) (by decide)
    (by decide) (by decide) (by decide) (by decide) (by decide) (by
      intro n hn a _ t h1 h2
      have hn' : n < 2 := hn
      have e : t % exRing.L = 3 ↔ t = 19 := by simp only [exRing]; omega
      simp only [exX, e])
  rw [show ((4 : Nat) : Int) = 4 from rfl] at h
  rw [h]
  simp [rms, windowEnergy, exX, exRing, Finset.sum_range_succ, List.range_succ, Cx.sq, root]
  norm_num

/-- `get_rms_avg()` is not the average of the partial results but their sum: it grows with the number of partial scans. Five partial scans of samples
of amplitude 1 have an "average" of 5; the scanning firmware uses five. -/
theorem C76_average_finding : ∃ r : Result ℚ, scan (⟨64, 8, 1⟩ : Ring) root 20 20 (fun _ _ _ => ⟨1, 0⟩) ⟨19, 5, 1⟩ 4 = .ok r ∧
    r.rms = [1, 1, 1, 1, 1] ∧ r.avg = 5 := by
  have h := C76_scan (⟨64, 8, 1⟩ : Ring) (by decide) root 20 20 (fun _ _ _ => ⟨1, 0⟩) (fun _ _ => ⟨1, 0⟩) ⟨19, 5, 1⟩ 4 0 (by decide) (by decide)
    (by decide) (by decide) (by decide) (by decide) (by decide) (by intros; rfl)
  rw [show ((4 : Nat) : Int) = 4 from rfl] at h
  refine ⟨_, h, ?_, ?_⟩ <;>
  · simp [rms, windowEnergy, Finset.sum_range_succ, List.range_succ, Cx.sq, root]

open Radio.BufferRx in
/-- The scan accepts a window that ends at the present time, as the scanning firmware requests it, although the sample of that time has not been
received: in this state of the ring buffer the samples 5 and 6 of times 0 and 1 have arrived; a measurement of times 1 and 2 takes the 0 that the
memory holds for time 2, where the hardware delivers a 7 afterwards. -/
theorem C76_last_sample_finding : ∃ s s' : Sys (Cx ℚ), Radio.BufferRx.Reach par 0 s ∧ Radio.BufferRx.Reach par 0 s' ∧ s.passed = 2 ∧
    s.hist 1 = ⟨6, 0⟩ ∧ s'.hist 1 = ⟨6, 0⟩ ∧ s'.hist 2 = ⟨7, 0⟩ ∧
    (∃ r, scan (⟨16, 2, 1⟩ : Ring) root s.passed s.passed (fun _ _ i => s.mem i) ⟨s.passed, 1, 1⟩ 2 = .ok r ∧ r.rms = [18]) ∧
    rms root (fun _ => s'.hist) 1 1 2 = 85 / 2 := by
  have h := Radio.BufferRx.Reach.init (α := Cx ℚ) (c := par) (z := 0)
  have h := Radio.BufferRx.Reach.step h (.write _ 0 ⟨5, 0⟩ rfl (by decide))
  have h := Radio.BufferRx.Reach.step h (.write _ 1 ⟨6, 0⟩ rfl (by decide))
  have h := Radio.BufferRx.Reach.step h (.call _ 2 0 rfl (by decide))
  have h := Radio.BufferRx.Reach.step h (.advance _ 2 0 rfl)
  have h := Radio.BufferRx.Reach.step h (.publish _ rfl (by decide))
  have g := Radio.BufferRx.Reach.step h (.notify _ rfl (by decide))
  have g := Radio.BufferRx.Reach.step g (.write _ 0 ⟨7, 0⟩ rfl (by decide))
  refine ⟨_, _, h, g, rfl, rfl, rfl, rfl, ?_, ?_⟩
  · have k := C76_scan (⟨16, 2, 1⟩ : Ring) (by decide) root 2 2 (fun _ _ i => if i = 0 then ⟨5, 0⟩ else if i = 1 then ⟨6, 0⟩ else ⟨0, 0⟩)
      (fun _ t => if t = 1 then ⟨6, 0⟩ else ⟨0, 0⟩) ⟨2, 1, 1⟩ 2 1 (by decide) (by decide) (by decide) (by decide) (by decide) (by decide) (by decide) (by
        intro n hn a _ t h1 h2
        have hn' : n < 1 := hn
        obtain rfl : n = 0 := by omega
        have : t = 1 ∨ t = 2 := by omega
        rcases this with rfl | rfl <;> rfl)
    refine ⟨⟨[18], 18⟩, ?_, rfl⟩
    have e : (fun (_ _ i : Nat) => (if i = 0 then (⟨5, 0⟩ : Cx ℚ) else if i = 1 then ⟨6, 0⟩ else ⟨0, 0⟩)) =
        fun _ _ i => Function.update (Function.update (fun _ => (0 : Cx ℚ)) 0 ⟨5, 0⟩) 1 ⟨6, 0⟩ i := by
      funext _ _ i
      by_cases i0 : i = 0
      · subst i0; rfl
      · by_cases i1 : i = 1
        · subst i1; rfl
        · simp [i0, i1]; rfl
    rw [e] at k
    refine Eq.trans k ?_
    simp [rms, windowEnergy, Finset.sum_range_succ, List.range_succ, Cx.sq, root]
    norm_num
  · simp [rms, windowEnergy, Finset.sum_range_succ, Cx.sq, root, Function.update, Radio.BufferRx.init]
    norm_num

/-- Two frequencies, two measurements each: five measurements -/
theorem C76_firmware_example : let s := Fw.run (⟨2, 2, 29, 100, 1000, -1000⟩ : FwCfg ℚ) (Fw.start ⟨2, 2, 29, 100, 1000, -1000⟩ 0 50) [3, 1, 4, 1, 5]
    s.reports.reverse = [(0, 1, 3), (1, 1, 4)] ∧ s.freq = 0 ∧ s.next = 50 + 29 + 100 + 29 + 100 + 29 := by
  decide

end Verif.ChScan
