import Verif.Model.ChunkSearch
import Verif.Spec.ChunkSearch
import Verif.Lemma.Movsum
import Mathlib.Algebra.Order.BigOperators.Group.Finset
import Mathlib.Algebra.Order.BigOperators.Group.List
import Mathlib.Tactic.Linarith
import Mathlib.Tactic.Positivity
import Mathlib.Tactic.FieldSimp

/-!
# Search for the peak: the smoothed metric of one antenna -/

namespace Verif.Phy.ChunkSearch
open Finset Verif.Phy.Movsum Verif.Spec.ChunkSearch

/-- Sequence pushed into the smoother, preceded by the zeros it contains at the beginning -/
def seq (m : Nat → ℚ) (r0 L : Nat) (p : Nat) : ℚ := if p < L then 0 else m (r0 + (p - L))

theorem window_init (m : Nat → ℚ) (r0 L : Nat) (hL : 0 < L) : Window (make L : Movsum ℚ) (seq m r0 L) 0 := by
  refine ⟨hL, by simp [make], by simp [make], ?_⟩
  intro p hp
  simp only [make] at hp ⊢
  rw [Nat.zero_add, Nat.mod_eq_of_lt hp, seq, if_pos hp]
  simp [List.getD_eq_getElem?_getD, hp]

theorem smooth_eq (m : Nat → ℚ) (r0 L k : Nat) :
    smooth m r0 L (r0 + k) = (∑ p ∈ range L, seq m r0 L (k + 1 + p)) / (L : ℚ) := by
  unfold smooth
  congr 1
  rw [← sum_range_reflect]
  apply sum_congr rfl
  intro p hp
  have hp' := mem_range.1 hp
  unfold seq
  by_cases h : L - 1 - p ≤ k
  · rw [if_pos (by omega), if_neg (by omega)]
    congr 1; omega
  · rw [if_neg (by omega), if_pos (by omega)]

theorem seq_nonneg (m : Nat → ℚ) (hm : ∀ i, 0 ≤ m i) (r0 L p : Nat) : 0 ≤ seq m r0 L p := by
  unfold seq; split
  · exact le_refl _
  · exact hm _

theorem smooth_nonneg (m : Nat → ℚ) (hm : ∀ i, 0 ≤ m i) (r0 L k : Nat) : 0 ≤ smooth m r0 L (r0 + k) := by
  rw [smooth_eq]
  apply div_nonneg
  · exact sum_nonneg fun p _ => seq_nonneg m hm r0 L _
  · exact_mod_cast Nat.zero_le L

/-- While the smoother is being filled the average does not decrease. -/
theorem smooth_mono (m : Nat → ℚ) (hm : ∀ i, 0 ≤ m i) (r0 L k : Nat) (hk : k + 1 < L) :
    smooth m r0 L (r0 + k) ≤ smooth m r0 L (r0 + (k + 1)) := by
  rw [smooth_eq, smooth_eq]
  apply div_le_div_of_nonneg_right
  · rw [shift_sum _ (k + 1)]
    have h0 : seq m r0 L (k + 1) = 0 := by unfold seq; rw [if_pos hk]
    have h1 := seq_nonneg m hm r0 L (k + 1 + L)
    rw [h0]; linarith
  · exact_mod_cast Nat.zero_le L

/-- State of the search for the peak after `k` samples -/
structure PInv (z : Dim) (m : Nat → ℚ) (r0 k : Nat) (p : Peak) : Prop where
  win : Window p.sm (seq m r0 z.smoothLen) k
  len : p.sm.length = z.smoothLen
  sum : p.sm.sum = ∑ q ∈ range z.smoothLen, seq m r0 z.smoothLen (k + q)
  zero : k = 0 → p.metric = 0
  best : 0 < k → ∃ j, LastMax m r0 z.smoothLen (r0 + k) j ∧ p.metric = smooth m r0 z.smoothLen j ∧
    p.index + z.offset = j

theorem smoothLen_pos (z : Dim) : 0 < z.smoothLen := by unfold Dim.smoothLen; omega

theorem pinv_init (z : Dim) (m : Nat → ℚ) (r0 : Nat) : PInv z m r0 0 (Peak.init z) := by
  refine ⟨window_init m r0 _ (smoothLen_pos z), rfl, ?_, fun _ => rfl, fun h => absurd h (by omega)⟩
  show (0 : ℚ) = _
  symm
  apply sum_eq_zero
  intro q hq
  have := mem_range.1 hq
  unfold seq; rw [if_pos (by omega)]

theorem pinv_push (z : Dim) (m : Nat → ℚ) (hm : ∀ i, 0 ≤ m i) (r0 k : Nat) (hoff : z.offset ≤ r0) (p : Peak)
    (h : PInv z m r0 k p) : ∃ p', p.push z (r0 + k) (m (r0 + k)) = .ok p' ∧ PInv z m r0 (k + 1) p' := by
  have hptr : p.sm.ptr < p.sm.length := by rw [h.win.ptr]; exact Nat.mod_lt _ h.win.pos
  have hs : m (r0 + k) = seq m r0 z.smoothLen (k + p.sm.length) := by
    unfold seq; rw [h.len, if_neg (by omega)]; congr 1; omega
  have hold : p.sm.reg.getD p.sm.ptr 0 = seq m r0 z.smoothLen k := by
    have := h.win.reg 0 h.win.pos
    rw [Nat.add_zero, ← h.win.ptr] at this
    exact this
  have hsum : p.sm.sum - p.sm.reg.getD p.sm.ptr 0 + m (r0 + k) =
      ∑ q ∈ range z.smoothLen, seq m r0 z.smoothLen (k + 1 + q) := by
    rw [hold, h.sum, hs, h.len, shift_sum]
  have hmean : (p.sm.sum - p.sm.reg.getD p.sm.ptr 0 + m (r0 + k)) / (p.sm.length : ℚ) =
      smooth m r0 z.smoothLen (r0 + k) := by
    rw [hsum, smooth_eq, h.len]
  unfold Peak.push popPush
  rw [if_pos hptr]
  simp only [Res.ok_bind, sub, if_pos (show z.offset ≤ r0 + k by omega), Res.pure_eq]
  refine ⟨_, rfl, ?_⟩
  have hw : Window { p.sm with
      sum := p.sm.sum - p.sm.reg.getD p.sm.ptr 0 + m (r0 + k), reg := p.sm.reg.set p.sm.ptr (m (r0 + k)),
      ptr := (p.sm.ptr + 1) % p.sm.length } (seq m r0 z.smoothLen) (k + 1) := by
    have := h.win.step (p.sm.sum - p.sm.reg.getD p.sm.ptr 0 + m (r0 + k))
    rw [← hs] at this
    exact this
  rw [hmean]
  split
  · rename_i hge
    refine ⟨hw, h.len, hsum, fun hk => absurd hk (by omega), fun _ => ⟨r0 + k, ⟨by omega, by omega, ?_, ?_⟩, rfl, ?_⟩⟩
    · intro i hi1 hi2
      rcases Nat.lt_or_ge i (r0 + k) with hlt | hge'
      · obtain ⟨j, hj, he, _⟩ := h.best (by omega)
        exact le_trans (hj.max i hi1 hlt) (he ▸ hge)
      · rw [show i = r0 + k by omega]
    · intro i hi1 hi2; omega
    · show r0 + k - z.offset + z.offset = r0 + k; omega
  · rename_i hlt
    rw [ge_iff_le, not_le] at hlt
    have hk : 0 < k := by
      rcases Nat.eq_zero_or_pos k with h0 | h0
      · have := smooth_nonneg m hm r0 z.smoothLen k
        rw [h.zero h0] at hlt
        linarith
      · exact h0
    obtain ⟨j, hj, he, hi⟩ := h.best hk
    refine ⟨hw, h.len, hsum, fun hk => absurd hk (by omega), fun _ => ⟨j, ⟨hj.lo, by have := hj.hi; omega, ?_, ?_⟩, he, hi⟩⟩
    · intro i hi1 hi2
      rcases Nat.lt_or_ge i (r0 + k) with h1 | h1
      · exact hj.max i hi1 h1
      · rw [show i = r0 + k by omega, ← he]; exact le_of_lt hlt
    · intro i hi1 hi2
      rcases Nat.lt_or_ge i (r0 + k) with h1 | h1
      · exact hj.last i hi1 h1
      · rw [show i = r0 + k by omega, ← he]; exact hlt

theorem pinv_block (z : Dim) (m : Nat → ℚ) (hm : ∀ i, 0 ≤ m i) (r0 : Nat) (hoff : z.offset ≤ r0) (n : Nat) :
    ∀ (k : Nat) (p : Peak), PInv z m r0 k p →
      ∃ p', (List.range' (r0 + k) n).foldlM (fun p pos => p.push z pos (m pos)) p = .ok p' ∧ PInv z m r0 (k + n) p' := by
  induction n with
  | zero => intro k p h; exact ⟨p, rfl, h⟩
  | succ n ih =>
    intro k p h
    obtain ⟨p1, e1, h1⟩ := pinv_push z m hm r0 k hoff p h
    obtain ⟨p2, e2, h2⟩ := ih (k + 1) p1 h1
    refine ⟨p2, ?_, by rw [show k + (n + 1) = k + 1 + n by omega]; exact h2⟩
    rw [List.range'_succ, List.foldlM_cons, e1, Res.ok_bind]
    exact e2

/-- The peaks of all antennas after `k` samples -/
def AInv (z : Dim) (e : Env) (r0 k a : Nat) (ps : List Peak) : Prop :=
  ∀ i p, ps[i]? = some p → PInv z (e.metric (a + i)) r0 k p

theorem ainv_blocks (z : Dim) (e : Env) (hm : ∀ a i, 0 ≤ e.metric a i) (r0 : Nat) (hoff : z.offset ≤ r0) (k n : Nat) :
    ∀ (ps : List Peak) (a : Nat), AInv z e r0 k a ps →
      ∃ ps', blocks z e (r0 + k) (r0 + k + n) a ps = .ok ps' ∧ ps'.length = ps.length ∧ AInv z e r0 (k + n) a ps' := by
  intro ps
  induction ps with
  | nil => intro a h; exact ⟨[], rfl, rfl, fun i p hp => by simp at hp⟩
  | cons q ps ih =>
    intro a h
    have hq : PInv z (e.metric a) r0 k q := by have := h 0 q (by simp); simpa using this
    obtain ⟨q', eq', hq'⟩ := pinv_block z (e.metric a) (hm a) r0 hoff n k q hq
    obtain ⟨ps', eps, hl, hps⟩ := ih (a + 1) (fun i p hp => by
      have := h (i + 1) p (by simpa using hp)
      rw [show a + 1 + i = a + (i + 1) by omega]; exact this)
    refine ⟨q' :: ps', ?_, by simp [hl], ?_⟩
    · unfold blocks Peak.block
      rw [show r0 + k + n - (r0 + k) = n by omega, eq', Res.ok_bind, eps, Res.ok_bind, Res.pure_eq]
    · intro i p hp
      cases i with
      | zero => simp at hp; subst hp; simpa using hq'
      | succ i =>
        have := hps i p (by simpa using hp)
        rw [show a + (i + 1) = a + 1 + i by omega]; exact this

/-- Dimensions as configured, or any with a sufficiently long STF -/
structure Sane (z : Dim) : Prop where
  bos : 1 ≤ z.bos
  nPat : 2 ≤ z.nPat
  smooth : z.left + z.right ≤ 16

theorem Sane.facts {z : Dim} (h : Sane z) : 0 < z.step ∧ 4 * z.step = z.pattern ∧ z.pattern = 16 * z.bos ∧
    2 * z.pattern ≤ z.stf ∧ z.offset ≤ z.stf ∧ z.smoothLen ≤ z.stf ∧ z.left * z.bos + z.offset ≤ z.pattern := by
  have h1 := h.bos
  have h2 : z.left * z.bos + z.right * z.bos ≤ 16 * z.bos := by
    rw [← Nat.add_mul]; exact Nat.mul_le_mul_right _ h.smooth
  have h3 : 2 * (16 * z.bos) ≤ z.nPat * (16 * z.bos) := Nat.mul_le_mul_right _ h.nPat
  unfold Dim.step Dim.stf Dim.offset Dim.smoothLen Dim.offset Dim.pattern
  generalize z.left * z.bos = a at *
  generalize z.right * z.bos = b at *
  generalize z.nPat * (16 * z.bos) = c at *
  omega

theorem request_ok (z : Dim) (e : Env) (calls w q : Nat) (hq : q ≤ z.bufLen) (hw : w ≤ z.bufLen) :
    ∃ w', request z e calls w q = .ok w' ∧ w ≤ w' ∧ q ≤ w' ∧ w' ≤ z.bufLen := by
  unfold request
  rw [if_pos hq]
  exact ⟨_, rfl, by omega, by omega, by omega⟩

theorem peakLoop_ok (z : Dim) (hz : Sane z) (e : Env) (hm : ∀ a i, 0 ≤ e.metric a i) (r0 : Nat) (h0 : z.stf ≤ r0)
    (hb : r0 + z.stf ≤ z.bufLen) (fuel : Nat) :
    ∀ (calls w k : Nat) (ps : List Peak), k < z.stf → z.stf - k < fuel → w ≤ z.bufLen → AInv z e r0 k 0 ps →
      ∃ w' calls' ps', peakLoop z e (r0 + z.stf) fuel calls w (r0 + k) ps = .ok (w', calls', ps') ∧
        w ≤ w' ∧ r0 + z.stf ≤ w' ∧ w' ≤ z.bufLen ∧ ps'.length = ps.length ∧ AInv z e r0 z.stf 0 ps' := by
  obtain ⟨f1, f2, f3, f4, f5, f6, f7⟩ := hz.facts
  induction fuel with
  | zero => intro calls w k ps _ h; omega
  | succ fuel ih =>
    intro calls w k ps hk hf hw hps
    obtain ⟨w1, e1, h11, h12, h13⟩ := request_ok z e calls w (min (r0 + k + z.pattern * 1) (r0 + z.stf)) (by omega) hw
    obtain ⟨n, hn⟩ : ∃ n, min (r0 + z.stf) w1 = r0 + k + n := ⟨min (r0 + z.stf) w1 - (r0 + k), by omega⟩
    obtain ⟨ps1, e2, hl, hps1⟩ := ainv_blocks z e hm r0 (by omega) k n ps 0 hps
    unfold peakLoop
    rw [e1]
    simp only [Res.ok_bind, hn]
    have hs1 : sub (r0 + k + n) (r0 + k) = .ok n := by
      unfold sub; rw [if_pos (by omega)]; congr 1; omega
    have hs2 : sub (r0 + k) z.pattern = .ok (r0 + k - z.pattern) := by unfold sub; rw [if_pos (by omega)]
    have hr1 : readRange w1 (r0 + k - z.pattern) (r0 + k - z.pattern + n) = .ok () := by unfold readRange; rw [if_pos (by omega)]
    have hr2 : readRange w1 (r0 + k) (r0 + k + n) = .ok () := by unfold readRange; rw [if_pos (by omega)]
    have ha : decide (n ≤ z.peakLen) = true := by unfold Dim.peakLen; exact decide_eq_true (by omega)
    rw [hs1, hs2]
    simp only [Res.ok_bind, ha, Res.assert_true, hr1, hr2, e2]
    split
    · rename_i hend
      refine ⟨w1, calls + 1, ps1, rfl, h11, by omega, h13, hl, ?_⟩
      rw [show z.stf = k + n by omega]; exact hps1
    · rename_i hne
      obtain ⟨w2, c2, ps2, e3, h21, h22, h23, h24, h25⟩ := ih (calls + 1) w1 (k + n) ps1 (by omega) (by omega) h13 hps1
      refine ⟨w2, c2, ps2, ?_, by omega, h22, h23, by omega, h25⟩
      rw [← e3, Nat.add_assoc]

theorem ainv_init (z : Dim) (e : Env) (r0 a n : Nat) : AInv z e r0 0 a (List.replicate n (Peak.init z)) := by
  intro i p hp
  rw [List.getElem?_replicate] at hp
  split at hp
  · cases hp; exact pinv_init z _ r0
  · cases hp

/-- Weighted average of bounded values -/
theorem average_bounds (l : List Peak) (lo hi : Nat) (hb : ∀ p ∈ l, 0 ≤ p.metric ∧ lo ≤ p.index ∧ p.index ≤ hi)
    (hpos : l.all (fun p => decide (p.metric ≤ 0)) = false) :
    lo ≤ ⌊(l.map fun p => p.metric * (p.index : ℚ)).sum / (l.map fun p => p.metric).sum + 1 / 2⌋₊ ∧
      ⌊(l.map fun p => p.metric * (p.index : ℚ)).sum / (l.map fun p => p.metric).sum + 1 / 2⌋₊ ≤ hi := by
  have hs : ∀ l : List Peak, (∀ p ∈ l, 0 ≤ p.metric ∧ lo ≤ p.index ∧ p.index ≤ hi) →
      0 ≤ (l.map fun p => p.metric).sum ∧
      (lo : ℚ) * (l.map fun p => p.metric).sum ≤ (l.map fun p => p.metric * (p.index : ℚ)).sum ∧
      (l.map fun p => p.metric * (p.index : ℚ)).sum ≤ (hi : ℚ) * (l.map fun p => p.metric).sum ∧
      (l.all (fun p => decide (p.metric ≤ 0)) = false → 0 < (l.map fun p => p.metric).sum) := by
    intro l
    induction l with
    | nil => intro _; simp
    | cons p l ih =>
      intro h
      obtain ⟨i1, i2, i3, i4⟩ := ih fun q hq => h q (List.mem_cons_of_mem _ hq)
      obtain ⟨hp1, hp2, hp3⟩ := h p List.mem_cons_self
      have hlo : (lo : ℚ) ≤ (p.index : ℚ) := by exact_mod_cast hp2
      have hhi : (p.index : ℚ) ≤ (hi : ℚ) := by exact_mod_cast hp3
      simp only [List.map_cons, List.sum_cons, List.all_cons, Bool.and_eq_false_iff, decide_eq_false_iff_not, not_le]
      refine ⟨by linarith, by nlinarith, by nlinarith, ?_⟩
      rintro (h1 | h1)
      · linarith
      · have := i4 h1; linarith
  obtain ⟨h1, h2, h3, h4⟩ := hs l hb
  have hp := h4 hpos
  constructor
  · apply Nat.le_floor
    have : (lo : ℚ) ≤ (l.map fun p => p.metric * (p.index : ℚ)).sum / (l.map fun p => p.metric).sum := by
      rw [le_div_iff₀ hp]; exact h2
    linarith
  · have h5 : (l.map fun p => p.metric * (p.index : ℚ)).sum / (l.map fun p => p.metric).sum ≤ (hi : ℚ) := by
      rw [div_le_iff₀ hp]; exact h3
    apply Nat.le_of_lt_succ
    rw [Nat.floor_lt']
    · push_cast; linarith
    · omega

/-- The peak is not found before the smoother has been filled. -/
theorem index_lower (z : Dim) (m : Nat → ℚ) (hm : ∀ i, 0 ≤ m i) (r0 k : Nat) (hk : z.smoothLen ≤ k) (j : Nat)
    (h : LastMax m r0 z.smoothLen (r0 + k) j) : r0 + z.left * z.bos + z.offset ≤ j := by
  by_contra hc
  have hlo := h.lo
  have hL : z.smoothLen = z.left * z.bos + 1 + z.offset := rfl
  obtain ⟨i, rfl⟩ : ∃ i, j = r0 + i := ⟨j - r0, by omega⟩
  have h1 := smooth_mono m hm r0 z.smoothLen i (by omega)
  have h2 := h.last (r0 + (i + 1)) (by omega) (by omega)
  linarith

end Verif.Phy.ChunkSearch
