import Verif.Props.C24_Tbs

set_option linter.unusedSimpArgs false

/-!
# Explicit form of `get_packet_sizes`
-/

namespace Verif.Sp3

/-- Number of OFDM symbols with DRS per stream -/
def drsSymb (n e : Nat) : Nat := if e ≤ 2 then n / 5 else if n % 10 = 0 then n / 10 else n / 10 + 1

/-- Cells for PCC and PDC per unit of bandwidth -/
def cells (u n e : Nat) : Nat := 56 * nDfSymb u n - 14 * e * drsSymb n e

theorem nDrsSymb_eq {u n e : Nat} (h : drsImpossible u n e = false) (h5 : n % 5 = 0) : nDrsSymb u n e = .ok (drsSymb n e) := by
  unfold nDrsSymb drsSymb
  rw [h]
  simp only [Bool.not_false, Res.assert_true, Res.ok_bind]
  by_cases he : e ≤ 2
  · simp [he]
  · by_cases h10 : n % 10 = 0
    · simp [he, h10]
    · simp [he, h10, h5]

theorem nDrsSubc_eq {u n e b : Nat} (h : drsImpossible u n e = false) (h5 : n % 5 = 0) :
    nDrsSubc u n e (nbOcc b) = .ok (b * (14 * e * drsSymb n e)) := by
  unfold nDrsSubc nbOcc
  rw [nDrsSymb_eq h h5, Res.ok_bind]
  congr 1
  rw [show e * (b * 56) = 4 * (b * (14 * e)) by ring, Nat.mul_div_cancel_left _ (by decide)]
  ring

theorem nPdcSubc_eq {u n e b : Nat} (h : drsImpossible u n e = false) (h5 : n % 5 = 0) :
    nPdcSubc n u e (nbOcc b) = .ok (b * cells u n e - 98) := by
  unfold nPdcSubc cells
  rw [nDrsSubc_eq h h5, Res.ok_bind]
  dsimp only
  rw [show nDfSymb u n * nbOcc b = b * (56 * nDfSymb u n) by unfold nbOcc; ring, Nat.mul_sub]
  generalize b * (56 * nDfSymb u n) = x
  generalize b * (14 * e * drsSymb n e) = y
  split
  · congr 1; omega
  · rfl

theorem valid_cases {q : PsDef} (h : q.valid = true) : (q.u = 1 ∨ q.u = 2 ∨ q.u = 4 ∨ q.u = 8) ∧
    (q.b = 1 ∨ q.b = 2 ∨ q.b = 4 ∨ q.b = 8 ∨ q.b = 16 ∨ q.b = 12) ∧ q.plt ≤ 1 ∧ (0 < q.pl ∧ q.pl ≤ 16) ∧ q.tm ≤ 11 ∧ q.mcs ≤ 11 ∧
    (q.z = 2048 ∨ q.z = 6144) := by
  simp only [PsDef.valid, uOk, bOk, Bool.and_eq_true, Bool.or_eq_true, beq_iff_eq, decide_eq_true_eq] at h
  obtain ⟨⟨⟨⟨⟨⟨h1, h2⟩, h3⟩, h4⟩, h5⟩, h6⟩, h7⟩ := h
  exact ⟨by tauto, by tauto, h3, h4, h5, h6, h7⟩

theorem nPacketSymb_eq {u plt pl : Nat} (hu : u = 1 ∨ u = 2 ∨ u = 4 ∨ u = 8) (_ : plt ≤ 1) :
    nPacketSymb u plt pl = if plt = 0 then 5 * pl else 10 * (u * pl) := by
  unfold nPacketSymb
  rcases hu with rfl | rfl | rfl | rfl <;> split <;> omega

theorem nPacketSymb_range {q : PsDef} (h : q.valid = true) : 5 ≤ nPacketSymb q.u q.plt q.pl ∧ nPacketSymb q.u q.plt q.pl ≤ 1280 ∧
    nPacketSymb q.u q.plt q.pl % 5 = 0 := by
  obtain ⟨hu, -, hplt, hpl, -⟩ := valid_cases h
  rw [nPacketSymb_eq hu hplt]
  rcases hu with h | h | h | h <;> rw [h] <;> split <;> omega

theorem tm_cases {i : Nat} (h : i ≤ 11) : ∃ t, getTm i = .ok t ∧ 1 ≤ t.nSs ∧ t.nSs ≤ 8 ∧ t.nSs ≤ t.nEffTx ∧ t.nEffTx ≤ t.nTx ∧
    (t.nEffTx = 1 ∨ t.nEffTx = 2 ∨ t.nEffTx = 4 ∨ t.nEffTx = 8) := by
  have : ∀ i ≤ 11, ∃ t ∈ [(⟨1, 1, false, 1, 1⟩ : Tm), ⟨2, 1, false, 2, 2⟩, ⟨2, 2, false, 2, 2⟩, ⟨1, 1, true, 1, 2⟩, ⟨2, 2, true, 2, 2⟩, ⟨4, 1, false, 4, 4⟩,
      ⟨4, 4, false, 4, 4⟩, ⟨1, 1, true, 1, 4⟩, ⟨2, 2, true, 2, 4⟩, ⟨4, 4, true, 4, 4⟩, ⟨8, 1, false, 8, 8⟩, ⟨8, 8, false, 8, 8⟩], getTm i = .ok t ∧ 1 ≤ t.nSs ∧ t.nSs ≤ 8 ∧ t.nSs ≤ t.nEffTx ∧ t.nEffTx ≤ t.nTx ∧
    (t.nEffTx = 1 ∨ t.nEffTx = 2 ∨ t.nEffTx = 4 ∨ t.nEffTx = 8) := by decide +kernel
  obtain ⟨t, -, h⟩ := this i h
  exact ⟨t, h⟩

theorem mcs_cases {i : Nat} (h : i ≤ 11) : ∃ m, getMcs i = .ok m ∧ 1 ≤ m.nBps ∧ m.nBps ≤ 10 ∧ m.rNum ≤ 5 ∧ m.rNum ≤ m.rDen ∧ 2 ≤ m.rDen := by
  match i, h with
  | 0, _ | 1, _ | 2, _ | 3, _ | 4, _ | 5, _ | 6, _ | 7, _ | 8, _ | 9, _ | 10, _ | 11, _ => exact ⟨_, rfl, by decide⟩

theorem samples_sum {u n : Nat} (b : Nat) (hu : u = 1 ∨ u = 2 ∨ u = 4 ∨ u = 8) (hn : 5 ≤ n) :
    nSamplesStf u b + nSamplesDf u b n + nSamplesGi u b = 72 * b * n ∧ 64 * b ≤ nSamplesStf u b := by
  unfold nSamplesStf nSamplesDf nSamplesGi nDfSymb
  obtain ⟨m, rfl⟩ : ∃ m, n = m + 5 := ⟨n - 5, by omega⟩
  rcases hu with rfl | rfl | rfl | rfl <;> simp <;> (refine ⟨?_, by omega⟩)
  all_goals
    simp only [Nat.mul_add]
    generalize 72 * b * m = x
    omega

/-- Number of code blocks of a transport block -/
def blocks (n z : Nat) : Nat := if used n ≤ z then 1 else ceilDiv (used n - 24) z

/-- The result of `get_packet_sizes` -/
def sizesOf (q : PsDef) (tm : Tm) (mcs : Mcs) : PacketSizes :=
  let n := nPacketSymb q.u q.plt q.pl
  let nPdc := q.b * cells q.u n tm.nEffTx - 98
  let bits := nPdcBits tm.nSs nPdc mcs.nBps mcs.rNum mcs.rDen
  { psdef := q, mcs := mcs, tm := tm, nPacketSymb := n, nPdcSubc := nPdc, G := tm.nSs * nPdc * mcs.nBps, nPdcBits := bits
    nTbBits := tbs bits q.z, nTbByte := ceilDiv (tbs bits q.z) 8, C := blocks bits q.z, nDfSymb := nDfSymb q.u n
    nDrsSubc := q.b * (14 * tm.nEffTx * drsSymb n tm.nEffTx), nSamplesOfdm := 72 * q.b, nSamplesStf := nSamplesStf q.u q.b
    nSamplesStfCp := nSamplesStf q.u q.b - 64 * q.b, nSamplesDf := nSamplesDf q.u q.b n, nSamplesGi := nSamplesGi q.u q.b
    nSamplesPacketNoGi := nSamplesStf q.u q.b + nSamplesDf q.u q.b n, nSamplesPacket := 72 * q.b * n }

/-- Condition for the packet to exist -/
def Exists (q : PsDef) (tm : Tm) (mcs : Mcs) : Prop :=
  let r := sizesOf q tm mcs
  drsImpossible q.u r.nPacketSymb tm.nEffTx = false ∧ r.nPdcSubc ≠ 0 ∧ r.nTbBits ≠ 0 ∧ r.nTbBits ≠ 8

theorem bits_range {q : PsDef} (h : q.valid = true) {tm : Tm} (htm : getTm q.tm = .ok tm) {mcs : Mcs} (hm : getMcs q.mcs = .ok mcs) :
    (sizesOf q tm mcs).nPdcSubc ≤ 1146880 ∧ (sizesOf q tm mcs).G ≤ 91750400 ∧ (sizesOf q tm mcs).G * mcs.rNum ≤ 458752000 ∧
      (sizesOf q tm mcs).nPdcBits < 2147483648 := by
  obtain ⟨hu, hb, -, -, ht, hmc, -⟩ := valid_cases h
  obtain ⟨t, e1, -, e2, -⟩ := tm_cases ht
  obtain ⟨m, f1, -, f2, f3, f4, f5⟩ := mcs_cases hmc
  rw [htm] at e1; cases e1
  rw [hm] at f1; cases f1
  obtain ⟨-, hn, -⟩ := nPacketSymb_range h
  have hb16 : q.b ≤ 16 := by omega
  have h1 : (sizesOf q tm mcs).nPdcSubc ≤ 1146880 := by
    show q.b * cells q.u (nPacketSymb q.u q.plt q.pl) tm.nEffTx - 98 ≤ _
    have hc : cells q.u (nPacketSymb q.u q.plt q.pl) tm.nEffTx ≤ 56 * 1280 := by
      unfold cells
      have : nDfSymb q.u (nPacketSymb q.u q.plt q.pl) ≤ 1280 := by
        unfold nDfSymb; split <;> [skip; split] <;> omega
      omega
    have := Nat.mul_le_mul hb16 hc
    omega
  have h2 : (sizesOf q tm mcs).G ≤ 91750400 := by
    show tm.nSs * (sizesOf q tm mcs).nPdcSubc * mcs.nBps ≤ _
    exact le_trans (Nat.mul_le_mul (Nat.mul_le_mul e2 h1) f2) (by decide)
  have h3 : (sizesOf q tm mcs).G * mcs.rNum ≤ 458752000 := le_trans (Nat.mul_le_mul h2 f3) (by decide)
  refine ⟨h1, h2, h3, ?_⟩
  show (sizesOf q tm mcs).G * mcs.rNum / mcs.rDen < _
  exact lt_of_le_of_lt (Nat.div_le_self _ _) (by omega)

theorem blocks_seg {n z : Nat} (hn : n < 2147483648) (hz : z = 2048 ∨ z = 6144) (ht : tbs n z ≠ 0) {s : Seg}
    (h : cbsegm (tbs n z) z = .ok (some s)) : s.C = blocks n z := by
  unfold blocks
  by_cases h24 : used n ≤ 24
  · exact absurd (by rw [tbs_eq, if_pos h24]) ht
  split
  · rename_i h'
    rw [cbsegm_single hn hz (by omega) h'] at h
    cases h; rfl
  · obtain ⟨s', h1, h2, -⟩ := cbsegm_multi hn hz (by omega : z < used n)
    rw [h] at h1
    cases h1
    exact h2

theorem getPacketSizes_eq {q : PsDef} (h : q.valid = true) {tm : Tm} (htm : getTm q.tm = .ok tm) {mcs : Mcs} (hm : getMcs q.mcs = .ok mcs)
    [Decidable (Exists q tm mcs)] : getPacketSizes q = .ok (if Exists q tm mcs then some (sizesOf q tm mcs) else none) := by
  obtain ⟨hu, hb, -, -, ht, hmc, hz⟩ := valid_cases h
  obtain ⟨hn5, hn1280, hmod⟩ := nPacketSymb_range h
  obtain ⟨-, -, -, hbits⟩ := bits_range h htm hm
  have e1 : (sizesOf q tm mcs).nPacketSymb = nPacketSymb q.u q.plt q.pl := rfl
  unfold getPacketSizes
  rw [h, Res.assert_true, Res.ok_bind]
  dsimp only
  rw [decide_eq_true ⟨hn5, hn1280, hmod⟩, Res.assert_true, Res.ok_bind, htm, Res.ok_bind]
  by_cases hd : drsImpossible q.u (nPacketSymb q.u q.plt q.pl) tm.nEffTx = true
  · rw [if_pos hd, if_neg]
    intro hx
    have := hx.1
    rw [e1, hd] at this
    cases this
  have hd' : drsImpossible q.u (nPacketSymb q.u q.plt q.pl) tm.nEffTx = false := by simpa using hd
  rw [if_neg hd, nPdcSubc_eq hd' hmod, Res.ok_bind]
  have e2 : q.b * cells q.u (nPacketSymb q.u q.plt q.pl) tm.nEffTx - 98 = (sizesOf q tm mcs).nPdcSubc := rfl
  rw [e2]
  by_cases hp : (sizesOf q tm mcs).nPdcSubc = 0
  · rw [if_pos hp, if_neg]
    exact fun hx => hx.2.1 hp
  rw [if_neg hp, hm, Res.ok_bind]
  have e3 : nTbBits tm.nSs (sizesOf q tm mcs).nPdcSubc mcs.nBps mcs.rNum mcs.rDen q.z = (sizesOf q tm mcs).nTbBits := rfl
  rw [e3]
  by_cases ht0 : (sizesOf q tm mcs).nTbBits = 0
  · rw [if_pos ht0, if_neg]
    exact fun hx => hx.2.2.1 ht0
  rw [if_neg ht0]
  have e4 : (sizesOf q tm mcs).nTbBits = tbs (sizesOf q tm mcs).nPdcBits q.z := rfl
  obtain ⟨s, hs, -, -, -, -, -, -, -, hF⟩ := C24_segmentation hbits hz (e4 ▸ ht0)
  have hC := blocks_seg hbits hz (e4 ▸ ht0) hs
  rw [e4, hs, Res.ok_bind]
  dsimp only
  rw [nDrsSubc_eq hd' hmod, Res.ok_bind]
  unfold packetSizesFinish
  by_cases h8 : tbs (sizesOf q tm mcs).nPdcBits q.z = 8
  · rw [if_pos h8] at hF
    rw [if_pos (by omega), if_neg]
    exact fun hx => hx.2.2.2 (e4 ▸ h8)
  · rw [if_neg h8] at hF
    obtain ⟨s1, s2⟩ := samples_sum q.b hu hn5
    rw [if_neg (by omega), if_pos (show Exists q tm mcs from ⟨hd', hp, ht0, by rw [e4]; exact h8⟩)]
    dsimp only
    rw [decide_eq_true (by unfold nSamplesStfCp; omega), Res.assert_true, Res.ok_bind, decide_eq_true s1, Res.assert_true, Res.ok_bind,
      s1, hC]
    rfl

end Verif.Sp3
