import Verif.Lemma.PacketSizes2

set_option linter.unusedSimpArgs false

/-!
# C26: Maximum packet sizes bound every packet of the radio device class

Packet-level statements of C24 are here as well.
-/

namespace Verif.Sp3

/-- `get_packet_sizes` never aborts for arguments within the asserted ranges. -/
theorem C24_packet_total {q : PsDef} (h : q.valid = true) : ∃ o, getPacketSizes q = .ok o := by
  obtain ⟨-, -, -, -, ht, hm, -⟩ := valid_cases h
  obtain ⟨t, ht, -⟩ := tm_cases ht
  obtain ⟨m, hm, -⟩ := mcs_cases hm
  classical
  exact ⟨_, getPacketSizes_eq h ht hm⟩

theorem getPacketSizes_some {q : PsDef} {r : PacketSizes} (h : getPacketSizes q = .ok (some r)) : q.valid = true ∧
    ∃ tm mcs, getTm q.tm = .ok tm ∧ getMcs q.mcs = .ok mcs ∧ Exists q tm mcs ∧ r = sizesOf q tm mcs := by
  have hv : q.valid = true := by
    by_contra hv
    unfold getPacketSizes at h
    rw [Bool.not_eq_true _ |>.mp hv] at h
    cases h
  refine ⟨hv, ?_⟩
  obtain ⟨-, -, -, -, ht, hm, -⟩ := valid_cases hv
  obtain ⟨t, ht, -⟩ := tm_cases ht
  obtain ⟨m, hm, -⟩ := mcs_cases hm
  classical
  rw [getPacketSizes_eq hv ht hm] at h
  have h := Res.ok.inj h
  split at h
  · rename_i hx
    exact ⟨t, m, ht, hm, hx, (Option.some.inj h).symm⟩
  · cases h

/-- For every packet configuration that exists: the transport block consists of whole bytes; its code blocks have no filler
bits and together with all checksums need at most the available payload bits; there is exactly one transport block
size for a configuration. -/
theorem C24_packet {q : PsDef} {r : PacketSizes} (h : getPacketSizes q = .ok (some r)) :
    r.nTbByte * 8 = r.nTbBits ∧ 16 ≤ r.nTbBits ∧ Spec.withCrc r.nTbBits r.C ≤ r.nPdcBits ∧
      ∃ s, cbsegm r.nTbBits q.z = .ok (some s) ∧ s.C = r.C ∧ s.F = 0 ∧ s.C1 * s.K1 + s.C2 * s.K2 = Spec.withCrc r.nTbBits r.C := by
  obtain ⟨hv, tm, mcs, ht, hm, ⟨-, -, h0, h8⟩, rfl⟩ := getPacketSizes_some h
  obtain ⟨-, -, -, hb⟩ := bits_range hv ht hm
  obtain ⟨-, -, -, -, -, -, hz⟩ := valid_cases hv
  obtain ⟨s, h1, -, -, -, -, -, h5, h6, h7⟩ := C24_segmentation hb hz h0
  have hC := blocks_seg hb hz h0 h1
  have h7' : s.F = 0 := by rw [h7]; exact if_neg h8
  have hd := tbs_dvd (sizesOf q tm mcs).nPdcBits (z := q.z)
  refine ⟨C24_whole_bytes _ _, ?_, ?_, s, h1, hC, h7', ?_⟩
  · change tbs _ _ ≠ 0 at h0
    change tbs _ _ ≠ 8 at h8
    change 16 ≤ tbs (sizesOf q tm mcs).nPdcBits q.z
    change tbs (sizesOf q tm mcs).nPdcBits q.z ≠ 0 at h0
    change tbs (sizesOf q tm mcs).nPdcBits q.z ≠ 8 at h8
    omega
  · change Spec.withCrc (tbs (sizesOf q tm mcs).nPdcBits q.z) (blocks (sizesOf q tm mcs).nPdcBits q.z) ≤ _
    rw [← hC, h5]
    exact Nat.div_mul_le_self _ _
  · change _ = Spec.withCrc (tbs (sizesOf q tm mcs).nPdcBits q.z) (blocks (sizesOf q tm mcs).nPdcBits q.z)
    rw [← hC, h6, h7', Nat.add_zero]

/-- A packet configuration is refused exactly if its DRS symbols do not fit, if there is no cell left for the PDC, or if the
transport block would have 0 or 8 bits. -/
theorem C24_refused {q : PsDef} (hv : q.valid = true) {tm : Tm} (ht : getTm q.tm = .ok tm) {mcs : Mcs} (hm : getMcs q.mcs = .ok mcs) :
    getPacketSizes q = .ok none ↔ drsImpossible q.u (nPacketSymb q.u q.plt q.pl) tm.nEffTx = true ∨
      nPdcSubc (nPacketSymb q.u q.plt q.pl) q.u tm.nEffTx (nbOcc q.b) = .ok 0 ∨
      ∃ nPdc, nPdcSubc (nPacketSymb q.u q.plt q.pl) q.u tm.nEffTx (nbOcc q.b) = .ok nPdc ∧
        (nTbBits tm.nSs nPdc mcs.nBps mcs.rNum mcs.rDen q.z = 0 ∨ nTbBits tm.nSs nPdc mcs.nBps mcs.rNum mcs.rDen q.z = 8) := by
  classical
  rw [getPacketSizes_eq hv ht hm]
  obtain ⟨-, -, hmod⟩ := nPacketSymb_range hv
  by_cases hd : drsImpossible q.u (nPacketSymb q.u q.plt q.pl) tm.nEffTx = true
  · rw [if_neg (fun hx => by rw [show drsImpossible q.u (nPacketSymb q.u q.plt q.pl) tm.nEffTx = false from hx.1] at hd; cases hd)]
    exact ⟨fun _ => Or.inl hd, fun _ => rfl⟩
  have hd' : drsImpossible q.u (nPacketSymb q.u q.plt q.pl) tm.nEffTx = false := by simpa using hd
  rw [nPdcSubc_eq hd' hmod]
  constructor
  · intro h
    right
    by_contra hx
    rw [not_or] at hx
    obtain ⟨hx1, hx2⟩ := hx
    rw [if_pos] at h
    · cases h
    · refine ⟨hd', fun hp => hx1 (congrArg Res.ok hp), fun h0 => hx2 ⟨_, rfl, Or.inl h0⟩, fun h8 => hx2 ⟨_, rfl, Or.inr h8⟩⟩
  · rintro (h | h | ⟨p, hp, h⟩)
    · exact absurd h hd
    · rw [if_neg]
      exact fun hx => hx.2.1 (Res.ok.inj h)
    · cases hp
      rw [if_neg]
      rintro ⟨-, -, h0, h8⟩
      rcases h with h | h
      · exact h0 h
      · exact h8 h

/-- No product computed for a packet configuration within the asserted ranges exceeds 32 bits. -/
theorem C24_no_overflow {q : PsDef} (h : q.valid = true) {tm : Tm} (htm : getTm q.tm = .ok tm) {mcs : Mcs}
    (hm : getMcs q.mcs = .ok mcs) {p : Nat} (hp : nPdcSubc (nPacketSymb q.u q.plt q.pl) q.u tm.nEffTx (nbOcc q.b) = .ok p) :
    q.pl * (q.u * 10) < 4294967296 ∧ nDfSymb q.u (nPacketSymb q.u q.plt q.pl) * nbOcc q.b < 4294967296 ∧
      getG tm.nSs p mcs.nBps * mcs.rNum < 4294967296 ∧ 72 * q.b * nPacketSymb q.u q.plt q.pl < 4294967296 := by
  obtain ⟨-, -, h3, -⟩ := bits_range h htm hm
  obtain ⟨hu, hb, -, hpl, -⟩ := valid_cases h
  obtain ⟨-, hn, hmod⟩ := nPacketSymb_range h
  have hb16 : q.b ≤ 16 := by omega
  have hu8 : q.u ≤ 8 := by omega
  refine ⟨?_, ?_, ?_, ?_⟩
  · exact lt_of_le_of_lt (Nat.mul_le_mul hpl.2 (Nat.mul_le_mul_right 10 hu8)) (by decide)
  · have : nDfSymb q.u (nPacketSymb q.u q.plt q.pl) ≤ 1280 := by
      unfold nDfSymb; split <;> [skip; split] <;> omega
    exact lt_of_le_of_lt (Nat.mul_le_mul this (Nat.mul_le_mul_right 56 hb16)) (by decide)
  · have hd : drsImpossible q.u (nPacketSymb q.u q.plt q.pl) tm.nEffTx = false := by
      by_contra hd
      unfold nPdcSubc nDrsSubc nDrsSymb at hp
      rw [Bool.not_eq_false _ |>.mp hd] at hp
      cases hp
    rw [nPdcSubc_eq hd hmod] at hp
    cases hp
    change tm.nSs * (sizesOf q tm mcs).nPdcSubc * mcs.nBps * mcs.rNum < _
    exact lt_of_le_of_lt h3 (by decide)
  · exact lt_of_le_of_lt (Nat.mul_le_mul (Nat.mul_le_mul_left 72 hb16) hn) (by decide)

/-! ## C26 -/

theorem stream_pairs {i : Nat} {t : Tm} (h : getTm i = .ok t) {nTx : Nat} (hx : t.nTx ≤ nTx) :
    (t.nEffTx = 1 ∨ t.nEffTx = 2 ∨ t.nEffTx = 4 ∨ t.nEffTx = 8) ∧ (t.nSs = 1 ∨ t.nSs = t.nEffTx) ∧ t.nEffTx ≤ nTx := by
  by_cases hi : i ≤ 11
  · obtain ⟨t', h', a1, a2, a3, a4, a5⟩ := tm_cases hi
    rw [h] at h'; cases h'
    refine ⟨a5, ?_, by omega⟩
    revert h
    match i, hi with
    | 0, _ | 1, _ | 2, _ | 3, _ | 4, _ | 5, _ | 6, _ | 7, _ | 8, _ | 9, _ | 10, _ | 11, _ => intro h; cases h; simp
  · obtain ⟨k, rfl⟩ : ∃ k, i = k + 12 := ⟨i - 12, by omega⟩
    cases h

theorem maxTm {nTx i : Nat} (h : maxTmIndex nTx = .ok i) : (nTx = 1 ∨ nTx = 2 ∨ nTx = 4 ∨ nTx = 8) ∧
    ∃ t, getTm i = .ok t ∧ t.nEffTx = nTx ∧ t.nSs = nTx := by
  unfold maxTmIndex at h
  split at h
  · cases h; exact ⟨by decide, _, rfl, rfl, rfl⟩
  · cases h; exact ⟨by decide, _, rfl, rfl, rfl⟩
  · cases h; exact ⟨by decide, _, rfl, rfl, rfl⟩
  · cases h; exact ⟨by decide, _, rfl, rfl, rfl⟩
  · cases h

/-- Symbols: the packet of type 1 with the largest length and subcarrier spacing has the most symbols, with a margin for the
additional symbols without data of larger spacings. -/
theorem symb_mono {u uM plt p pM : Nat} (hu : u = 1 ∨ u = 2 ∨ u = 4 ∨ u = 8) (hM : uM = 1 ∨ uM = 2 ∨ uM = 4 ∨ uM = 8) (hplt : plt ≤ 1)
    (hp : 0 < p) (huM : u ≤ uM) (hpM : p ≤ pM) :
    nPacketSymb u plt p ≤ nPacketSymb uM 1 pM ∧ (u ≠ uM → nPacketSymb u plt p + 10 ≤ nPacketSymb uM 1 pM) ∧
      nPacketSymb uM 1 pM % 10 = 0 ∧ 10 * uM ≤ nPacketSymb uM 1 pM := by
  rw [nPacketSymb_eq hu hplt, nPacketSymb_eq hM (by omega)]
  rw [if_neg (show ¬ (1 = 0) by decide)]
  rcases hu with rfl | rfl | rfl | rfl <;> rcases hM with rfl | rfl | rfl | rfl <;> split <;> omega

theorem df_cases {u n : Nat} (hu : u = 1 ∨ u = 2 ∨ u = 4 ∨ u = 8) :
    (u = 1 ∧ nDfSymb u n = n - 2) ∨ ((u = 2 ∨ u = 4) ∧ nDfSymb u n = n - 3) ∨ (u = 8 ∧ nDfSymb u n = n - 4) := by
  unfold nDfSymb
  rcases hu with rfl | rfl | rfl | rfl <;> simp

theorem drs_cases {e n : Nat} (he : e = 1 ∨ e = 2 ∨ e = 4 ∨ e = 8) :
    (e = 1 ∧ drsSymb n e = n / 5) ∨ (e = 2 ∧ drsSymb n e = n / 5) ∨
    (e = 4 ∧ (n % 10 = 0 ∧ drsSymb n e = n / 10 ∨ n % 10 ≠ 0 ∧ drsSymb n e = n / 10 + 1)) ∨
    (e = 8 ∧ (n % 10 = 0 ∧ drsSymb n e = n / 10 ∨ n % 10 ≠ 0 ∧ drsSymb n e = n / 10 + 1)) := by
  unfold drsSymb
  rcases he with rfl | rfl | rfl | rfl <;> by_cases h : n % 10 = 0 <;> simp [h]

theorem cells_eq (u n e : Nat) : cells u n e = 56 * nDfSymb u n - 14 * (e * drsSymb n e) := by
  unfold cells; rw [Nat.mul_assoc]

theorem drs_mul {e n : Nat} (he : e = 1 ∨ e = 2 ∨ e = 4 ∨ e = 8) (h5 : n % 5 = 0) :
    (e = 1 ∧ e * drsSymb n e = n / 5) ∨ (e = 2 ∧ e * drsSymb n e = 2 * (n / 5)) ∨
    (e = 4 ∧ e * drsSymb n e = 4 * ((n + 5) / 10)) ∨ (e = 8 ∧ e * drsSymb n e = 8 * ((n + 5) / 10)) := by
  rcases drs_cases (n := n) he with ⟨h1, h2⟩ | ⟨h1, h2⟩ | ⟨h1, h2⟩ | ⟨h1, h2⟩ <;> subst h1
  · left; rw [h2]; omega
  · right; left; rw [h2]; omega
  · right; right; left
    refine ⟨rfl, ?_⟩
    rcases h2 with ⟨h, h2⟩ | ⟨h, h2⟩ <;> rw [h2] <;> omega
  · right; right; right
    refine ⟨rfl, ?_⟩
    rcases h2 with ⟨h, h2⟩ | ⟨h, h2⟩ <;> rw [h2] <;> omega

set_option maxHeartbeats 1000000 in
/-- For the same number of streams, a longer packet has more cells. -/
theorem cells_mono {u uM n nM e : Nat} (hu : u = 1 ∨ u = 2 ∨ u = 4 ∨ u = 8) (hM : uM = 1 ∨ uM = 2 ∨ uM = 4 ∨ uM = 8)
    (he : e = 1 ∨ e = 2 ∨ e = 4 ∨ e = 8) (huM : u ≤ uM) (h1 : n ≤ nM) (h2 : u ≠ uM → n + 10 ≤ nM) (h5 : n % 5 = 0) (h10 : nM % 10 = 0)
    (hn : 5 ≤ n) : cells u n e ≤ cells uM nM e := by
  rw [cells_eq, cells_eq]
  have a := df_cases (n := n) hu
  have b := df_cases (n := nM) hM
  have c := drs_mul (n := n) he h5
  have d := drs_mul (n := nM) he (by omega)
  omega

set_option maxHeartbeats 4000000 in
/-- With all streams, the cells of all streams together outnumber those with fewer streams, even if the 98 cells of the PCC
are subtracted for each stream. -/
theorem cells_streams {u n e ss t : Nat} (hu : u = 1 ∨ u = 2 ∨ u = 4 ∨ u = 8) (he : e = 1 ∨ e = 2 ∨ e = 4 ∨ e = 8) (hs : ss = 1 ∨ ss = e)
    (ht : t = 1 ∨ t = 2 ∨ t = 4 ∨ t = 8) (het : e ≤ t) (h10 : n % 10 = 0) (hn : 10 * u ≤ n) (hi : drsImpossible u n t = false) :
    (ss ≤ t ∧ e = t) ∨ ss * cells u n e + 98 * t ≤ t * cells u n t := by
  by_cases heq : e = t
  · left; omega
  right
  rw [cells_eq, cells_eq]
  have a := df_cases (n := n) hu
  have c := drs_mul (n := n) he (by omega)
  have d := drs_mul (n := n) ht (by omega)
  simp only [drsImpossible, Bool.or_eq_false_iff, decide_eq_false_iff_not] at hi
  generalize nDfSymb u n = df at *
  generalize e * drsSymb n e = x at *
  generalize t * drsSymb n t = y at *
  rcases ht with rfl | rfl | rfl | rfl <;> rcases he with rfl | rfl | rfl | rfl <;> rcases hs with rfl | rfl <;> omega

/-- The number of subcarriers of all streams -/
theorem subc_bound {b bM u uM n nM e ss t : Nat} (hb : b ≤ bM) (hb1 : 1 ≤ b) (hu : u = 1 ∨ u = 2 ∨ u = 4 ∨ u = 8)
    (hM : uM = 1 ∨ uM = 2 ∨ uM = 4 ∨ uM = 8) (he : e = 1 ∨ e = 2 ∨ e = 4 ∨ e = 8) (hs : ss = 1 ∨ ss = e)
    (ht : t = 1 ∨ t = 2 ∨ t = 4 ∨ t = 8) (het : e ≤ t) (huM : u ≤ uM) (h1 : n ≤ nM) (h2 : u ≠ uM → n + 10 ≤ nM) (h5 : n % 5 = 0)
    (h10 : nM % 10 = 0) (hn : 5 ≤ n) (hnM : 10 * uM ≤ nM) (hi : drsImpossible uM nM t = false) :
    ss * (b * cells u n e - 98) ≤ t * (bM * cells uM nM t - 98) := by
  have c1 := cells_mono hu hM he huM h1 h2 h5 h10 hn
  have c2 := cells_streams hM he hs ht het h10 hnM hi
  rcases c2 with ⟨a, rfl⟩ | c2
  · exact Nat.mul_le_mul a (Nat.sub_le_sub_right (Nat.mul_le_mul hb c1) _)
  · generalize cells u n e = c at *
    generalize cells uM nM e = cM at *
    generalize cells uM nM t = cT at *
    calc ss * (b * c - 98) ≤ ss * (bM * cM) := Nat.mul_le_mul_left _ (le_trans (Nat.sub_le _ _) (Nat.mul_le_mul hb c1))
      _ ≤ t * (bM * cT - 98) := by
        have h3 : bM * (ss * cM + 98 * t) ≤ bM * (t * cT) := Nat.mul_le_mul_left _ c2
        have h4 : 98 * t ≤ bM * (98 * t) := Nat.le_mul_of_pos_left _ (by omega)
        have h5 : ss * (bM * cM) = bM * (ss * cM) := by ring
        have h6 : t * (bM * cT) = bM * (t * cT) := by ring
        rw [Nat.mul_sub, h5, h6, Nat.mul_comm t 98]
        rw [Nat.mul_add] at h3
        omega

theorem blocks_mono {n m z : Nat} (hz : z = 2048 ∨ z = 6144) (h : n ≤ m) : blocks n z ≤ blocks m z := by
  have hm := used_mono h
  have h1 := used_cases n
  have h2 := used_cases m
  unfold blocks ceilDiv
  rcases hz with rfl | rfl <;> (split <;> split <;> omega)

/-- Bits per symbol of an MCS -/
def bps : Nat → Nat
  | 0 => 1 | 1 | 2 => 2 | 3 | 4 => 4 | 5 | 6 | 7 => 6 | 8 | 9 => 8 | _ => 10

theorem bps_eq {i : Nat} {m : Mcs} (hm : getMcs i = .ok m) : i ≤ 11 ∧ m.nBps = bps i := by
  revert hm
  match i with
  | 0 | 1 | 2 | 3 | 4 | 5 | 6 | 7 | 8 | 9 | 10 | 11 => intro h; cases h; decide
  | _ + 12 => intro h; cases h

theorem mcs_bps {i j : Nat} {m m' : Mcs} (hm : getMcs i = .ok m) (hm' : getMcs j = .ok m') (h : i ≤ j) : m.nBps ≤ m'.nBps := by
  have key : ∀ j ≤ 11, ∀ i ≤ j, bps i ≤ bps j := by decide
  rw [(bps_eq hm).2, (bps_eq hm').2]
  exact key j (bps_eq hm').1 i h

theorem max_some {r : Rdc} {q : PacketSizes} (h : maximumPacketSizes r = .ok q) :
    ∃ i, maxTmIndex r.nTxMin = .ok i ∧ getPacketSizes (r.maxDef i) = .ok (some q) := by
  unfold maximumPacketSizes at h
  rw [Res.bind_eq_ok] at h
  obtain ⟨i, hi, h⟩ := h
  rw [Res.bind_eq_ok] at h
  obtain ⟨o, ho, h⟩ := h
  cases o with
  | none => cases h
  | some q' =>
    dsimp only at h
    rw [Res.bind_eq_ok] at h
    obtain ⟨-, -, h⟩ := h
    cases h
    exact ⟨i, hi, ho⟩

theorem stf_mono {u uM b bM : Nat} (hu : u = 1 ∨ u = 2 ∨ u = 4 ∨ u = 8) (hM : uM = 1 ∨ uM = 2 ∨ uM = 4 ∨ uM = 8) (h : u ≤ uM) (hb : b ≤ bM) :
    nSamplesStf u b ≤ nSamplesStf uM bM ∧ nSamplesStf u b - 64 * b ≤ nSamplesStf uM bM - 64 * bM ∧ nSamplesGi u b ≤ nSamplesGi uM bM := by
  unfold nSamplesStf nSamplesGi
  rcases hu with rfl | rfl | rfl | rfl <;> rcases hM with rfl | rfl | rfl | rfl <;> simp at h ⊢ <;> omega

/-- Every packet allowed by a radio device class has at most as many symbols, coded bits, payload bits, transport block
bits and bytes, code blocks, DRS cells and samples as the maximum packet sizes computed for that class. -/
theorem C26_maximum_bounds {r : Rdc} {q : PacketSizes} (h : maximumPacketSizes r = .ok q) {d : PsDef} {t : Tm} (ha : Spec.Allowed r d t)
    {m : PacketSizes} (hm : getPacketSizes d = .ok (some m)) :
    m.nPacketSymb ≤ q.nPacketSymb ∧ m.tm.nSs * m.nPdcSubc ≤ q.tm.nSs * q.nPdcSubc ∧ m.G ≤ q.G ∧ m.nPdcBits ≤ q.nPdcBits ∧
      m.nTbBits ≤ q.nTbBits ∧ m.nTbByte ≤ q.nTbByte ∧ m.C ≤ q.C ∧ m.nDfSymb ≤ q.nDfSymb ∧ m.nDrsSubc ≤ q.nDrsSubc ∧
      m.nSamplesOfdm ≤ q.nSamplesOfdm ∧ m.nSamplesStf ≤ q.nSamplesStf ∧ m.nSamplesStfCp ≤ q.nSamplesStfCp ∧
      m.nSamplesDf ≤ q.nSamplesDf ∧ m.nSamplesGi ≤ q.nSamplesGi ∧ m.nSamplesPacketNoGi ≤ q.nSamplesPacketNoGi ∧
      m.nSamplesPacket ≤ q.nSamplesPacket := by
  obtain ⟨i, hi, hq⟩ := max_some h
  obtain ⟨hnTx, tM, htM, hE, hS⟩ := maxTm hi
  obtain ⟨hv, t', mc, ht', hmc, -, rfl⟩ := getPacketSizes_some hm
  obtain ⟨hvM, tM', mcM, htM', hmcM, hexM, rfl⟩ := getPacketSizes_some hq
  have e0 : tM' = tM := Res.ok.inj (htM'.symm.trans htM)
  have e1 : t' = t := Res.ok.inj (ht'.symm.trans ha.tm)
  subst e0 e1
  obtain ⟨hu, hb, hplt, hpl, -, -, hz⟩ := valid_cases hv
  obtain ⟨hu', -⟩ := valid_cases hvM
  have hu' : r.uMin = 1 ∨ r.uMin = 2 ∨ r.uMin = 4 ∨ r.uMin = 8 := hu'
  obtain ⟨p1, p2, p3⟩ := stream_pairs ha.tm ha.nTx
  obtain ⟨s1, s2, s3, s4⟩ := symb_mono hu hu' hplt hpl.1 ha.u ha.pl
  obtain ⟨r1, -, r3⟩ := nPacketSymb_range hv
  have hI : drsImpossible r.uMin (nPacketSymb r.uMin 1 r.plMin) tM'.nEffTx = false := hexM.1
  rw [hE] at hI
  have key := subc_bound ha.b (by omega) hu hu' p1 p2 hnTx p3 ha.u s1 s2 r3 s3 r1 s4 hI
  have hSub : t'.nSs * (sizesOf d t' mc).nPdcSubc ≤ tM'.nSs * (sizesOf (r.maxDef i) tM' mcM).nPdcSubc := by
    show t'.nSs * (d.b * cells d.u (nPacketSymb d.u d.plt d.pl) t'.nEffTx - 98) ≤
      tM'.nSs * (r.bMin * cells r.uMin (nPacketSymb r.uMin 1 r.plMin) tM'.nEffTx - 98)
    rw [hE, hS]
    exact key
  have hmcs := mcs_bps hmc hmcM ha.mcs
  have hG : (sizesOf d t' mc).G ≤ (sizesOf (r.maxDef i) tM' mcM).G := Nat.mul_le_mul hSub hmcs
  have hj : r.mcsMin ≤ 11 := (valid_cases hvM).2.2.2.2.2.1
  have hbits : (sizesOf d t' mc).nPdcBits ≤ (sizesOf (r.maxDef i) tM' mcM).nPdcBits := by
    show nPdcBits _ _ _ _ _ ≤ nPdcBits _ _ _ _ _
    rw [mcs_bits hmc, mcs_bits hmcM]
    exact Nat.div_le_div_right (Nat.mul_le_mul hSub (eff12_mono ha.mcs hj))
  have hz' : r.zMin = 2048 ∨ r.zMin = 6144 := ha.z ▸ hz
  have htb : (sizesOf d t' mc).nTbBits ≤ (sizesOf (r.maxDef i) tM' mcM).nTbBits := by
    show tbs (sizesOf d t' mc).nPdcBits d.z ≤ tbs (sizesOf (r.maxDef i) tM' mcM).nPdcBits r.zMin
    rw [ha.z]
    exact C25_monotone_bits hz' hbits
  have hDf : nDfSymb d.u (nPacketSymb d.u d.plt d.pl) ≤ nDfSymb r.uMin (nPacketSymb r.uMin 1 r.plMin) := by
    have a := df_cases (n := nPacketSymb d.u d.plt d.pl) hu
    have b := df_cases (n := nPacketSymb r.uMin 1 r.plMin) hu'
    omega
  obtain ⟨t1, t2, t3⟩ := stf_mono hu hu' ha.u ha.b
  have hdfs : nSamplesDf d.u d.b (nPacketSymb d.u d.plt d.pl) ≤ nSamplesDf r.uMin r.bMin (nPacketSymb r.uMin 1 r.plMin) :=
    Nat.mul_le_mul (Nat.mul_le_mul_left _ ha.b) hDf
  refine ⟨s1, hSub, hG, hbits, htb, ?_, ?_, hDf, ?_, Nat.mul_le_mul_left _ ha.b, t1, t2, hdfs, t3, Nat.add_le_add t1 hdfs,
    Nat.mul_le_mul (Nat.mul_le_mul_left _ ha.b) s1⟩
  · exact Nat.div_le_div_right (Nat.sub_le_sub_right (Nat.add_le_add_right htb 8) 1)
  · show blocks _ d.z ≤ blocks _ r.zMin
    rw [ha.z]
    exact blocks_mono hz' hbits
  · show d.b * (14 * t'.nEffTx * drsSymb _ t'.nEffTx) ≤
      r.bMin * (14 * tM'.nEffTx * drsSymb (nPacketSymb r.uMin 1 r.plMin) tM'.nEffTx)
    refine Nat.mul_le_mul ha.b ?_
    rw [hE, Nat.mul_assoc, Nat.mul_assoc]
    have c := drs_mul (n := nPacketSymb d.u d.plt d.pl) p1 r3
    have d' := drs_mul (n := nPacketSymb r.uMin 1 r.plMin) hnTx (by omega)
    omega

/-- The number of PDC subcarriers of one stream is not bounded by that of the maximum packet sizes: a packet with one
stream needs fewer DRS cells. (No allocation depends on it.) -/
theorem C26_pdc_subc_negation : ∃ r q d t m, maximumPacketSizes r = .ok q ∧ Spec.Allowed r d t ∧ getPacketSizes d = .ok (some m) ∧
    q.nPdcSubc < m.nPdcSubc := by
  refine ⟨⟨1, 1, 2, 4, 2048, 2⟩, ⟨⟨1, 1, 1, 2, 4, 4, 2048⟩, ⟨4, 3, 4⟩, ⟨2, 2, true, 2, 2⟩, 20, 798, 6384, 4788, 4640, 580, 3, 18, 112, 72, 112, 48, 1296, 32, 1408, 1440⟩,
    ⟨1, 1, 1, 2, 0, 4, 2048⟩, ⟨1, 1, false, 1, 1⟩,
    ⟨⟨1, 1, 1, 2, 0, 4, 2048⟩, ⟨4, 3, 4⟩, ⟨1, 1, false, 1, 1⟩, 20, 854, 3416, 2562, 2488, 311, 2, 18, 56, 72, 112, 48, 1296, 32, 1408, 1440⟩, ?_, ?_, ?_, ?_⟩
  · decide +kernel
  · constructor <;> decide +kernel
  · decide +kernel
  · decide +kernel

/-- The class "8.12.8.A" of the repository and a smaller packet -/
theorem C26_example : maximumPacketSizes ⟨8, 12, 8, 9, 6144, 16⟩ = .ok ⟨⟨8, 12, 1, 16, 11, 9, 6144⟩, ⟨8, 5, 6⟩, ⟨8, 8, false, 8, 8⟩,
      1280, 685342, 43861888, 36551573, 36408728, 4551091, 5950, 1276, 172032, 864, 1728, 960, 1102464, 1728, 1104192, 1105920⟩ ∧
    Spec.Allowed ⟨8, 12, 8, 9, 6144, 16⟩ ⟨4, 8, 0, 7, 8, 5, 6144⟩ ⟨2, 2, true, 2, 4⟩ ∧
    getPacketSizes ⟨4, 8, 0, 7, 8, 5, 6144⟩ = .ok (some ⟨⟨4, 8, 0, 7, 8, 5, 6144⟩, ⟨6, 2, 3⟩, ⟨2, 2, true, 2, 4⟩,
      35, 12670, 152040, 101360, 100880, 12610, 17, 32, 1568, 576, 1152, 640, 18432, 576, 19584, 20160⟩) := by
  refine ⟨?_, ?_, ?_⟩
  · decide +kernel
  · constructor <;> decide +kernel
  · decide +kernel

/-- A class with short packets for which the maximum packet sizes cannot be determined: the smaller subcarrier spacing
does not admit four antennas. -/
theorem C26_class_rejected : (⟨2, 1, 4, 7, 2048, 1⟩ : Rdc).valid = true ∧ maximumPacketSizes ⟨2, 1, 4, 7, 2048, 1⟩ = .abort := by
  decide +kernel

end Verif.Sp3
