import Verif.Lemma.OfdmPacket
import Mathlib.Algebra.BigOperators.Fin
import Mathlib.RingTheory.RootsOfUnity.Complex

/-!
# C70: OFDM symbols are sent as superposition of their subcarriers, and survive every path shorter than the cyclic prefix -/

namespace Verif.Phy.Ofdm
open Spec Verif.Sp3 Verif.Sp3.Cells

/-! ## Dimensions -/

/-- The transmitter accepts each packet the radio device class allows for, and its dimensions have the same proportions in every bandwidth and
oversampling: as many bins below the carrier as the standard has, a cyclic prefix of an eighth, and that of the STF of three or five quarters. -/
theorem C70_dims (uMax bMax k u b : Nat) (hu : uOk u = true) (huM : uOk uMax = true) (hle : u ≤ uMax) (hb : bOk b = true) (hbM : b ≤ bMax)
    (hs : 64 * bMax * k * (uMax / u) ∈ fftSizes) :
    ∃ d, txDims (spacing * 64 * uMax * bMax * k) uMax bMax u b = .ok d ∧ d.occ = 56 * b ∧ d.os = 64 * bMax * k * (uMax / u) ∧
      d.off + d.occ / 2 = d.os ∧ d.occ < d.os ∧ d.cp * 8 = d.os ∧ d.stfCp * 4 = d.os * (if u = 1 then 3 else 5) := by
  obtain ⟨e, e1, e2⟩ := txDims_ok uMax bMax k u b hu huM hle hb hbM hs
  obtain ⟨-, -, -, h, -⟩ := lut_b b hb
  refine ⟨_, e, rfl, rfl, ?_, ?_, ?_, ?_⟩ <;> dsimp only
  · omega
  · omega
  · omega
  · split <;> omega

/-- Transmitter and receiver agree exactly if the oversampling of the packet is an integer. -/
theorem C70_rx_dims (uMax bMax k u b : Nat) (hu : uOk u = true) (huM : uOk uMax = true) (hb : bOk b = true) (d : Dims)
    (h : txDims (spacing * 64 * uMax * bMax * k) uMax bMax u b = .ok d) :
    rxDims (spacing * 64 * uMax * bMax * k) u b = .ok d ↔ 64 * b ∣ d.os := by
  obtain ⟨g, h1, h2, h3, h4, h5⟩ := dims_good uMax bMax k u b hu huM hb h
  obtain ⟨b1, b2, b3, b4, b5⟩ := lut_b b hb
  have h' := h
  simp only [txDims, Res.bind_eq_ok, Res.assert_eq_ok, decide_eq_true_eq, exists_and_left, exists_const, Res.ok.injEq] at h'
  obtain ⟨-, -, hs, -, -, -, -, hd⟩ := h'
  have ho : d.os = spacing * 64 * uMax * bMax * k / (spacing * u) := by rw [← hd]
  have hoff : d.off = subcOffset d.os (dft b) (guardsBottom b) := by rw [← hd]
  have hocc : d.occ = occ b := by rw [← hd]
  rw [rxDims, Nat.mul_comm u spacing, ← ho]
  rw [decide_eq_true (by rw [ho]; exact hs), Res.assert_true, Res.ok_bind, ← hoff, ← hocc, b1, stfCp_eq u b hu b4]
  have hc : 64 * b * (d.os / (64 * b)) = d.os ↔ 64 * b ∣ d.os :=
    ⟨fun e => ⟨_, e.symm⟩, fun e => Nat.mul_div_cancel' e⟩
  have hm : 64 * b * (d.os / (64 * b)) = 64 * (b * (d.os / (64 * b))) := by ring
  have hm8 : 8 * b * (d.os / (64 * b)) = 8 * (b * (d.os / (64 * b))) := by ring
  have hms : (if u = 1 then 48 * b else 80 * b) * (d.os / (64 * b)) = (if u = 1 then 48 else 80) * (b * (d.os / (64 * b))) := by
    split <;> ring
  rw [← hc, hm, hm8, hms]
  generalize b * (d.os / (64 * b)) = x
  obtain ⟨o, os, off, cp, scp⟩ := d
  simp only [Res.ok.injEq, Dims.mk.injEq, true_and] at *
  constructor
  · rintro ⟨h6, h7⟩; omega
  · intro e; subst h4; subst h5; split <;> omega

/-- The receiver assumes the largest bandwidth of its radio device class (coarse_peak_f_domain.cpp:191); then it agrees with a transmitter of
the same sample rate. -/
theorem C70_rx_dims_default (uMax bMax k u : Nat) (hu : uOk u = true) (huM : uOk uMax = true) (hle : u ≤ uMax) (hb : bOk bMax = true)
    (hs : 64 * bMax * k * (uMax / u) ∈ fftSizes) :
    ∃ d, txDims (spacing * 64 * uMax * bMax * k) uMax bMax u bMax = .ok d ∧ rxDims (spacing * 64 * uMax * bMax * k) u bMax = .ok d := by
  obtain ⟨e, e1, e2⟩ := txDims_ok uMax bMax k u bMax hu huM hle hb le_rfl hs
  exact ⟨_, e, (C70_rx_dims uMax bMax k u bMax hu huM hb _ e).mpr ⟨k * (uMax / u), by dsimp only; ring⟩⟩

/-- Finding: a packet with twelve times the bandwidth in a device for sixteen is received with a cyclic prefix of 96 samples though it is sent
with 128 ("can be 1.3333 when b_max=16 and b=12", tx.cpp:455; the receiver divides integers, rx_synced.cpp:499-500). -/
theorem C70_rx_dims_finding :
    txDims (spacing * 64 * 1 * 16 * 1) 1 16 1 12 = .ok ⟨672, 1024, 688, 128, 768⟩ ∧
      rxDims (spacing * 64 * 1 * 16 * 1) 1 12 = .ok ⟨672, 1024, 688, 96, 576⟩ := by
  decide +kernel

/-! ## OFDM symbols -/

variable {F : Type} [Field F] [DecidableEq F]

/-- Every OFDM symbol of the data field is sent, on each antenna and at each sample of cyclic prefix and body, as the superposition of its
subcarriers; each subcarrier has the weighted sum of the transmit streams. What the buffers held before does not matter. -/
theorem C70_waveform (uMax bMax k u b : Nat) (hu : uOk u = true) (huM : uOk uMax = true) (hb : bOk b = true) (d : Dims)
    (hd : txDims (spacing * 64 * uMax * bMax * k) uMax bMax u b = .ok d) (ω scale : F) (hω : IsPrimitiveRoot ω d.os) (W : List F)
    (nTs nTx n : Nat) (ts stage : List (List F)) (hn : n ≤ nTs) (hl : n ≤ ts.length) (hts : ∀ t ∈ ts, 56 * b + 1 ≤ t.length)
    (hW : W.length = nTx * nTs) (hst : stage.length = nTx) (hsl : ∀ s ∈ stage, d.cp + d.os ≤ s.length) :
    ∃ r, txSymbol memcpy ω scale d W nTs nTx n d.cp ts stage = .ok r ∧ r.length = nTx ∧ ∀ a (ha : a < r.length),
      r[a].length = d.cp + d.os ∧
      ∀ i, i < d.cp + d.os → r[a].getD i 0 = wave ω (56 * b) (fun s => scale * precoded W nTs n ts a s) ((i : Int) - d.cp) := by
  obtain ⟨g, h1, h2, h3, h4, h5⟩ := dims_good uMax bMax k u b hu huM hb hd
  have e2 := g.mid
  have e3 := g.top
  have h0 : ω ≠ 0 := hω.ne_zero (by omega)
  obtain ⟨r, hr, hlr, hp⟩ := txSymbol_lift memcpy g ω scale W nTs nTx n d.cp ts stage hn hl (by rw [h1]; exact hts) hW hst
    (fun a v => v.length = d.cp + d.os ∧ ∀ i, i < d.cp + d.os →
      v.getD i 0 = wave ω (56 * b) (fun s => scale * precoded W nTs n ts a s) ((i : Int) - d.cp))
    (fun a ha ant hla hY => by
      rw [← h1]
      exact ifftCpScale_ok copies_memcpy g hω.pow_eq_one h0 scale d.cp (by omega) ant _ hla (hsl _ (List.getElem_mem _)) _ hY)
  exact ⟨r, hr, hlr, hp⟩

/-- Samples of an antenna: whatever was sent before (the STF), then all OFDM symbols -/
def stream (pre : Nat → List F) (sent : Nat → List (List F)) (L a : Nat) : List F :=
  pre a ++ (List.range L).flatMap fun l => (sent l).getD a []

omit [DecidableEq F] in
theorem flatMap_getD (f : Nat → List F) (m L : Nat) (hf : ∀ l, l < L → (f l).length = m) :
    ((List.range L).flatMap f).length = L * m ∧
      ∀ l j, l < L → j < m → ((List.range L).flatMap f).getD (l * m + j) 0 = (f l).getD j 0 := by
  induction L with
  | zero => exact ⟨by simp, fun l j hl => by omega⟩
  | succ L ih =>
    obtain ⟨h1, h2⟩ := ih (fun l hl => hf l (by omega))
    have hf' := hf L (by omega)
    rw [List.range_succ, List.flatMap_append, List.flatMap_singleton]
    refine ⟨by rw [List.length_append, h1, hf']; ring, fun l j hl hj => ?_⟩
    rw [getD_append, h1]
    by_cases e : l = L
    · subst e; rw [if_neg (by omega)]; congr 1; omega
    · have : l * m + j < L * m := by
        calc l * m + j < l * m + m := by omega
          _ = (l + 1) * m := by ring
          _ ≤ L * m := Nat.mul_le_mul_right _ (by omega)
      rw [if_pos this, h2 l j (by omega) hj]

/-- Every OFDM symbol arrives: the samples of all transmit antennas reach a receive antenna over any number of paths, each with its own gain
and a delay up to the length of the cyclic prefix. Then the receiver gets on each subcarrier of each OFDM symbol what was sent on this
subcarrier of this OFDM symbol, over all paths. Nothing of other subcarriers or of other OFDM symbols is left. -/
theorem C70_receive (uMax bMax k u b : Nat) (hu : uOk u = true) (huM : uOk uMax = true) (hb : bOk b = true) (d : Dims)
    (hd : txDims (spacing * 64 * uMax * bMax * k) uMax bMax u b = .ok d) (d' : Dims) (hd' : rxDims (spacing * 64 * uMax * bMax * k) u b = .ok d') (hdiv : 64 * b ∣ d.os)
    (ω scale rxScale : F) (hω : IsPrimitiveRoot ω d.os) (W : List F) (nTs nTx n L : Nat) (ts stage : Nat → List (List F)) (hn : n ≤ nTs)
    (hl : ∀ l, n ≤ (ts l).length) (hts : ∀ l, ∀ t ∈ ts l, 56 * b + 1 ≤ t.length)
    (hW : W.length = nTx * nTs) (hst : ∀ l, (stage l).length = nTx) (hsl : ∀ l, ∀ s ∈ stage l, d.cp + d.os ≤ s.length)
    (sent : Nat → List (List F)) (hsent : ∀ l, l < L → txSymbol memcpy ω scale d W nTs nTx n d.cp (ts l) (stage l) = .ok (sent l))
    (pre : Nat → List F) (N : Nat) (hpre : ∀ a, (pre a).length = N)
    (paths : List (Path F)) (hpa : ∀ p ∈ paths, p.ant < nTx) (hpd : ∀ p ∈ paths, p.delay ≤ d.cp)
    (r : List F) (hr : r.length = L * (d.cp + d.os))
    (hheard : ∀ i, i < L * (d.cp + d.os) → r.getD i 0 = heard paths (fun a m => (stream pre sent L a).getD m 0) (N + i)) :
    ∃ x, rxSymbols ω rxScale d' L r = .ok x ∧ x.length = L ∧ ∀ l (hl : l < x.length), x[l].length = 56 * b + 1 ∧
      ∀ s, s < 56 * b + 1 →
        x[l].getD s 0 = rxScale * d.os * response ω (56 * b) paths (fun a s => scale * precoded W nTs n (ts l) a s) s := by
  obtain ⟨g, h1, h2, h3, h4, h5⟩ := dims_good uMax bMax k u b hu huM hb hd
  have hdd : d' = d := by
    rw [(C70_rx_dims uMax bMax k u b hu huM hb d hd).mpr hdiv] at hd'
    injection hd' with hd'; exact hd'.symm
  subst hdd
  -- what was sent
  have hw : ∀ l, l < L → ∀ a, a < nTx → ((sent l).getD a []).length = d'.cp + d'.os ∧ ∀ i, i < d'.cp + d'.os →
      ((sent l).getD a []).getD i 0 = wave ω (56 * b) (fun s => scale * precoded W nTs n (ts l) a s) ((i : Int) - d'.cp) := by
    intro l hL a ha
    obtain ⟨q, q1, q2, q3⟩ := C70_waveform uMax bMax k u b hu huM hb d' hd ω scale hω W nTs nTx n (ts l) (stage l) hn (hl l) (hts l) hW (hst l)
      (hsl l)
    rw [hsent l hL] at q1
    injection q1 with q1
    subst q1
    rw [List.getD_eq_getElem?_getD, List.getElem?_eq_getElem (by omega : a < (sent l).length)]
    exact q3 a (by omega)
  have hS : ∀ l, l < L → ∀ a, a < nTx → ∀ j, j < d'.cp + d'.os → (stream pre sent L a).getD (N + (l * (d'.cp + d'.os) + j)) 0 =
      wave ω (56 * b) (fun s => scale * precoded W nTs n (ts l) a s) ((j : Int) - d'.cp) := by
    intro l hL a ha j hj
    rw [stream, getD_append, hpre a, if_neg (by omega), show N + (l * (d'.cp + d'.os) + j) - N = l * (d'.cp + d'.os) + j by omega,
      (flatMap_getD (fun l => (sent l).getD a []) (d'.cp + d'.os) L (fun l hl => (hw l hl a ha).1)).2 l j hL hj, (hw l hL a ha).2 j hj]
  refine rxSymbols_ok ω rxScale d' L r (by omega) (fun l v => v.length = 56 * b + 1 ∧ ∀ s, s < 56 * b + 1 →
    v.getD s 0 = rxScale * d'.os * response ω (56 * b) paths (fun a s => scale * precoded W nTs n (ts l) a s) s) fun l hL v hv hg => ?_
  obtain ⟨x, hx, hlx, hgx⟩ := rxSymbol_ok g hω rxScale d'.cp v (by omega) paths.length
    (fun p s => scale * precoded W nTs n (ts l) paths[p].ant s) (fun p => paths[p].gain) (fun p => paths[p].delay) (fun i hi => by
      have hb1 : l * (d'.cp + d'.os) + (d'.cp + i) < L * (d'.cp + d'.os) := by
        calc l * (d'.cp + d'.os) + (d'.cp + i) < l * (d'.cp + d'.os) + (d'.cp + d'.os) := by omega
          _ = (l + 1) * (d'.cp + d'.os) := by ring
          _ ≤ L * (d'.cp + d'.os) := Nat.mul_le_mul_right _ hL
      rw [hg (d'.cp + i) (by omega), hheard _ hb1, heard, ← Fin.sum_univ_fun_getElem]
      apply Finset.sum_congr rfl
      intro p _
      have hp1 := hpd paths[p.1] (List.getElem_mem _)
      have hp2 := hpa paths[p.1] (List.getElem_mem _)
      rw [show N + (l * (d'.cp + d'.os) + (d'.cp + i)) - paths[p.1].delay = N + (l * (d'.cp + d'.os) + (d'.cp + i - paths[p.1].delay)) by omega,
        hS l hL _ hp2 _ (by omega), h1]
      congr 2
      show ((d'.cp + i - paths[p.1].delay : Nat) : Int) - d'.cp = (i : Int) - (paths[p.1].delay : Nat)
      omega)
  refine ⟨x, hx, by omega, fun s hs => ?_⟩
  rw [hgx s (by omega), response, ← Fin.sum_univ_fun_getElem, h1]
  rfl

/-! ## STF -/

/-- The STF uses every fourth subcarrier, without that of the carrier. -/
theorem C70_stf_cells (b : Nat) (y : List F) (s : Nat) (hs : s < 56 * b + 1) :
    (stfFilled (56 * b) y).getD s 0 =
      if (4 : Int) ∣ freq (56 * b) s ∧ freq (56 * b) s ≠ 0 then y.getD (if freq (56 * b) s < 0 then s / 4 else s / 4 - 1) 0 else 0 := by
  rw [stfFilled_getD b y s hs]
  have h : 56 * b / 2 = 28 * b := by omega
  have e1 : ((4 : Int) ∣ freq (56 * b) s ∧ freq (56 * b) s ≠ 0) ↔ (4 ∣ s ∧ s ≠ 28 * b) := by
    rw [freq, h]; omega
  have e2 : freq (56 * b) s < 0 ↔ s < 28 * b := by rw [freq, h]; omega
  simp only [e1, e2]

/-- Sample of the STF: the superposition of its subcarriers, a quarter of the FFT after the other with the sign of the cover sequence -/
def stfSample (ω scale : F) (d : Dims) (b : Nat) (W y : List F) (nTs a i : Nat) : F :=
  wave ω (56 * b) (fun s => scale * (W.getD (a * nTs) 0 * (stfFilled (56 * b) y).getD s 0)) ((i : Int) - d.stfCp) *
    ((cover.getD (i / (d.os / 4)) 1 : Int) : F)

theorem stf_lift (copy : List F → Nat → Nat → Nat → Res (List F)) (uMax bMax k u b : Nat) (hu : uOk u = true) (huM : uOk uMax = true)
    (hb : bOk b = true) (d : Dims) (hd : txDims (spacing * 64 * uMax * bMax * k) uMax bMax u b = .ok d) (ω scale : F) (W y : List F)
    (nTs nTx : Nat) (ts stage : List (List F)) (hn : 1 ≤ nTs) (hts : ∀ t ∈ ts, 56 * b + 1 ≤ t.length) (h0 : ts[0]? = some (stfFilled (56 * b) y))
    (hW : W.length = nTx * nTs) (hst : stage.length = nTx)
    (one : ∀ a (ha : a < stage.length) (ant : List F), ant.length = d.os →
      (∀ q, q < d.os → ant.getD q 0 = bin d (precoded W nTs 1 ts a) q) → ∃ r, ifftCpScale copy ω scale d d.stfCp ant stage[a] = .ok r ∧
        r.length = d.stfCp + d.os ∧ ∀ n, n < d.stfCp + d.os →
          r.getD n 0 = wave ω d.occ (fun s => scale * precoded W nTs 1 ts a s) ((n : Int) - d.stfCp)) :
    ∃ r, txStf copy ω scale d W nTs nTx u b ts stage = .ok r ∧ r.length = nTx ∧ ∀ a (ha : a < r.length),
      r[a].length = d.stfCp + d.os ∧ ∀ i, i < d.stfCp + d.os → r[a].getD i 0 = stfSample ω scale d b W y nTs a i := by
  obtain ⟨g, h1, h2, h3, h4, h5⟩ := dims_good uMax bMax k u b hu huM hb hd
  obtain ⟨b1, b2, b3, b4, b5⟩ := lut_b b hb
  have hl : 1 ≤ ts.length := by
    rcases ts with _ | ⟨t, ts⟩
    · cases h0
    · simp
  obtain ⟨r, hr, hlr, hp⟩ := txSymbol_lift copy g ω scale W nTs nTx 1 d.stfCp ts stage hn hl (by rw [h1]; exact hts) hW hst _ one
  have hlen : 16 * b * d.os / dft b = d.os / 4 := by
    rw [b1, show 16 * b * d.os = b * 16 * d.os by ring, show 64 * b = b * 64 by ring, Nat.mul_assoc b 16, Nat.mul_div_mul_left _ _ b4]; omega
  have hpat : d.stfCp + d.os = nPattern u * (d.os / 4) := by
    rw [h5, nPattern]; split <;> omega
  obtain ⟨q, q1, q2, q3⟩ := mapM_ok r (applyCover u (d.os / 4)) (fun a v => v.length = d.stfCp + d.os ∧
      ∀ i, i < d.stfCp + d.os → v.getD i 0 = stfSample ω scale d b W y nTs a i) (fun a ha => by
    obtain ⟨p1, p2⟩ := hp a ha
    obtain ⟨v, v1, v2, v3⟩ := applyCover_ok u (d.os / 4) r[a] (by rw [p1, hpat])
    refine ⟨v, v1, by rw [v2, p1], fun i hi => ?_⟩
    rw [v3 i (by omega), p2 i hi, stfSample, h1]
    have hpc : ∀ s, precoded W nTs 1 ts a s = W.getD (a * nTs) 0 * (stfFilled (56 * b) y).getD s 0 := by
      intro s
      rw [precoded, Finset.sum_range_one, Nat.add_zero, List.getD_eq_getElem?_getD (l := ts), h0]; rfl
    simp only [hpc])
  refine ⟨q, ?_, by omega, q3⟩
  rw [txStf, hr, Res.ok_bind, hlen, q1]

/-- The STF of numerology 1 is sent as seven repetitions with the signs of the cover sequence. -/
theorem C70_stf (uMax bMax k b : Nat) (huM : uOk uMax = true)
    (hb : bOk b = true) (d : Dims) (hd : txDims (spacing * 64 * uMax * bMax * k) uMax bMax 1 b = .ok d) (ω scale : F)
    (hω : IsPrimitiveRoot ω d.os) (W y : List F)
    (nTs nTx : Nat) (ts stage : List (List F)) (hn : 1 ≤ nTs) (hts : ∀ t ∈ ts, 56 * b + 1 ≤ t.length) (h0 : ts[0]? = some (stfFilled (56 * b) y))
    (hW : W.length = nTx * nTs) (hst : stage.length = nTx) (hsl : ∀ s ∈ stage, d.stfCp + d.os ≤ s.length) :
    ∃ r, txStf memcpy ω scale d W nTs nTx 1 b ts stage = .ok r ∧ r.length = nTx ∧ ∀ a (ha : a < r.length),
      r[a].length = d.stfCp + d.os ∧ ∀ i, i < d.stfCp + d.os → r[a].getD i 0 = stfSample ω scale d b W y nTs a i := by
  obtain ⟨g, h1, h2, h3, h4, h5⟩ := dims_good uMax bMax k 1 b (by decide) huM hb hd
  have e2 := g.mid
  have e3 := g.top
  rw [if_pos rfl] at h5
  exact stf_lift memcpy uMax bMax k 1 b (by decide) huM hb d hd ω scale W y nTs nTx ts stage hn hts h0 hW hst fun a ha ant hla hY =>
    ifftCpScale_ok copies_memcpy g hω.pow_eq_one (hω.ne_zero (by omega)) scale d.stfCp (by omega) ant _ hla (hsl _ (List.getElem_mem _)) _ hY

/-- Finding: for every other numerology the cyclic prefix of the STF is longer than the FFT, and `memcpy` is called with overlapping source and
destination, which is undefined behaviour (ofdm.cpp:70-78). -/
theorem C70_stf_finding (uMax bMax k u b : Nat) (hu : uOk u = true) (hu1 : u ≠ 1) (huM : uOk uMax = true)
    (hb : bOk b = true) (d : Dims) (hd : txDims (spacing * 64 * uMax * bMax * k) uMax bMax u b = .ok d) (ω scale : F) (W : List F)
    (nTs nTx : Nat) (ts stage : List (List F)) (hn : 1 ≤ nTs) (hx : 1 ≤ nTx) (hl : 1 ≤ ts.length) (hts : ∀ t ∈ ts, 56 * b + 1 ≤ t.length)
    (hW : W.length = nTx * nTs) (hst : stage.length = nTx) :
    txStf memcpy ω scale d W nTs nTx u b ts stage = .ub := by
  obtain ⟨g, h1, h2, h3, h4, h5⟩ := dims_good uMax bMax k u b hu huM hb hd
  have e2 := g.mid
  have e3 := g.top
  obtain ⟨-, -, -, b4, -⟩ := lut_b b hb
  rw [if_neg hu1] at h5
  obtain ⟨ants, a1, a2, a3⟩ := beamform_ok g W nTs nTx 1 ts hn hl (by rw [h1]; exact hts) hW
  have hr : List.range nTx = 0 :: List.range' 1 (nTx - 1) := by
    rw [List.range_eq_range', show nTx = (nTx - 1) + 1 by omega, List.range'_succ]; rfl
  rw [txStf, txSymbol, a1, Res.ok_bind, hr, List.mapM_cons, at?_ok ants 0 (by omega), Res.ok_bind, at?_ok stage 0 (by omega), Res.ok_bind,
    ifftCpScale_ub g ω scale d.stfCp (by omega) _ _ (a3 0 (by omega)).1]
  rfl

/-- Were the copy done from the first element to the last, the STF would be sent as nine repetitions with the signs of the cover sequence;
this relies on the STF using every fourth subcarrier only. Missing: what the code does is undefined. -/
theorem C70_stf_partial (uMax bMax k u b : Nat) (hu : uOk u = true) (hu1 : u ≠ 1) (huM : uOk uMax = true)
    (hb : bOk b = true) (d : Dims) (hd : txDims (spacing * 64 * uMax * bMax * k) uMax bMax u b = .ok d) (ω scale : F)
    (hω : IsPrimitiveRoot ω d.os) (W y : List F)
    (nTs nTx : Nat) (ts stage : List (List F)) (hn : 1 ≤ nTs) (hts : ∀ t ∈ ts, 56 * b + 1 ≤ t.length) (h0 : ts[0]? = some (stfFilled (56 * b) y))
    (hW : W.length = nTx * nTs) (hst : stage.length = nTx) (hsl : ∀ s ∈ stage, d.stfCp + d.os ≤ s.length) :
    ∃ r, txStf copyAsc ω scale d W nTs nTx u b ts stage = .ok r ∧ r.length = nTx ∧ ∀ a (ha : a < r.length),
      r[a].length = d.stfCp + d.os ∧ ∀ i, i < d.stfCp + d.os → r[a].getD i 0 = stfSample ω scale d b W y nTs a i := by
  obtain ⟨g, h1, h2, h3, h4, h5⟩ := dims_good uMax bMax k u b hu huM hb hd
  have e2 := g.mid
  have e3 := g.top
  obtain ⟨-, -, -, b4, -⟩ := lut_b b hb
  rw [if_neg hu1] at h5
  have hc : d.stfCp = 5 * (d.os / 4) := by omega
  refine stf_lift copyAsc uMax bMax k u b hu huM hb d hd ω scale W y nTs nTx ts stage hn hts h0 hW hst fun a ha ant hla hY => ?_
  have := ifftCpScale_long g hω.pow_eq_one (hω.ne_zero (by omega)) scale (d.os / 4) (by omega) ant stage[a] hla
    (by rw [← hc]; exact hsl _ (List.getElem_mem _)) _ hY (fun s hs h => by
      rw [precoded, Finset.sum_range_one, List.getD_eq_getElem?_getD (l := ts), h0, Option.getD_some, C70_stf_cells b y s (by omega), if_neg, mul_zero]
      rw [← h1]; exact fun c => h c.1)
  rw [hc]
  push_cast
  exact this

/-- The receiver removes the cover sequence and gets the subcarriers of the STF, for samples sent as above and received over paths without
delay. -/
theorem C70_stf_received (uMax bMax k u b : Nat) (hu : uOk u = true) (huM : uOk uMax = true)
    (hb : bOk b = true) (d : Dims) (hd : txDims (spacing * 64 * uMax * bMax * k) uMax bMax u b = .ok d)
    (d' : Dims) (hd' : rxDims (spacing * 64 * uMax * bMax * k) u b = .ok d') (hdiv : 64 * b ∣ d.os) (ω scale rxScale : F)
    (hω : IsPrimitiveRoot ω d.os) (W y : List F) (nTs : Nat)
    (paths : List (Path F)) (hpd : ∀ p ∈ paths, p.delay = 0) (r : List F) (hr : r.length = d.stfCp + d.os)
    (hheard : ∀ i, i < d.stfCp + d.os → r.getD i 0 = heard paths (fun a m => stfSample ω scale d b W y nTs a m) i) :
    ∃ x, rxStf ω rxScale d' u r = .ok x ∧ x.length = 56 * b + 1 ∧ ∀ s, s < 56 * b + 1 →
      x.getD s 0 = rxScale * d.os * response ω (56 * b) paths (fun a s => scale * (W.getD (a * nTs) 0 * (stfFilled (56 * b) y).getD s 0)) s := by
  obtain ⟨g, h1, h2, h3, h4, h5⟩ := dims_good uMax bMax k u b hu huM hb hd
  have hdd : d' = d := by
    rw [(C70_rx_dims uMax bMax k u b hu huM hb d hd).mpr hdiv] at hd'
    injection hd' with hd'; exact hd'.symm
  subst hdd
  have e2 := g.mid
  have e3 := g.top
  have hpat : d'.stfCp + d'.os = nPattern u * (d'.os / 4) := by
    rw [h5, nPattern]; split <;> omega
  have hlen : (d'.stfCp + d'.os) / nPattern u = d'.os / 4 := by
    rw [hpat, Nat.mul_div_cancel_left]; rw [nPattern]; split <;> omega
  obtain ⟨v, v1, v2, v3⟩ := applyCover_ok u (d'.os / 4) r (by rw [hr, hpat])
  obtain ⟨x, hx, hlx, hgx⟩ := rxSymbol_ok g hω rxScale d'.stfCp v (by omega) paths.length
    (fun p s => scale * (W.getD (paths[p].ant * nTs) 0 * (stfFilled (56 * b) y).getD s 0)) (fun p => paths[p].gain) (fun p => paths[p].delay)
    (fun i hi => by
      rw [v3 _ (by omega), hheard _ (by omega), heard, ← Fin.sum_univ_fun_getElem, Finset.sum_mul]
      apply Finset.sum_congr rfl
      intro p _
      have hp := hpd paths[p.1] (List.getElem_mem _)
      have hc : ((cover.getD ((d'.stfCp + i) / (d'.os / 4)) 1 : Int) : F) * ((cover.getD ((d'.stfCp + i) / (d'.os / 4)) 1 : Int) : F) = 1 := by
        rw [← Int.cast_mul, cover_sq, Int.cast_one]
      simp only [stfSample, Fin.getElem_fin, hp, Nat.sub_zero]
      rw [mul_assoc, mul_assoc, hc, mul_one, h1]
      congr 2
      push_cast; ring)
  refine ⟨x, by rw [rxStf, hlen, v1, Res.ok_bind, hx], by omega, fun s hs => ?_⟩
  rw [hgx s (by omega), response, ← Fin.sum_univ_fun_getElem, h1]
  rfl

/-! ## A case -/

/-- Two antennas, one transmit stream weighted with 1 and -1, sent twice; the second path is a sample later. -/
theorem C70_example (ts : Nat → List (List ℂ)) (hts : ∀ l, (ts l).length = 1) (hlen : ∀ l, ∀ t ∈ ts l, t.length = 57) :
    ∃ d, txDims (spacing * 64 * 1 * 1 * 1) 1 1 1 1 = .ok d ∧ rxDims (spacing * 64 * 1 * 1 * 1) 1 1 = .ok d ∧ ∃ ω : ℂ, IsPrimitiveRoot ω d.os ∧
      ∃ sent, (∀ l, txSymbol memcpy ω 1 d [1, -1] 1 2 1 d.cp (ts l) [List.replicate 72 5, List.replicate 72 7] = .ok (sent l)) ∧
      ∃ r, r.length = 144 ∧ (∀ i, i < 144 → r.getD i 0 = heard [⟨0, 2, 0⟩, ⟨1, 3, 1⟩] (fun a m => (stream (fun _ => []) sent 2 a).getD m 0) (0 + i)) ∧
      ∃ x, rxSymbols ω 1 d 2 r = .ok x ∧ x.length = 2 ∧ ∀ l (_ : l < x.length), ∀ s, s < 57 →
        x[l].getD s 0 = 1 * 64 * (2 * ((ts l).getD 0 []).getD s 0 + 3 * ω ^ (-(freq 56 s)) * (-((ts l).getD 0 []).getD s 0)) := by
  have hd : txDims (spacing * 64 * 1 * 1 * 1) 1 1 1 1 = .ok ⟨56, 64, 36, 8, 48⟩ := by decide +kernel
  have hd' : rxDims (spacing * 64 * 1 * 1 * 1) 1 1 = .ok ⟨56, 64, 36, 8, 48⟩ := by decide +kernel
  have hω := Complex.isPrimitiveRoot_exp 64 (by norm_num)
  refine ⟨_, hd, hd', _, hω, ?_⟩
  have hex : ∀ l, ∃ q, txSymbol memcpy (Complex.exp (2 * Real.pi * Complex.I / (64 : Nat))) 1 ⟨56, 64, 36, 8, 48⟩ [1, -1] 1 2 1 8 (ts l)
      [List.replicate 72 5, List.replicate 72 7] = .ok q := fun l => by
    obtain ⟨q, h, -⟩ := C70_waveform 1 1 1 1 1 rfl rfl rfl _ hd _ (1 : ℂ) hω [1, -1] 1 2 1 (ts l) [List.replicate 72 5, List.replicate 72 7] le_rfl
      (by rw [hts]) (fun t ht => by rw [hlen l t ht]) rfl rfl (by simp)
    exact ⟨q, h⟩
  choose sent hsent using hex
  refine ⟨sent, hsent, (List.range 144).map (fun i => heard [⟨0, 2, 0⟩, ⟨1, 3, 1⟩] (fun a m => (stream (fun _ => []) sent 2 a).getD m 0) (0 + i)),
    by simp, ?_, ?_⟩
  · intro i hi
    rw [List.getD_eq_getElem?_getD, List.getElem?_map, List.getElem?_range hi]; rfl
  · obtain ⟨x, x1, x2, x3⟩ := C70_receive 1 1 1 1 1 rfl rfl rfl _ hd _ hd' (by decide) _ (1 : ℂ) 1 hω [1, -1] 1 2 1 2 ts
      (fun _ => [List.replicate 72 5, List.replicate 72 7]) le_rfl (fun l => by rw [hts]) (fun l t ht => by rw [hlen l t ht]) rfl (fun _ => rfl)
      (by simp) sent (fun l _ => hsent l) (fun _ => []) 0 (fun _ => rfl) [⟨0, 2, 0⟩, ⟨1, 3, 1⟩] (by simp) (by simp)
      ((List.range 144).map (fun i => heard [⟨0, 2, 0⟩, ⟨1, 3, 1⟩] (fun a m => (stream (fun _ => []) sent 2 a).getD m 0) (0 + i))) (by simp)
      (fun i hi => by rw [List.getD_eq_getElem?_getD, List.getElem?_map, List.getElem?_range (show i < 144 from hi)]; rfl)
    refine ⟨x, x1, x2, fun l hl s hs => ?_⟩
    rw [(x3 l hl).2 s hs]
    simp [response, precoded]

/-- An STF, of one antenna -/
theorem C70_stf_example : ∃ d, txDims (spacing * 64 * 1 * 1 * 1) 1 1 1 1 = .ok d ∧ ∃ ω : ℂ, IsPrimitiveRoot ω d.os ∧
    ∃ r, txStf memcpy ω 2 d [1] 1 1 1 1 [stfFilled 56 (List.replicate 14 1)] [List.replicate 112 9] = .ok r ∧ r.length = 1 := by
  have hd : txDims (spacing * 64 * 1 * 1 * 1) 1 1 1 1 = .ok ⟨56, 64, 36, 8, 48⟩ := by decide +kernel
  have hω := Complex.isPrimitiveRoot_exp 64 (by norm_num)
  refine ⟨_, hd, _, hω, ?_⟩
  obtain ⟨r, h1, h2, -⟩ := C70_stf 1 1 1 1 rfl rfl _ hd _ 2 hω [1] (List.replicate 14 1) 1 1 [stfFilled 56 (List.replicate 14 1)]
    [List.replicate 112 9] le_rfl (fun t ht => by
      rw [List.mem_singleton] at ht; rw [ht]; exact le_of_eq (stfFilled_length 1 (List.replicate 14 (1 : ℂ))).symm) rfl rfl rfl (by simp)
  exact ⟨r, h1, h2⟩

/-- Numerology 2 with four times the bandwidth, as above: undefined behaviour -/
theorem C70_stf_finding_example : ∃ d, txDims (spacing * 64 * 2 * 4 * 1) 2 4 2 4 = .ok d ∧
    txStf memcpy (1 : ℂ) 2 d [1] 1 1 2 4 [stfFilled 224 (List.replicate 56 1)] [List.replicate 576 9] = .ub := by
  have hd : txDims (spacing * 64 * 2 * 4 * 1) 2 4 2 4 = .ok ⟨224, 256, 144, 32, 320⟩ := by decide +kernel
  refine ⟨_, hd, C70_stf_finding 2 4 1 2 4 rfl (by decide) rfl rfl _ hd 1 2 [1] 1 1 [stfFilled 224 (List.replicate 56 1)]
    [List.replicate 576 9] le_rfl le_rfl le_rfl (fun t ht => ?_) rfl rfl⟩
  rw [List.mem_singleton] at ht; rw [ht]; exact le_of_eq (stfFilled_length 4 (List.replicate 56 (1 : ℂ))).symm

end Verif.Phy.Ofdm
