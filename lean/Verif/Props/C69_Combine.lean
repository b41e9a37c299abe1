import Verif.Lemma.CombineLoop
import Verif.Props.C67_SymbolMap

/-!
# C69: the receiver hands the symbols sent to the demapper -/

namespace Verif.Phy.Combine
open Verif.Sp3 Verif.Sp3.Cells Verif.Sp3.Cells.Spec Verif.Phy.SymbolMap Verif.Spec.SymbolMap Verif.Spec.Combine

/-- A list of all occupied subcarriers in order -/
theorem full_list {b : Nat} {ks : List Nat} (hp : ks.Pairwise (· < ·)) (ho : ∀ k ∈ ks, Occupied b k) (hl : ks.length = 56 * b) :
    ks = (List.range (56 * b)).map (subc b) := by
  have hs : ((List.range (56 * b)).map (subc b)).Pairwise (· < ·) := by
    rw [List.pairwise_map]
    refine List.Pairwise.imp ?_ List.pairwise_lt_range
    intro x z h
    unfold subc
    split <;> split <;> omega
  have hsub : ks ⊆ (List.range (56 * b)).map (subc b) := by
    intro k hk
    obtain ⟨h1, h2⟩ := ho k hk
    rw [List.mem_map]
    by_cases h3 : k < 28 * b
    · exact ⟨k, List.mem_range.2 (by omega), by rw [subc, if_pos h3]⟩
    · exact ⟨k - 1, List.mem_range.2 (by omega), by rw [subc, if_neg (by omega)]; omega⟩
  have hnd : ks.Nodup := hp.imp (fun h => Nat.ne_of_lt h)
  have hperm : ks.Perm ((List.range (56 * b)).map (subc b)) := by
    refine (hnd.subperm hsub).perm_of_length_le ?_
    rw [List.length_map, List.length_range, hl]
  exact hperm.eq_of_pairwise (fun a b _ _ h1 h2 => absurd h1 (Nat.lt_asymm h2)) hp hs

variable {K : Type} [Field K] [LinearOrder K] [IsStrictOrderedRing K]

/-- For every packet with one spatial stream for which there are packet sizes, every number of receive antennas, every channel which may
differ from one OFDM symbol to the next, all coded bits and all noise: if the channel is known, the receiver hands to the demapper for
each symbol of the PCC and of the PDC, in the order of the transmitter, this symbol plus a weighted sum of the noise in its cells. -/
theorem C69_received {q : PsDef} {r : PacketSizes} (h : getPacketSizes q = .ok (some r)) (hm : q.mcs ≤ 9) (hss : r.tm.nSs = 1) {cap : Nat}
    (hcap : r.tm.nSs * (56 * q.b) + 23 ≤ cap) (qpsk point : Nat → Cx K) (drs : Nat → Nat → Nat → Cx K) {dPcc d : List Nat}
    (hp8 : ∀ x ∈ dPcc, x < 256) (hp : 196 ≤ 8 * dPcc.length) (hd8 : ∀ x ∈ d, x < 256) (hd : r.G ≤ 8 * d.length)
    (nRx : Nat) (H : Nat → Nat → Nat → Nat → Cx K) (N : Nat → Nat → Nat → Cx K) :
    ∃ syms stages, packet q.b r.tm.nTs r.nDfSymb = .ok syms ∧ txPacket r cap qpsk point drs dPcc d = .ok stages ∧
      ∀ y : Nat → Nat → Nat → Cx K,
        (∀ l a k, y l a k = superposed r.tm.nTs (fun t => H l a t k) (fun t => value stages l t k) (N l a k)) →
        (Usable r.tm.nTs nRx H (order Symbol.pcc 1 syms) → pccLoop r.tm.nTs nRx y H syms 1 0 =
          .ok ((List.range 98).map fun i => qpsk (number dPcc (i * 2) 2) + residual r.tm.nTs nRx H N (order Symbol.pcc 1 syms) i)) ∧
        (Usable r.tm.nTs nRx H (order Symbol.pdc 1 syms) → pdcLoop (56 * q.b) r.tm.nTs r.tm.nSs nRx y H syms 1 0 =
          .ok ((List.range r.nPdcSubc).map fun i => point (number d (i * r.mcs.nBps) r.mcs.nBps) +
            residual r.tm.nTs nRx H N (order Symbol.pdc 1 syms) i)) := by
  obtain ⟨syms, stages, g1, g2, -, g3, g4, -, g5, g6, -, -⟩ := C67_grid h hm hcap qpsk point drs hp8 hp hd8 hd
  refine ⟨syms, stages, g1, g2, fun y hy => ?_⟩
  obtain ⟨syms', hsyms, -, hsym, -, -, -⟩ := C30_cells h
  obtain ⟨hv, tm, mcs, ht, hmc, -, rfl⟩ := getPacketSizes_some h
  obtain ⟨hu, hb, -, -, htm, -, -⟩ := valid_cases hv
  have hbok : bOk q.b = true := by rcases hb with h | h | h | h | h | h <;> rw [h] <;> rfl
  have hts := tm_streams ht
  obtain ⟨L, -, hpk, hsz⟩ := packet_sizes hbok hts
  have e0 : (sizesOf q tm mcs).tm = tm := rfl
  rw [e0] at g1 g5 g6 hsyms hsym hss ⊢
  simp only [e0] at hy
  have hmode : tm.nTs = tm.nEffTx ∧ (tm.nSs = 1 → ((q.tm = 1 ∨ q.tm = 5 ∨ q.tm = 10) ↔ tm.nTs ≠ 1)) := by
    match hq : q.tm, ht with
    | 0, ht | 1, ht | 2, ht | 3, ht | 4, ht | 5, ht | 6, ht | 7, ht | 8, ht | 9, ht | 10, ht | 11, ht => cases ht; decide
    | _ + 12, ht => cases ht
  obtain ⟨hnTs, hdiv⟩ := hmode
  have hdiv := hdiv hss
  have hE : syms' = syms := by
    rw [hnTs, hsyms] at g1
    exact Res.ok.inj g1
  subst hE
  have hmem : ∀ x ∈ syms', x.pcc.length % 2 = 0 ∧ x.pdc.length % 2 = 0 := by
    intro x hx
    rw [hpk] at hsyms
    rw [← Res.ok.inj hsyms, List.mem_map] at hx
    obtain ⟨l, hl, rfl⟩ := hx
    rw [List.mem_range'_1] at hl
    exact ⟨(hsz l hl.1).1, (hsz l hl.1).2.1⟩
  have hts' : tm.nTs = 1 ∨ tm.nTs = 2 ∨ tm.nTs = 4 ∨ tm.nTs = 8 := by rw [hnTs]; exact hts
  have hrx : ∀ l, ∀ a < nRx, ∀ k, y l a k = superposed tm.nTs (fun t => H l a t k) (fun t => value stages l t k) (N l a k) := fun l a _ k => hy l a k
  constructor
  · intro hu
    rw [pccLoop_eq ⟨hts', hrx, fun i l k hi t => g5 i l k hi t, hu.2, hu.1⟩ syms' 1 0 rfl rfl (fun x hx => (hmem x hx).1), g3, List.range_eq_range']
  · intro hu
    rw [hss]
    have g6' : ∀ i l k, (order Symbol.pdc 1 syms')[i]? = some (l, k) → ∀ t, value stages l t k =
        sent tm.nTs (fun j => point (number d (j * (sizesOf q tm mcs).mcs.nBps) (sizesOf q tm mcs).mcs.nBps)) i t := by
      intro i l k hi t
      rw [g6 i l k hi t, sent, hss]
      by_cases h1 : tm.nTs = 1
      · rw [if_pos h1, if_neg (fun hc => hdiv.1 hc h1)]
      · rw [if_neg h1, if_pos (hdiv.2 h1)]
    have hcells : ∀ x ∈ syms', x.pdc.length % 2 = 0 ∧ (∀ k ∈ x.pdc, k ≤ 56 * q.b) ∧
        (x.pdc.length = 56 * q.b → x.pdc = (List.range (56 * q.b)).map (subc q.b)) := by
      intro x hx
      obtain ⟨n, hn⟩ := List.mem_iff_getElem?.1 hx
      obtain ⟨-, -, c3, -, -, -, c7⟩ := hsym n x hn
      exact ⟨(hmem x hx).2, fun k hk => ((c3 k).1 hk).1.1, fun hl => full_list c7 (fun k hk => ((c3 k).1 hk).1) hl⟩
    rw [pdcLoop_eq ⟨hts', hrx, g6', hu.2, hu.1⟩ syms' 1 0 rfl rfl hcells, g4, Nat.sub_zero, List.range_eq_range']

/-- Without noise the demapper gets exactly the symbols sent. -/
theorem C69_exact {q : PsDef} {r : PacketSizes} (h : getPacketSizes q = .ok (some r)) (hm : q.mcs ≤ 9) (hss : r.tm.nSs = 1) {cap : Nat}
    (hcap : r.tm.nSs * (56 * q.b) + 23 ≤ cap) (qpsk point : Nat → Cx K) (drs : Nat → Nat → Nat → Cx K) {dPcc d : List Nat}
    (hp8 : ∀ x ∈ dPcc, x < 256) (hp : 196 ≤ 8 * dPcc.length) (hd8 : ∀ x ∈ d, x < 256) (hd : r.G ≤ 8 * d.length)
    (nRx : Nat) (H : Nat → Nat → Nat → Nat → Cx K) :
    ∃ syms stages, packet q.b r.tm.nTs r.nDfSymb = .ok syms ∧ txPacket r cap qpsk point drs dPcc d = .ok stages ∧
      ∀ y : Nat → Nat → Nat → Cx K,
        (∀ l a k, y l a k = superposed r.tm.nTs (fun t => H l a t k) (fun t => value stages l t k) 0) →
        (Usable r.tm.nTs nRx H (order Symbol.pcc 1 syms) → pccLoop r.tm.nTs nRx y H syms 1 0 =
          .ok ((List.range 98).map fun i => qpsk (number dPcc (i * 2) 2))) ∧
        (Usable r.tm.nTs nRx H (order Symbol.pdc 1 syms) → pdcLoop (56 * q.b) r.tm.nTs r.tm.nSs nRx y H syms 1 0 =
          .ok ((List.range r.nPdcSubc).map fun i => point (number d (i * r.mcs.nBps) r.mcs.nBps))) := by
  obtain ⟨syms, stages, g1, g2, g3⟩ := C69_received h hm hss hcap qpsk point drs hp8 hp hd8 hd nRx H (fun _ _ _ => 0)
  refine ⟨syms, stages, g1, g2, fun y hy => ?_⟩
  obtain ⟨g4, g5⟩ := g3 y hy
  constructor
  · intro hu
    rw [g4 hu]
    simp only [residual_zero (fun _ _ _ => rfl), add_zero]
  · intro hu
    rw [g5 hu]
    simp only [residual_zero (fun _ _ _ => rfl), add_zero]

/-- An antenna which receives nothing, neither signal nor noise, changes nothing: combining antennas never makes the result depend on
one of them. Here for one transmit stream. -/
theorem C69_dead_antenna (occ nRx : Nat) (y : Rx K) (h : Est K) (ks : List Nat) (hy : ∀ k, y nRx k = 0) (hh : ∀ t k, h nRx t k = 0) :
    pccSingle (nRx + 1) y h ks = pccSingle nRx y h ks ∧ pdcSingle occ (nRx + 1) y h ks = pdcSingle occ nRx y h ks := by
  have c0 : (0 : Cx K).conj = 0 := by ext <;> simp
  have key : ∀ off w, mrcStep (nRx + 1) y h off w = mrcStep nRx y h off w := by
    intro off w
    rw [mrcStep_eq, mrcStep_eq]
    refine List.map_congr_left fun j _ => ?_
    rw [Finset.sum_range_succ, Finset.sum_range_succ, hy, hh, c0, mul_zero', add_zero, add_zero]
  constructor
  · unfold pccSingle
    rw [combine_eq _ _ _ _ (fun a => by simp) (fun a => by simp), combine_eq _ _ _ _ (fun a => by simp) (fun a => by simp)]
    refine List.map_congr_left fun j hj => ?_
    rw [List.mem_range] at hj
    rw [Finset.sum_range_succ, Finset.sum_range_succ, getD_map _ ks 0 0 hj, getD_map _ ks 0 0 hj, hy, hh, c0, mul_zero', add_zero, add_zero]
  · unfold pdcSingle
    simp only [key]

omit [LinearOrder K] [IsStrictOrderedRing K] in
/-- With more than one spatial stream nothing is collected. -/
theorem C69_multiplexing_finding {nTs nSs : Nat} (h1 : nTs ≠ 1) (h2 : nSs ≠ 1) (occ nRx : Nat) (y : Nat → Rx K) (H : Nat → Est K) :
    ∀ (xs : List Symbol) (l idx : Nat), pdcLoop occ nTs nSs nRx y H xs l idx = .ok [] := by
  intro xs
  induction xs with
  | nil => intro l idx; rfl
  | cons x xs ih =>
    intro l idx
    have : visitPdc occ nTs nSs nRx (y l) (H l) idx x.pdc = .ok [] := by
      unfold visitPdc collectPdc
      rw [if_neg h1, if_neg h2, ite_self]
    unfold pdcLoop
    rw [this, Res.ok_bind, ih, Res.ok_bind]
    rfl

/-- The channel with two receive antennas, which are different, is usable for all cells of all packets: hypotheses of `C69_received` can be
met for each of them. The two values of a pair of symbols from what is received, with noise -/
theorem C69_example (nTs : Nat) (cells : List (Nat × Nat)) :
    Usable nTs 2 (fun l a t _ => (⟨l + 1, a + 2 * t⟩ : Cx ℚ)) cells ∧
    (∃ r, getPacketSizes exPacket = .ok (some r) ∧ r.tm.nSs = 1 ∧ r.tm.nTs = 8) ∧
    pxxDiversity 2 1 (fun _ k => if k = 3 then (⟨3, -4⟩ : Cx ℚ) else ⟨7, 1⟩) (fun _ t _ => if t = 0 then ⟨1, 0⟩ else ⟨0, 2⟩) 0 [3, 5] =
      .ok [⟨1, 2⟩, ⟨3, -1⟩] := by
  refine ⟨⟨fun i l k _ => ⟨0, by decide, ?_⟩, fun _ _ _ _ _ _ _ _ _ _ _ => rfl⟩, ⟨_, rfl, by decide +kernel⟩, by decide +kernel⟩
  have hne : ∀ z : ℚ, (⟨(l : ℚ) + 1, z⟩ : Cx ℚ) ≠ 0 := by
    intro z hz
    have := congrArg Cx.re hz
    simp only [Cx.zero_re] at this
    have h0 : (0 : ℚ) ≤ l := Nat.cast_nonneg l
    linarith
  split
  · exact hne _
  · exact Or.inl (hne _)

end Verif.Phy.Combine
