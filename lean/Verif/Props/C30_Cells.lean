import Verif.Lemma.CellsWalk
import Verif.Props.C26_MaxPacketSizes

set_option linter.unusedSimpArgs false

/-!
# C30: DRS, PCC and PDC cells never collide
-/

namespace Verif.Sp3.Cells

open Spec

theorem tm_streams {i : Nat} {t : Tm} (ht : getTm i = .ok t) : TsOk t.nEffTx := by
  unfold TsOk
  match i, ht with
  | 0, ht | 1, ht | 2, ht | 3, ht | 4, ht | 5, ht | 6, ht | 7, ht | 8, ht | 9, ht | 10, ht | 11, ht => cases ht; decide
  | _ + 12, ht => cases ht

/-- DRS of different transmit streams never share a cell. -/
theorem C30_streams {b nTs : Nat} (hn : nTs = 1 ∨ nTs = 2 ∨ nTs = 4 ∨ nTs = 8) {t t' l k : Nat} (h : DrsCell b nTs t l k)
    (h' : DrsCell b nTs t' l k) : t = t' := by
  obtain ⟨h1, n, p, hl, hp, hm, rfl⟩ := h
  obtain ⟨h1', n', p', hl', hp', hm', he⟩ := h'
  have := subc_inj he
  subst this
  unfold Spec.step at hl hl'
  have h4 : t / 4 = 0 ∨ t / 4 = 1 := by omega
  have h4' : t' / 4 = 0 ∨ t' / 4 = 1 := by omega
  rcases hn with rfl | rfl | rfl | rfl <;> simp at hl hl' <;> rcases h4 with h4 | h4 <;> rcases h4' with h4' | h4' <;> rw [h4] at hl <;>
    rw [h4'] at hl' <;> first | omega | (have : n = n' := by omega) <;> subst this <;> omega

/-- Every DRS is on an occupied subcarrier. -/
theorem C30_drs_occupied {b nTs t l k : Nat} (h : DrsCell b nTs t l k) : Occupied b k := by
  obtain ⟨-, n, p, -, hp, -, rfl⟩ := h
  exact subc_lt hp

theorem sum_mul (c : Nat) (f : Nat → Nat) (l : List Nat) : (l.map fun i => c * f i).sum = c * (l.map f).sum := by
  induction l with
  | nil => rfl
  | cons a t ih => rw [List.map_cons, List.sum_cons, ih, List.map_cons, List.sum_cons, Nat.mul_add]

theorem streams_df {u n e : Nat} (hu : u = 1 ∨ u = 2 ∨ u = 4 ∨ u = 8) (h5 : n % 5 = 0) (hn : 5 ≤ n) (he : TsOk e)
    (hd : drsImpossible u n e = false) : ((List.range' 1 (nDfSymb u n)).map (drsStreams e)).sum = e * drsSymb n e := by
  rw [sum_streams he]
  unfold drsSymb nDfSymb
  unfold drsImpossible at hd
  simp only [Bool.or_eq_false_iff, decide_eq_false_iff_not] at hd
  rcases he with rfl | rfl | rfl | rfl <;> rcases hu with rfl | rfl | rfl | rfl <;> simp at hd ⊢ <;> (try split) <;> omega

/-- For every packet for which there are packet sizes, the transmitter finds all cells without an error, and in every OFDM symbol
of the data field: DRS are exactly where they have to be; PCC is on occupied subcarriers without a DRS; PDC is on exactly
the occupied subcarriers with neither DRS nor PCC; nothing is listed twice. PCC has 98 cells, PDC and DRS have as many as
announced. -/
theorem C30_cells {q : PsDef} {r : PacketSizes} (h : getPacketSizes q = .ok (some r)) :
    ∃ syms, packet q.b r.tm.nEffTx r.nDfSymb = .ok syms ∧ syms.length = r.nDfSymb ∧
      (∀ i s, syms[i]? = some s →
        (∀ t k, (∃ ks, (t, ks) ∈ s.drs ∧ k ∈ ks) ↔ DrsCell q.b r.tm.nEffTx t (i + 1) k) ∧
        (∀ k ∈ s.pcc, Occupied q.b k ∧ ¬ ∃ t, DrsCell q.b r.tm.nEffTx t (i + 1) k) ∧
        (∀ k, k ∈ s.pdc ↔ Occupied q.b k ∧ (¬ ∃ t, DrsCell q.b r.tm.nEffTx t (i + 1) k) ∧ k ∉ s.pcc) ∧
        (∀ e ∈ s.drs, e.2.Pairwise (· < ·)) ∧ (s.drs.map Prod.fst).Pairwise (· < ·) ∧
        s.pcc.Pairwise (· < ·) ∧ s.pdc.Pairwise (· < ·)) ∧
      (syms.map fun s => s.pcc.length).sum = 98 ∧
      (syms.map fun s => s.pdc.length).sum = r.nPdcSubc ∧
      (syms.map fun s => (s.drs.map fun e => e.2.length).sum).sum = r.nDrsSubc := by
  obtain ⟨hv, tm, mcs, ht, hm, ⟨hd, hpdc, -, -⟩, rfl⟩ := getPacketSizes_some h
  obtain ⟨hu, hb, -, -, htm, -, -⟩ := valid_cases hv
  obtain ⟨hn5, -, hmod⟩ := nPacketSymb_range hv
  have hbok : bOk q.b = true := by rcases hb with h | h | h | h | h | h <;> rw [h] <;> rfl
  obtain ⟨-, -, -, -, hpos⟩ := luts hbok
  have hts := tm_streams ht
  change drsImpossible q.u (nPacketSymb q.u q.plt q.pl) tm.nEffTx = false at hd
  change q.b * cells q.u (nPacketSymb q.u q.plt q.pl) tm.nEffTx - 98 ≠ 0 at hpdc
  have e0 : (sizesOf q tm mcs).tm = tm := rfl
  have e1 : (sizesOf q tm mcs).nDfSymb = nDfSymb q.u (nPacketSymb q.u q.plt q.pl) := rfl
  have e2 : (sizesOf q tm mcs).nPdcSubc = q.b * cells q.u (nPacketSymb q.u q.plt q.pl) tm.nEffTx - 98 := rfl
  have e3 : (sizesOf q tm mcs).nDrsSubc = q.b * (14 * tm.nEffTx * drsSymb (nPacketSymb q.u q.plt q.pl) tm.nEffTx) := rfl
  rw [e0, e1, e2, e3]
  clear e0 e1 e2 e3
  generalize nPacketSymb q.u q.plt q.pl = n at hd hpdc hn5 hmod ⊢
  have hstr := streams_df hu hmod hn5 hts hd
  generalize tm.nEffTx = e at hd hpdc hts hstr ⊢
  obtain ⟨L, hL, hp⟩ := packet_ok hbok hts
  have hcells : q.b * cells q.u n e = 56 * q.b * nDfSymb q.u n - 14 * q.b * (e * drsSymb n e) := by
    unfold cells
    rw [Nat.mul_sub]
    congr 1 <;> ring
  rw [hcells] at hpdc ⊢
  have hsum := pdc_sum hpos hts hL (nDfSymb q.u n)
  have hin := pcc_inside hpos hts hL (n := nDfSymb q.u n) (by rw [hstr]; omega)
  have h98 := pcc_le_last hpos hL hin
  rw [h98, hstr] at hsum
  refine ⟨_, hp _, by simp, ?_, ?_, ?_, ?_⟩
  · intro i s hs
    rw [List.getElem?_map, Option.map_eq_some_iff] at hs
    obtain ⟨l, hl, rfl⟩ := hs
    have hl' : l = i + 1 := by
      obtain ⟨h1, h2⟩ := List.getElem?_eq_some_iff.mp hl
      rw [List.getElem_range'] at h2
      omega
    subst hl'
    dsimp only
    refine ⟨fun t k => drs_cell hbok t k, ?_, fun k => mem_pdcSpec hts hpos hL, ?_, ?_, pccSpec_sorted hL _, pdcSpec_sorted _ _ _ _⟩
    · intro k hk
      obtain ⟨p, hp, rfl, hx⟩ := (mem_pccSpec hpos hL).mp hk
      refine ⟨subc_lt hp, ?_⟩
      obtain ⟨l', p', -, -, -, hp', he, hpat⟩ := hL.cell _ hx
      have := subc_lt hp
      have := subc_lt hp'
      obtain ⟨rfl, h4⟩ := (lin_inj (by omega) (by omega)).mp he
      have := subc_inj (Nat.add_left_cancel h4)
      subst this
      rw [drs_pat hts hp, hpat]
      simp
    · rintro ⟨t, ks⟩ he
      obtain ⟨-, -, rfl⟩ := mem_drsSpec.mp he
      exact drsSubc_sorted hbok _ _
    · unfold drsSpec
      rw [List.map_map]
      have : (Prod.fst ∘ fun t => (t, drsSubc q.b (t % 4) ((i + 1 - 1 - t / 4) / nStep e))) = (id : Nat → Nat) := rfl
      rw [this, List.map_id]
      exact List.Pairwise.filter _ List.pairwise_lt_range
  · rw [List.map_map]
    have h0 : ∀ x ∈ L, 1 ≤ x / (64 * q.b) := by
      intro x hx
      obtain ⟨l, p, h1, -, -, hp, rfl, -⟩ := hL.cell x hx
      rw [symb_eq hpos hp]; exact h1
    rw [← h98, ← pcc_sum q.b L _ h0]
    congr 1
    exact List.map_congr_left fun l _ => pccSpec_length _ _ _
  · rw [List.map_map]
    have : ((List.range' 1 (nDfSymb q.u n)).map ((fun s : Symbol => s.pdc.length) ∘ fun l =>
        ⟨drsSpec q.b e l, pccSpec (64 * q.b) (4 * q.b) L l, pdcSpec q.b e L l⟩)) =
      (List.range' 1 (nDfSymb q.u n)).map fun l => (pdcSpec q.b e L l).length := rfl
    rw [this]
    omega
  · rw [List.map_map]
    have : ((List.range' 1 (nDfSymb q.u n)).map ((fun s : Symbol => (s.drs.map fun e => e.2.length).sum) ∘ fun l =>
        ⟨drsSpec q.b e l, pccSpec (64 * q.b) (4 * q.b) L l, pdcSpec q.b e L l⟩)) =
      (List.range' 1 (nDfSymb q.u n)).map fun l => 14 * q.b * drsStreams e l := by
      refine List.map_congr_left fun l hl => ?_
      exact drsSpec_count hbok hts (List.mem_range'_1.mp hl).1
    rw [this, sum_mul, hstr]
    ring

/-- A packet with eight transmit streams, whose DRS take two whole OFDM symbols; PCC follows in the third and fourth. -/
def exPacket : PsDef := ⟨8, 1, 0, 4, 10, 0, 2048⟩

theorem C30_example : (∃ r, getPacketSizes exPacket = .ok (some r) ∧ r.tm.nEffTx = 8 ∧ r.nDfSymb = 16 ∧ r.nPdcSubc = 574 ∧ r.nDrsSubc = 224) ∧
    DrsCell 1 8 5 12 3 := by
  constructor
  · refine ⟨_, rfl, ?_⟩
    decide +kernel
  · exact ⟨by decide, 1, 3, by decide, by decide, by decide, by decide⟩

end Verif.Sp3.Cells
