import Verif.Lemma.Modulate

/-!
# Transmit streams of a packet -/

namespace Verif.Phy.SymbolMap
open Verif.Sp3 Verif.Sp3.Cells Verif.Spec.SymbolMap

variable {K : Type} [Field K]

/-! ## Writes -/

theorem fold_miss : ∀ (ws : List (Nat × Nat × Cx K)) (st : Stage K) (t k : Nat), (∀ w ∈ ws, ¬ (t = w.1 ∧ k = w.2.1)) →
    ws.foldl write st t k = st t k := by
  intro ws
  induction ws with
  | nil => intro st t k _; rfl
  | cons w ws ih =>
    intro st t k h
    rw [List.foldl_cons, ih _ _ _ fun w hw => h w (List.mem_cons_of_mem _ hw)]
    unfold write
    rw [if_neg (h w List.mem_cons_self)]

theorem fold_hit : ∀ (ws : List (Nat × Nat × Cx K)) (st : Stage K) (t k : Nat) (v : Cx K),
    (∀ w ∈ ws, t = w.1 ∧ k = w.2.1 → w.2.2 = v) → (∃ w ∈ ws, t = w.1 ∧ k = w.2.1) → ws.foldl write st t k = v := by
  intro ws
  induction ws with
  | nil => rintro st t k v _ ⟨w, hw, _⟩; cases hw
  | cons w ws ih =>
    intro st t k v h hex
    rw [List.foldl_cons]
    by_cases hin : ∃ w ∈ ws, t = w.1 ∧ k = w.2.1
    · exact ih _ _ _ _ (fun w hw => h w (List.mem_cons_of_mem _ hw)) hin
    · have hmiss : ∀ w ∈ ws, ¬ (t = w.1 ∧ k = w.2.1) := fun w hw hc => hin ⟨w, hw, hc⟩
      rw [fold_miss _ _ _ _ hmiss]
      obtain ⟨w', hw', hc⟩ := hex
      rcases List.mem_cons.mp hw' with rfl | hw'
      · unfold write
        rw [if_pos hc]
        exact h _ List.mem_cons_self hc
      · exact absurd hc (hmiss _ hw')

/-- Writes of cells, a row of streams and values for each -/
def cellWrites (ks : List Nat) (row : Nat → List (Nat × Cx K)) : List (Nat × Nat × Cx K) :=
  (List.range ks.length).flatMap fun i => (row i).map fun e => (e.1, ks.getD i 0, e.2)

theorem mem_cellWrites {ks : List Nat} {row : Nat → List (Nat × Cx K)} {w : Nat × Nat × Cx K} : w ∈ cellWrites ks row ↔
    ∃ i, ∃ h : i < ks.length, (w.1, w.2.2) ∈ row i ∧ w.2.1 = ks[i] := by
  unfold cellWrites
  rw [List.mem_flatMap]
  constructor
  · rintro ⟨i, hi, hw⟩
    have hi := List.mem_range.mp hi
    obtain ⟨e, he, rfl⟩ := List.mem_map.mp hw
    exact ⟨i, hi, he, by simp [List.getD_eq_getElem?_getD, hi]⟩
  · rintro ⟨i, hi, hw, hk⟩
    refine ⟨i, List.mem_range.mpr hi, List.mem_map.mpr ⟨_, hw, ?_⟩⟩
    simp only [List.getD_eq_getElem?_getD, List.getElem?_eq_getElem hi, Option.getD_some, ← hk]

theorem cells_hit {ks : List Nat} (hk : ks.Nodup) {row : Nat → List (Nat × Cx K)} {i : Nat} (hi : i < ks.length) {t : Nat} {v : Cx K}
    (hv : (t, v) ∈ row i) (hu : ∀ v', (t, v') ∈ row i → v' = v) (st : Stage K) :
    (cellWrites ks row).foldl write st t ks[i] = v := by
  apply fold_hit
  · rintro ⟨t', k', v'⟩ hw ⟨h1, h2⟩
    obtain ⟨j, hj, hm, hkj⟩ := mem_cellWrites.mp hw
    dsimp only at h1 h2 hm hkj
    subst h1
    have : i = j := by rw [← hk.getElem_inj_iff (hi := hi) (hj := hj), h2, hkj]
    subst this
    exact hu _ hm
  · exact ⟨(t, ks[i], v), mem_cellWrites.mpr ⟨i, hi, hv, rfl⟩, rfl, rfl⟩

theorem cells_miss {ks : List Nat} (hk : ks.Nodup) {row : Nat → List (Nat × Cx K)} {i : Nat} (hi : i < ks.length) {t : Nat}
    (hu : ∀ v', (t, v') ∉ row i) (st : Stage K) : (cellWrites ks row).foldl write st t ks[i] = st t ks[i] := by
  apply fold_miss
  rintro ⟨t', k', v'⟩ hw ⟨h1, h2⟩
  obtain ⟨j, hj, hm, hkj⟩ := mem_cellWrites.mp hw
  dsimp only at h1 h2 hm hkj
  subst h1
  have : i = j := by rw [← hk.getElem_inj_iff (hi := hi) (hj := hj), h2, hkj]
  subst this
  exact hu _ hm

theorem cells_other {ks : List Nat} {row : Nat → List (Nat × Cx K)} {k : Nat} (hk : k ∉ ks) (t : Nat) (st : Stage K) :
    (cellWrites ks row).foldl write st t k = st t k := by
  apply fold_miss
  rintro ⟨t', k', v'⟩ hw ⟨h1, h2⟩
  obtain ⟨j, hj, hm, hkj⟩ := mem_cellWrites.mp hw
  dsimp only at h2 hkj
  exact hk (by rw [h2, hkj]; exact List.getElem_mem hj)

/-! ## Streams -/

theorem pair_eq {nTs : Nat} (hn : nTs = 2 ∨ nTs = 4 ∨ nTs = 8) (i : Nat) : pair nTs i = streams nTs (i / 2) := by
  unfold pair streams indexMat modulo
  generalize i / 2 = x
  rcases hn with rfl | rfl | rfl
  · simp [Nat.mod_one]
  · simp only [if_true, show ¬ (4 : Nat) = 2 by decide, if_false]
    have := Nat.mod_lt x (show 6 > 0 by decide)
    generalize x % 6 = m at *
    rcases (show m = 0 ∨ m = 1 ∨ m = 2 ∨ m = 3 ∨ m = 4 ∨ m = 5 by omega) with rfl | rfl | rfl | rfl | rfl | rfl <;> rfl
  · simp only [if_true, show ¬ (8 : Nat) = 2 by decide, show ¬ (8 : Nat) = 4 by decide, if_false]
    have := Nat.mod_lt x (show 12 > 0 by decide)
    generalize x % 12 = m at *
    rcases (show m = 0 ∨ m = 1 ∨ m = 2 ∨ m = 3 ∨ m = 4 ∨ m = 5 ∨ m = 6 ∨ m = 7 ∨ m = 8 ∨ m = 9 ∨ m = 10 ∨ m = 11 by omega) with
      rfl | rfl | rfl | rfl | rfl | rfl | rfl | rfl | rfl | rfl | rfl | rfl <;> rfl

theorem streams_ne {nTs : Nat} (hn : nTs = 2 ∨ nTs = 4 ∨ nTs = 8) (x : Nat) :
    (streams nTs x).1 ≠ (streams nTs x).2 ∧ (streams nTs x).1 < nTs ∧ (streams nTs x).2 < nTs := by
  unfold streams
  rcases hn with rfl | rfl | rfl
  · rw [if_pos rfl]; decide
  · simp only [if_true, show ¬ (4 : Nat) = 2 by decide, if_false]
    have := Nat.mod_lt x (show 6 > 0 by decide)
    generalize x % 6 = m at *
    rcases (show m = 0 ∨ m = 1 ∨ m = 2 ∨ m = 3 ∨ m = 4 ∨ m = 5 by omega) with rfl | rfl | rfl | rfl | rfl | rfl <;> decide
  · simp only [show ¬ (8 : Nat) = 2 by decide, show ¬ (8 : Nat) = 4 by decide, if_false]
    have := Nat.mod_lt x (show 12 > 0 by decide)
    generalize x % 12 = m at *
    rcases (show m = 0 ∨ m = 1 ∨ m = 2 ∨ m = 3 ∨ m = 4 ∨ m = 5 ∨ m = 6 ∨ m = 7 ∨ m = 8 ∨ m = 9 ∨ m = 10 ∨ m = 11 by omega) with
      rfl | rfl | rfl | rfl | rfl | rfl | rfl | rfl | rfl | rfl | rfl | rfl <;> decide

/-- Row of a cell with transmit diversity -/
def divRow (nTs base : Nat) (sym : Nat → Cx K) (i : Nat) : List (Nat × Cx K) :=
  [((pair nTs (base + i)).1, sym (base + i)), ((pair nTs (base + i)).2, flip sym (base + i))]

theorem flip_eq (sym : Nat → Cx K) (i : Nat) :
    flip sym i = if i % 2 = 0 then -(sym (i + 1)).conj else (sym (i - 1)).conj := by
  unfold flip
  split
  · ext <;> simp
  · ext <;> simp

theorem div_stage {nTs : Nat} (hn : nTs = 2 ∨ nTs = 4 ∨ nTs = 8) {ks : List Nat} (hk : ks.Nodup) (base : Nat) (sym : Nat → Cx K)
    (st : Stage K) (i : Nat) (hi : i < ks.length) (hst : ∀ t, st t ks[i] = 0) (t : Nat) :
    (cellWrites ks (divRow nTs base sym)).foldl write st t ks[i] = diversity nTs sym (base + i) t := by
  obtain ⟨hne, -, -⟩ := streams_ne hn ((base + i) / 2)
  unfold diversity
  split
  · rename_i h1
    apply cells_hit hk hi
    · unfold divRow
      rw [pair_eq hn, h1]
      exact List.mem_cons_self
    · intro v' hv'
      unfold divRow at hv'
      rw [pair_eq hn] at hv'
      simp only [List.mem_cons, Prod.mk.injEq, List.not_mem_nil, or_false] at hv'
      rcases hv' with ⟨-, h⟩ | ⟨h, -⟩
      · exact h
      · exact absurd (h1.symm.trans h) hne
  · split
    · rename_i h1 h2
      rw [← flip_eq]
      apply cells_hit hk hi
      · unfold divRow
        rw [pair_eq hn, h2]
        exact List.mem_cons_of_mem _ List.mem_cons_self
      · intro v' hv'
        unfold divRow at hv'
        rw [pair_eq hn] at hv'
        simp only [List.mem_cons, Prod.mk.injEq, List.not_mem_nil, or_false] at hv'
        rcases hv' with ⟨h, -⟩ | ⟨-, h⟩
        · exact absurd h h1
        · exact h
    · rename_i h1 h2
      rw [cells_miss hk hi]
      · exact hst t
      · intro v' hv'
        unfold divRow at hv'
        rw [pair_eq hn] at hv'
        simp only [List.mem_cons, Prod.mk.injEq, List.not_mem_nil, or_false] at hv'
        rcases hv' with ⟨h, -⟩ | ⟨h, -⟩
        · exact h1 h
        · exact h2 h

/-- Row of a cell with spatial multiplexing -/
def muxRow (nSs base : Nat) (sym : Nat → Cx K) (i : Nat) : List (Nat × Cx K) :=
  (List.range nSs).map fun j => (j, sym ((base + i) * nSs + j))

theorem mux_stage {nSs : Nat} {ks : List Nat} (hk : ks.Nodup) (base : Nat) (sym : Nat → Cx K)
    (st : Stage K) (i : Nat) (hi : i < ks.length) (hst : ∀ t, st t ks[i] = 0) (t : Nat) :
    (cellWrites ks (muxRow nSs base sym)).foldl write st t ks[i] = multiplexed nSs sym (base + i) t := by
  have hmem : ∀ v, (t, v) ∈ muxRow nSs base sym i ↔ t < nSs ∧ v = sym ((base + i) * nSs + t) := by
    intro v
    unfold muxRow
    simp only [List.mem_map, List.mem_range, Prod.mk.injEq]
    constructor
    · rintro ⟨j, hj, rfl, rfl⟩; exact ⟨hj, rfl⟩
    · rintro ⟨hj, rfl⟩; exact ⟨t, hj, rfl, rfl⟩
  unfold multiplexed
  split
  · rename_i h
    exact cells_hit hk hi ((hmem _).mpr ⟨h, rfl⟩) (fun v' hv' => ((hmem _).mp hv').2) st
  · rename_i h
    rw [cells_miss hk hi (fun v' hv' => h ((hmem _).mp hv').1)]
    exact hst t

/-! ## One OFDM symbol -/

/-- The cells of an OFDM symbol are different from each other and their numbers are even. -/
structure SymOk (x : Symbol) : Prop where
  pcc : x.pcc.Nodup
  pdc : x.pdc.Nodup
  pccPdc : ∀ k ∈ x.pcc, k ∉ x.pdc
  pccDrs : ∀ k ∈ x.pcc, ∀ e ∈ x.drs, k ∉ e.2
  pdcDrs : ∀ k ∈ x.pdc, ∀ e ∈ x.drs, k ∉ e.2
  evenPcc : x.pcc.length % 2 = 0
  evenPdc : x.pdc.length % 2 = 0

structure CfgOk (c : Cfg) (d : List Nat) (total : Nat) : Prop where
  ts : c.nTs = 1 ∨ c.nTs = 2 ∨ c.nTs = 4 ∨ c.nTs = 8
  ss : 0 < c.nSs
  bps : c.nBps = 1 ∨ c.nBps = 2 ∨ c.nBps = 4 ∨ c.nBps = 6 ∨ c.nBps = 8
  table : c.tableBps = c.nBps
  div : c.diversity = true → c.nSs = 1 ∧ (c.nTs = 2 ∨ c.nTs = 4 ∨ c.nTs = 8)
  G : c.G = total * c.nSs * c.nBps
  range : c.G < 4294967296
  bytes : ∀ x ∈ d, x < 256
  len : c.G ≤ 8 * d.length

/-- The symbols of the PDC -/
def pdcSym (c : Cfg) (point : Nat → Cx K) (d : List Nat) (j : Nat) : Cx K := point (number d (j * c.nBps) c.nBps)

/-- State between two OFDM symbols: `P` cells of the PCC and `C` of the PDC have been used. -/
structure Inv (c : Cfg) (sym : Nat → Cx K) (P C D : Nat) (s : Tx K) : Prop where
  pcc : s.pccIdx = P
  drs : s.drsIdx = D
  subc : s.subcIdx = C * c.nSs
  resid : s.resid ≤ 23
  buf : s.buf = (List.range s.resid).map fun j => sym (C * c.nSs + j)
  bits : s.bitsIdx = (C * c.nSs + s.resid) * c.nBps
  le : s.bitsIdx ≤ c.G
  align : s.bitsIdx % 24 = 0 ∨ s.bitsIdx = c.G
  first : C = 0 → s.resid = 0
  even : C % 2 = 0

theorem sub32_eq {a b : Nat} (h : b ≤ a) (ha : a < 4294967296) : sub32 a b = a - b := by
  unfold sub32
  omega

theorem runPdc_ok {c : Cfg} {point : Nat → Cx K} {d : List Nat} {total : Nat} (hc : CfgOk c d total) {P C D : Nat} {s : Tx K}
    (hs : Inv c (pdcSym c point d) P C D s) {ks : List Nat} (hk : ks.Nodup) (heven : ks.length % 2 = 0) (hne : 0 < ks.length)
    (hsize : 24 ≤ ks.length ∨ C = 0) (htot : C + ks.length ≤ total) (hcap : c.nSs * ks.length + 23 ≤ c.cap) :
    ∃ s', runPdc c point d s ks = .ok s' ∧ Inv c (pdcSym c point d) P (C + ks.length) D s' ∧
      ((∀ k ∈ ks, ∀ t, s.stage t k = 0) → ∀ i (hi : i < ks.length) t, s'.stage t ks[i] =
        if c.diversity then diversity c.nTs (pdcSym c point d) (C + i) t else multiplexed c.nSs (pdcSym c point d) (C + i) t) ∧
      (∀ t k, k ∉ ks → s'.stage t k = s.stage t k) := by
  have hb0 : 0 < c.nBps := by rcases hc.bps with h | h | h | h | h <;> omega
  have h24 : 24 % c.nBps = 0 := by rcases hc.bps with h | h | h | h | h <;> rw [h]
  have hss := hc.ss
  -- sizes
  have hnle : (C + ks.length) * c.nSs ≤ total * c.nSs := Nat.mul_le_mul_right _ htot
  have hGle : total * c.nSs ≤ c.G := by rw [hc.G]; exact Nat.le_mul_of_pos_right _ hb0
  have hrange := hc.range
  have hn1 : ks.length ≤ c.nSs * ks.length := Nat.le_mul_of_pos_left _ hss
  have hr : s.resid ≤ c.nSs * ks.length := by
    rcases hsize with h | h
    · have := hs.resid; omega
    · rw [hs.first h]; omega
  have hmulc : (C + ks.length) * c.nSs = C * c.nSs + c.nSs * ks.length := by ring
  have hsub1 : sub32 (c.nSs * ks.length) s.resid = c.nSs * ks.length - s.resid := sub32_eq hr (by omega)
  have hsub2 : sub32 c.G s.bitsIdx = c.G - s.bitsIdx := sub32_eq hs.le hrange
  -- the number of new symbols
  obtain ⟨cnt, hcnt, hproc, hge, hle, halign⟩ : ∃ cnt, min (ceilDiv ((c.nSs * ks.length - s.resid) * c.nBps) 24 * 24) (c.G - s.bitsIdx) = cnt * c.nBps ∧
      s.bitsIdx + cnt * c.nBps ≤ c.G ∧ c.nSs * ks.length ≤ s.resid + cnt ∧ s.resid + cnt ≤ c.nSs * ks.length + 23 ∧
      ((s.bitsIdx + cnt * c.nBps) % 24 = 0 ∨ s.bitsIdx + cnt * c.nBps = c.G) := by
    obtain ⟨f, hf⟩ : ∃ f, 24 = f * c.nBps := ⟨24 / c.nBps, (Nat.div_mul_cancel (Nat.dvd_of_mod_eq_zero h24)).symm⟩
    have hrest : c.G - s.bitsIdx = (total * c.nSs - (C * c.nSs + s.resid)) * c.nBps := by
      rw [hc.G, hs.bits, Nat.sub_mul]
    generalize hx : (c.nSs * ks.length - s.resid) * c.nBps = x
    have hq1 : x ≤ ceilDiv x 24 * 24 := by unfold ceilDiv; omega
    have hq2 : ceilDiv x 24 * 24 ≤ x + 23 := by unfold ceilDiv; omega
    rcases Nat.le_total (ceilDiv x 24 * 24) (c.G - s.bitsIdx) with hm | hm
    · rw [Nat.min_eq_left hm]
      have hmul : ceilDiv x 24 * 24 = (ceilDiv x 24 * f) * c.nBps := by
        rw [Nat.mul_assoc, ← hf]
      rw [hmul] at hq1 hq2 hm ⊢
      generalize ceilDiv x 24 * f = cnt at hq1 hq2 hm hmul ⊢
      refine ⟨cnt, rfl, by have := hs.le; omega, ?_, ?_, ?_⟩
      · rw [← hx] at hq1
        have := Nat.le_of_mul_le_mul_right hq1 hb0
        omega
      · rw [← hx] at hq2
        have : cnt * c.nBps < (c.nSs * ks.length - s.resid + 24) * c.nBps := by
          rw [Nat.add_mul]
          have : 24 ≤ 24 * c.nBps := Nat.le_mul_of_pos_right _ hb0
          omega
        have := Nat.lt_of_mul_lt_mul_right this
        omega
      · rcases hs.align with ha | ha
        · left; omega
        · right; have := hs.le; omega
    · rw [Nat.min_eq_right hm, hrest]
      refine ⟨_, rfl, by have := hs.le; omega, ?_, ?_, Or.inr (by have := hs.le; omega)⟩
      · have := hs.le
        rw [hs.bits, hc.G] at this
        have := Nat.le_of_mul_le_mul_right this hb0
        omega
      · rw [hrest] at hm
        have h1 : (total * c.nSs - (C * c.nSs + s.resid)) * c.nBps < (c.nSs * ks.length - s.resid + 24) * c.nBps := by
          rw [Nat.add_mul, hx]
          have : 24 ≤ 24 * c.nBps := Nat.le_mul_of_pos_right _ hb0
          omega
        have := Nat.lt_of_mul_lt_mul_right h1
        omega
  -- the new symbols
  have hidx : modulate c.tableBps d (s.bitsIdx / 8) (cnt * c.nBps) =
      .ok ((List.range cnt).map fun j => number d (8 * (s.bitsIdx / 8) + j * c.nBps) c.nBps) := by
    have hlen := hc.len
    have := modulate_ok (bps := c.tableBps) (by rw [hc.table]; exact hc.bps) hc.bytes (o := s.bitsIdx / 8) (n := cnt * c.nBps)
      (by rw [hc.table]; exact Nat.mul_mod_left _ _) (by omega)
    rw [this, hc.table, Nat.mul_div_cancel _ hb0]
  have hnew : ((List.range cnt).map fun j => number d (8 * (s.bitsIdx / 8) + j * c.nBps) c.nBps).map point =
      (List.range cnt).map fun j => pdcSym c point d (C * c.nSs + s.resid + j) := by
    rw [List.map_map]
    refine List.map_congr_left fun j hj => ?_
    have hj := List.mem_range.mp hj
    have h8 : 8 * (s.bitsIdx / 8) = s.bitsIdx := by
      rcases hs.align with ha | ha
      · omega
      · exfalso
        have : 0 < cnt * c.nBps := Nat.mul_pos (by omega) hb0
        omega
    show point (number d (8 * (s.bitsIdx / 8) + j * c.nBps) c.nBps) = point _
    rw [h8, hs.bits, ← Nat.add_mul]
  have hbuf : s.buf ++ ((List.range cnt).map fun j => number d (8 * (s.bitsIdx / 8) + j * c.nBps) c.nBps).map point =
      (List.range (s.resid + cnt)).map fun j => pdcSym c point d (C * c.nSs + j) := by
    rw [hnew, hs.buf, List.range_add, List.map_append, List.map_map]
    congr 1
    refine List.map_congr_left fun j _ => ?_
    show pdcSym c point d _ = pdcSym c point d _
    rw [Nat.add_assoc]
  have hget : ∀ j < s.resid + cnt, ((List.range (s.resid + cnt)).map fun j => pdcSym c point d (C * c.nSs + j)).getD j 0 =
      pdcSym c point d (C * c.nSs + j) := by
    intro j hj
    simp [List.getD_eq_getElem?_getD, hj]
  have hres : sub32 (s.resid + cnt) (c.nSs * ks.length) = s.resid + cnt - c.nSs * ks.length := by
    refine sub32_eq hge ?_
    rw [hs.bits, ← Nat.add_mul] at hproc
    have := Nat.le_mul_of_pos_right (C * c.nSs + s.resid + cnt) hb0
    omega
  have hwrites : pdcWrites c (s.buf ++ ((List.range cnt).map fun j => number d (8 * (s.bitsIdx / 8) + j * c.nBps) c.nBps).map point) s.subcIdx ks =
      cellWrites ks (if c.diversity then divRow c.nTs C (pdcSym c point d) else muxRow c.nSs C (pdcSym c point d)) := by
    rw [hbuf]
    unfold pdcWrites cellWrites
    by_cases hdv : c.diversity = true
    · obtain ⟨hs1, -⟩ := hc.div hdv
      have hpar : s.resid + cnt ≥ ks.length := by rw [hs1] at hge; omega
      rw [if_pos hdv, if_pos hdv]
      apply List.flatMap_congr
      intro i hi
      have hi := List.mem_range.mp hi
      have hmul : C * c.nSs = C := by rw [hs1, Nat.mul_one]
      rw [hs.subc]
      unfold divRow
      simp only [List.map_cons, List.map_nil]
      rw [hget i (by omega)]
      have hfl : flip (fun j => ((List.range (s.resid + cnt)).map fun j => pdcSym c point d (C * c.nSs + j)).getD j 0) i =
          flip (pdcSym c point d) (C + i) := by
        unfold flip
        have heC := hs.even
        dsimp only
        by_cases h2 : i % 2 = 0
        · rw [if_pos h2, if_pos (show (C + i) % 2 = 0 by omega), hget (i + 1) (by omega), hmul, Nat.add_assoc]
        · rw [if_neg h2, if_neg (show ¬ (C + i) % 2 = 0 by omega), hget (i - 1) (by omega), hmul,
            show C + (i - 1) = C + i - 1 by omega]
      rw [hfl, hmul]
    · rw [if_neg hdv, if_neg hdv]
      apply List.flatMap_congr
      intro i hi
      have hi := List.mem_range.mp hi
      unfold muxRow
      rw [List.map_map]
      refine List.map_congr_left fun j hj => ?_
      have hj := List.mem_range.mp hj
      have : i * c.nSs + j < c.nSs * ks.length := by
        have : (i + 1) * c.nSs ≤ ks.length * c.nSs := Nat.mul_le_mul_right _ hi
        rw [Nat.add_mul, Nat.mul_comm ks.length] at this
        omega
      show (_, _, _) = (_, _, _)
      rw [hget _ (by omega)]
      congr 3
      ring
  have hdrop : (((List.range (s.resid + cnt)).map fun j => pdcSym c point d (C * c.nSs + j)).drop (c.nSs * ks.length)).take
      (s.resid + cnt - c.nSs * ks.length) =
      (List.range (s.resid + cnt - c.nSs * ks.length)).map fun j => pdcSym c point d ((C + ks.length) * c.nSs + j) := by
    rw [List.take_of_length_le (by simp)]
    apply List.ext_getElem
    · simp
    · intro j h1 h2
      simp only [List.getElem_drop, List.getElem_map, List.getElem_range]
      rw [hmulc, Nat.add_assoc]
  have hbits : s.bitsIdx + cnt * c.nBps = ((C + ks.length) * c.nSs + (s.resid + cnt - c.nSs * ks.length)) * c.nBps := by
    rw [hs.bits, ← Nat.add_mul]
    congr 1
    omega
  refine ⟨{ s with
      stage := (cellWrites ks (if c.diversity then divRow c.nTs C (pdcSym c point d) else muxRow c.nSs C (pdcSym c point d))).foldl write s.stage
      bitsIdx := s.bitsIdx + cnt * c.nBps
      subcIdx := s.subcIdx + c.nSs * ks.length
      resid := s.resid + cnt - c.nSs * ks.length
      buf := (List.range (s.resid + cnt - c.nSs * ks.length)).map fun j => pdcSym c point d ((C + ks.length) * c.nSs + j) }, ?_, ?_, ?_, ?_⟩
  · unfold runPdc
    dsimp only
    have ha : (s.bitsIdx < c.G ∧ s.bitsIdx % 8 = 0) ∨ s.bitsIdx = c.G := by
      have := hs.le
      rcases hs.align with ha | ha <;> omega
    rw [hsub1, hsub2, hcnt, hidx]
    rw [decide_eq_true (Nat.mul_mod_left _ _), Res.assert_true, Res.ok_bind, decide_eq_true ha, Res.assert_true, Res.ok_bind, Res.ok_bind]
    rw [List.length_map, List.length_range, if_neg (by omega), decide_eq_true (Nat.mul_div_cancel _ hb0), Res.assert_true, Res.ok_bind]
    rw [if_neg, hres, decide_eq_true (by omega), Res.assert_true, Res.ok_bind, hwrites, hbuf, hdrop]
    rintro ⟨hdv, hodd⟩
    rw [(hc.div hdv).1] at hodd
    omega
  · exact ⟨hs.pcc, hs.drs, by show s.subcIdx + _ = _; rw [hs.subc, hmulc], by show s.resid + cnt - _ ≤ 23; omega, rfl, hbits, hproc, halign,
      fun h => by omega, by have := hs.even; omega⟩
  · intro hst i hi t
    dsimp only
    by_cases hdv : c.diversity = true
    · rw [if_pos hdv, if_pos hdv]
      exact div_stage (hc.div hdv).2 hk C _ s.stage i hi (fun t => hst _ (List.getElem_mem hi) t) t
    · rw [if_neg hdv, if_neg hdv]
      exact mux_stage hk C _ s.stage i hi (fun t => hst _ (List.getElem_mem hi) t) t
  · intro t k hk'
    exact cells_other hk' t s.stage

theorem runPcc_ok {c : Cfg} (hts : c.nTs = 1 ∨ c.nTs = 2 ∨ c.nTs = 4 ∨ c.nTs = 8) {psym : Nat → Cx K} {pcc : List (Cx K)}
    (hp : pcc = (List.range 98).map psym) (s : Tx K) {ks : List Nat} (hk : ks.Nodup) (heven : s.pccIdx % 2 = 0) (hel : ks.length % 2 = 0)
    (htot : s.pccIdx + ks.length ≤ 98) (hst : ∀ t k, s.stage t k = 0) :
    ∃ st, runPcc c pcc s ks = .ok { s with stage := st, pccIdx := s.pccIdx + ks.length } ∧
      (∀ i (hi : i < ks.length) t, st t ks[i] =
        if c.nTs = 1 then multiplexed 1 psym (s.pccIdx + i) t else diversity c.nTs psym (s.pccIdx + i) t) ∧
      (∀ t k, k ∉ ks → st t k = 0) := by
  have hget : ∀ j < 98, pcc.getD j 0 = psym j := by
    intro j hj
    rw [hp]
    simp [List.getD_eq_getElem?_getD, hj]
  unfold runPcc
  rw [if_neg (by omega)]
  by_cases h1 : c.nTs = 1
  · have hw : ((List.range ks.length).map fun i => (0, ks.getD i 0, pcc.getD (s.pccIdx + i) 0)) = cellWrites ks (muxRow 1 s.pccIdx psym) := by
      unfold cellWrites muxRow
      rw [List.map_eq_flatMap]
      apply List.flatMap_congr
      intro i hi
      have hi := List.mem_range.mp hi
      rw [hget _ (by omega)]
      simp
    refine ⟨_, by rw [if_pos h1], ?_, ?_⟩
    · intro i hi t
      rw [hw, if_pos h1]
      exact mux_stage hk _ _ s.stage i hi (fun t => hst _ _) t
    · intro t k hk'
      rw [hw, cells_other hk', hst]
  · have hw : ((List.range ks.length).flatMap fun i =>
        [((pair c.nTs (s.pccIdx + i)).1, ks.getD i 0, pcc.getD (s.pccIdx + i) 0),
          ((pair c.nTs (s.pccIdx + i)).2, ks.getD i 0, flip (fun j => pcc.getD j 0) (s.pccIdx + i))]) = cellWrites ks (divRow c.nTs s.pccIdx psym) := by
      unfold cellWrites divRow
      apply List.flatMap_congr
      intro i hi
      have hi := List.mem_range.mp hi
      simp only [List.map_cons, List.map_nil]
      have hfl : flip (fun j => pcc.getD j 0) (s.pccIdx + i) = flip psym (s.pccIdx + i) := by
        unfold flip
        dsimp only
        by_cases h2 : (s.pccIdx + i) % 2 = 0
        · rw [if_pos h2, if_pos h2, hget _ (by omega)]
        · rw [if_neg h2, if_neg h2, hget _ (by omega)]
      rw [hget _ (by omega), hfl]
    refine ⟨_, by rw [if_neg h1], ?_, ?_⟩
    · intro i hi t
      rw [hw, if_neg h1]
      exact div_stage (by rcases hts with h | h; exact absurd h h1; exact h) hk _ _ s.stage i hi (fun t => hst _ _) t
    · intro t k hk'
      rw [hw, cells_other hk', hst]

/-- The transmit streams of OFDM symbol `x`: `P` cells of the PCC and `C` of the PDC come before it. -/
structure StageOk (c : Cfg) (psym sym : Nat → Cx K) (y : Nat → Nat → Cx K) (P C : Nat) (x : Symbol) (st : Stage K) : Prop where
  pcc : ∀ i (hi : i < x.pcc.length) t, st t x.pcc[i] =
    if c.nTs = 1 then multiplexed 1 psym (P + i) t else diversity c.nTs psym (P + i) t
  pdc : ∀ i (hi : i < x.pdc.length) t, st t x.pdc[i] =
    if c.diversity then diversity c.nTs sym (C + i) t else multiplexed c.nSs sym (C + i) t
  drs : ∀ e ∈ x.drs, ∀ k ∈ e.2, st e.1 k = y e.1 k
  other : ∀ t k, k ∉ x.pcc → k ∉ x.pdc → (∀ e ∈ x.drs, t = e.1 → k ∉ e.2) → st t k = 0

theorem txSymbol_ok {c : Cfg} {point psym : Nat → Cx K} {d : List Nat} {total : Nat} (hc : CfgOk c d total) {pcc : List (Cx K)}
    (hp : pcc = (List.range 98).map psym) (y : Nat → Nat → Cx K) {P C D : Nat} {s : Tx K} (hs : Inv c (pdcSym c point d) P C D s)
    (hP : P % 2 = 0) {x : Symbol} (hx : SymOk x)
    (hsize : x.pdc.length = 0 ∨ 24 ≤ x.pdc.length ∨ C = 0) (hptot : P + x.pcc.length ≤ 98) (htot : C + x.pdc.length ≤ total)
    (hcap : c.nSs * x.pdc.length + 23 ≤ c.cap) :
    ∃ s', txSymbol c pcc point y d s x = .ok s' ∧
      Inv c (pdcSym c point d) (P + x.pcc.length) (C + x.pdc.length) (D + (x.drs.map fun e => e.2.length).sum) s' ∧
      StageOk c psym (pdcSym c point d) y P C x s'.stage := by
  obtain ⟨st1, e1, hpcc, hother1⟩ : ∃ st, zeroPcc c pcc s x.pcc =
      Res.ok { s with stage := st, pccIdx := P + x.pcc.length } ∧
      (∀ i (hi : i < x.pcc.length) t, st t x.pcc[i] = if c.nTs = 1 then multiplexed 1 psym (P + i) t else diversity c.nTs psym (P + i) t) ∧
      (∀ t k, k ∉ x.pcc → st t k = 0) := by
    unfold zeroPcc
    by_cases he : x.pcc = []
    · refine ⟨fun _ _ => 0, ?_, ?_, fun _ _ _ => rfl⟩
      · rw [if_pos he, he, List.length_nil, Nat.add_zero, ← hs.pcc]
      · intro i hi; rw [he] at hi; exact absurd hi (Nat.not_lt_zero _)
    · rw [if_neg he]
      have := runPcc_ok hc.ts hp { s with stage := fun _ _ => 0 } hx.pcc (by show s.pccIdx % 2 = 0; rw [hs.pcc]; exact hP) hx.evenPcc
        (by show s.pccIdx + _ ≤ _; rw [hs.pcc]; exact hptot) (fun _ _ => rfl)
      rw [show P = s.pccIdx from hs.pcc.symm]
      exact this
  have hdrsmem : ∀ w ∈ (x.drs.flatMap fun e => e.2.map fun k => (e.1, k, y e.1 k)), ∃ e ∈ x.drs, w.1 = e.1 ∧ w.2.1 ∈ e.2 ∧ w.2.2 = y w.1 w.2.1 := by
    intro w hw
    obtain ⟨e, he, hw⟩ := List.mem_flatMap.mp hw
    obtain ⟨k, hk, rfl⟩ := List.mem_map.mp hw
    exact ⟨e, he, rfl, hk, rfl⟩
  generalize hs2 : runDrs y { s with stage := st1, pccIdx := P + x.pcc.length } x.drs = s2
  have hstage2 : s2.stage = (x.drs.flatMap fun e => e.2.map fun k => (e.1, k, y e.1 k)).foldl write st1 := by rw [← hs2]; rfl
  have hmiss2 : ∀ t k, (∀ e ∈ x.drs, t = e.1 → k ∉ e.2) → s2.stage t k = st1 t k := by
    intro t k h
    rw [hstage2]
    apply fold_miss
    rintro w hw ⟨h1, h2⟩
    obtain ⟨e, he, h3, h4, -⟩ := hdrsmem w hw
    exact h e he (h1.trans h3) (h2 ▸ h4)
  have hhit2 : ∀ e ∈ x.drs, ∀ k ∈ e.2, s2.stage e.1 k = y e.1 k := by
    intro e he k hk
    rw [hstage2]
    apply fold_hit
    · rintro w hw ⟨h1, h2⟩
      obtain ⟨e', he', h3, h4, h5⟩ := hdrsmem w hw
      rw [h5, ← h1, ← h2]
    · exact ⟨_, List.mem_flatMap.mpr ⟨e, he, List.mem_map.mpr ⟨k, hk, rfl⟩⟩, rfl, rfl⟩
  have hinv2 : Inv c (pdcSym c point d) (P + x.pcc.length) C (D + (x.drs.map fun e => e.2.length).sum) s2 := by
    rw [← hs2]
    exact ⟨rfl, by show s.drsIdx + _ = _; rw [hs.drs], hs.subc, hs.resid, hs.buf, hs.bits, hs.le, hs.align, hs.first, hs.even⟩
  have htx : txSymbol c pcc point y d s x = if x.pdc = [] then .ok s2 else runPdc c point d s2 x.pdc := by
    unfold txSymbol
    rw [e1, Res.ok_bind, hs2]
  by_cases he : x.pdc = []
  · refine ⟨s2, by rw [htx, if_pos he], ?_, ?_, ?_, hhit2, ?_⟩
    · rw [he]; exact hinv2
    · intro i hi t
      rw [hmiss2 _ _ (fun e he' _ => hx.pccDrs _ (List.getElem_mem hi) e he'), hpcc i hi t]
    · intro i hi; rw [he] at hi; exact absurd hi (Nat.not_lt_zero _)
    · intro t k h1 _ h3
      rw [hmiss2 _ _ h3, hother1 _ _ h1]
  · have hpos : 0 < x.pdc.length := List.length_pos_iff.mpr he
    obtain ⟨s3, e3, hinv3, hhit3, hmiss3⟩ := runPdc_ok hc hinv2 hx.pdc hx.evenPdc hpos (by omega) htot hcap
    refine ⟨s3, by rw [htx, if_neg he, e3], hinv3, ?_, ?_, ?_, ?_⟩
    · intro i hi t
      rw [hmiss3 _ _ (hx.pccPdc _ (List.getElem_mem hi)), hmiss2 _ _ (fun e he' _ => hx.pccDrs _ (List.getElem_mem hi) e he'), hpcc i hi t]
    · refine hhit3 ?_
      intro k hk t
      rw [hmiss2 _ _ (fun e he' _ => hx.pdcDrs _ hk e he'), hother1 _ _ (fun h => hx.pccPdc _ h hk)]
    · intro e he' k hk
      rw [hmiss3 _ _ (fun h => hx.pdcDrs _ h e he' hk), hhit2 e he' k hk]
    · intro t k h1 h2 h3
      rw [hmiss3 _ _ h2, hmiss2 _ _ h3, hother1 _ _ h1]

/-! ## The packet -/

/-- Transmit streams of successive OFDM symbols -/
def AllOk (c : Cfg) (psym sym : Nat → Cx K) (y : Nat → Nat → Nat → Cx K) : Nat → Nat → Nat → List Symbol → List (Stage K) → Prop
  | _, _, _, [], [] => True
  | P, C, l, x :: xs, st :: sts => StageOk c psym sym (y l) P C x st ∧ AllOk c psym sym y (P + x.pcc.length) (C + x.pdc.length) (l + 1) xs sts
  | _, _, _, _, _ => False

/-- Condition on the number of cells of the PDC: small numbers only at the start -/
def SizesOk : Nat → List Symbol → Prop
  | _, [] => True
  | C, x :: xs => (x.pdc.length = 0 ∨ 24 ≤ x.pdc.length ∨ C = 0) ∧ SizesOk (C + x.pdc.length) xs

theorem txLoop_ok {c : Cfg} {point psym : Nat → Cx K} {d : List Nat} {total : Nat} (hc : CfgOk c d total) {pcc : List (Cx K)}
    (hp : pcc = (List.range 98).map psym) (y : Nat → Nat → Nat → Cx K) : ∀ (xs : List Symbol) (l P C D : Nat) (s : Tx K),
    Inv c (pdcSym c point d) P C D s → P % 2 = 0 → (∀ x ∈ xs, SymOk x) → SizesOk C xs →
    P + (xs.map fun x => x.pcc.length).sum ≤ 98 → C + (xs.map fun x => x.pdc.length).sum ≤ total →
    (∀ x ∈ xs, c.nSs * x.pdc.length + 23 ≤ c.cap) →
    ∃ sts s', txLoop c pcc point y d xs l s = .ok (sts, s') ∧
      Inv c (pdcSym c point d) (P + (xs.map fun x => x.pcc.length).sum) (C + (xs.map fun x => x.pdc.length).sum)
        (D + (xs.map fun x => (x.drs.map fun e => e.2.length).sum).sum) s' ∧
      AllOk c psym (pdcSym c point d) y P C l xs sts := by
  intro xs
  induction xs with
  | nil =>
    intro l P C D s hs _ _ _ _ _ _
    exact ⟨[], s, rfl, hs, trivial⟩
  | cons x xs ih =>
    intro l P C D s hs hP hx hsz hpt hct hcap
    simp only [List.map_cons, List.sum_cons] at hpt hct ⊢
    obtain ⟨s1, e1, hinv1, hst⟩ := txSymbol_ok hc hp (y l) hs hP (hx x List.mem_cons_self) hsz.1 (by omega) (by omega) (hcap x List.mem_cons_self)
    have hev := (hx x List.mem_cons_self).evenPcc
    obtain ⟨sts, s2, e2, hinv2, hall⟩ := ih (l + 1) _ _ _ s1 hinv1 (by omega) (fun z hz => hx z (List.mem_cons_of_mem _ hz)) hsz.2 (by omega) (by omega)
      (fun z hz => hcap z (List.mem_cons_of_mem _ hz))
    refine ⟨s1.stage :: sts, s2, ?_, ?_, hst, hall⟩
    · show (txSymbol c pcc point (y l) d s x >>= _) = _
      rw [e1, Res.ok_bind, e2, Res.ok_bind]
    · rw [← Nat.add_assoc, ← Nat.add_assoc, ← Nat.add_assoc]
      exact hinv2

end Verif.Phy.SymbolMap
