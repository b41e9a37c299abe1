import Verif.Lemma.Combine

/-!
# Combining: all OFDM symbols of a packet -/

namespace Verif.Phy.Combine
open Verif.Sp3 Verif.Sp3.Cells Verif.Phy.SymbolMap Verif.Spec.SymbolMap Verif.Spec.Combine

variable {K : Type} [Field K] [LinearOrder K] [IsStrictOrderedRing K]

theorem sq_nonneg' (z : Cx K) : 0 ≤ z.sq := add_nonneg (mul_self_nonneg _) (mul_self_nonneg _)

theorem sq_pos' {z : Cx K} (h : z ≠ 0) : 0 < z.sq := by
  rcases lt_or_eq_of_le (sq_nonneg' z) with h1 | h1
  · exact h1
  · exfalso
    apply h
    have h2 : z.re * z.re + z.im * z.im = 0 := h1.symm
    have a1 := mul_self_nonneg z.re
    have a2 := mul_self_nonneg z.im
    ext
    · exact mul_self_eq_zero.1 (by linarith)
    · exact mul_self_eq_zero.1 (by linarith)

theorem power_ne {nRx : Nat} {g : Nat → Cx K} (h : ∃ a < nRx, g a ≠ 0) : power nRx g ≠ 0 := by
  obtain ⟨a, ha, hg⟩ := h
  exact ne_of_gt (Finset.sum_pos' (fun i _ => sq_nonneg' _) ⟨a, Finset.mem_range.2 ha, sq_pos' hg⟩)

theorem pairPower_ne {nRx : Nat} {gA gB : Nat → Cx K} (h : ∃ a < nRx, gA a ≠ 0 ∨ gB a ≠ 0) : pairPower nRx gA gB ≠ 0 := by
  obtain ⟨a, ha, hg⟩ := h
  refine ne_of_gt (Finset.sum_pos' (fun i _ => add_nonneg (sq_nonneg' _) (sq_nonneg' _)) ⟨a, Finset.mem_range.2 ha, ?_⟩)
  rcases hg with hg | hg
  · exact add_pos_of_pos_of_nonneg (sq_pos' hg) (sq_nonneg' _)
  · exact add_pos_of_nonneg_of_pos (sq_nonneg' _) (sq_pos' hg)

/-- What is known about channel, noise and signal for a list of cells -/
structure Good (nTs nRx : Nat) (cells : List (Nat × Nat)) (sym : Nat → Cx K) (V : Nat → Nat → Nat → Cx K) (H : Nat → Est K) (N y : Nat → Rx K) : Prop where
  ts : nTs = 1 ∨ nTs = 2 ∨ nTs = 4 ∨ nTs = 8
  rx : ∀ l, ∀ a < nRx, ∀ k, y l a k = superposed nTs (fun t => H l a t k) (fun t => V l t k) (N l a k)
  tx : ∀ i l k, cells[i]? = some (l, k) → ∀ t, V l t k = sent nTs sym i t
  flat : nTs ≠ 1 → ∀ c l k k', cells[2 * c]? = some (l, k) → cells[2 * c + 1]? = some (l, k') → ∀ a < nRx, ∀ t < nTs, H l a t k = H l a t k'
  heard : ∀ i l k, cells[i]? = some (l, k) → Heard nTs nRx (H l) i k

variable {nTs nRx : Nat} {cells : List (Nat × Nat)} {sym : Nat → Cx K} {V : Nat → Nat → Nat → Cx K} {H : Nat → Est K} {N y : Nat → Rx K}

theorem getD_of {α : Type} {l : List α} {i : Nat} {x d : α} (h : l[i]? = some x) : l.getD i d = x := by
  rw [List.getD_eq_getElem?_getD, h, Option.getD_some]

/-- One transmit stream, cells of one OFDM symbol -/
theorem Good.single (g : Good nTs nRx cells sym V H N y) (h1 : nTs = 1) {l P : Nat} {ks : List Nat}
    (hc : ∀ j < ks.length, cells[P + j]? = some (l, ks.getD j 0)) :
    (∀ j < ks.length, ∀ a < nRx, y l a (ks.getD j 0) = H l a 0 (ks.getD j 0) * sym (P + j) + N l a (ks.getD j 0)) ∧
    (∀ j < ks.length, power nRx (fun a => H l a 0 (ks.getD j 0)) ≠ 0) ∧
    ((List.range ks.length).map fun j => sym (P + j) + noise nRx (fun a => H l a 0 (ks.getD j 0)) (fun a => N l a (ks.getD j 0))) =
      (List.range' P ks.length).map fun i => sym i + residual nTs nRx H N cells i := by
  subst h1
  refine ⟨fun j hj a ha => ?_, fun j hj => ?_, ?_⟩
  · rw [g.rx l a ha, superposed_one, g.tx _ _ _ (hc j hj), sent, if_pos rfl, multiplexed, if_pos Nat.one_pos, Nat.mul_one, Nat.add_zero]
  · obtain ⟨a, ha, h⟩ := g.heard _ _ _ (hc j hj)
    rw [if_pos rfl] at h
    exact power_ne ⟨a, ha, h⟩
  · rw [List.range'_eq_map_range, List.map_map]
    refine List.map_congr_left fun j hj => ?_
    rw [List.mem_range] at hj
    show _ = sym (P + j) + residual 1 nRx H N cells (P + j)
    rw [residual, if_pos rfl, getD_of (hc j hj)]

/-- Transmit diversity, cells of one OFDM symbol -/
theorem Good.div (g : Good nTs nRx cells sym V H N y) (h1 : nTs ≠ 1) {l P : Nat} {ks : List Nat}
    (hc : ∀ j < ks.length, cells[P + j]? = some (l, ks.getD j 0)) (hP : P % 2 = 0) (hev : ks.length % 2 = 0) :
    pxxDiversity nTs nRx (y l) (H l) P ks = .ok ((List.range' P ks.length).map fun i => sym i + residual nTs nRx H N cells i) := by
  have hts : nTs = 2 ∨ nTs = 4 ∨ nTs = 8 := by have := g.ts; omega
  rw [pxxDiversity_eq (n := N l) (x := sym) (st := fun t k => V l t k) hts hev hP]
  · congr 1
    rw [List.range'_eq_map_range, List.map_map]
    refine List.map_congr_left fun j hj => ?_
    rw [List.mem_range] at hj
    show _ = sym (P + j) + residual nTs nRx H N cells (P + j)
    rw [residual, if_neg h1, getD_of (hc j hj)]
    have e0 := hc (j - j % 2) (by omega)
    have e1 := hc (j - j % 2 + 1) (by omega)
    rw [show P + j - (P + j) % 2 = P + (j - j % 2) by omega, show P + (j - j % 2) + 1 = P + (j - j % 2 + 1) by omega, getD_of e0, getD_of e1,
      show (P + j) % 2 = j % 2 by omega]
  · intro j hj t
    rw [g.tx _ _ _ (hc j hj), sent, if_neg h1]
  · intro j _ a ha
    exact g.rx l a ha _
  · intro c hc' a ha t ht
    have e0 := hc (2 * c) (by omega)
    have e1 := hc (2 * c + 1) hc'
    exact g.flat h1 (P / 2 + c) l _ _ (by rw [show 2 * (P / 2 + c) = P + 2 * c by omega]; exact e0)
      (by rw [show 2 * (P / 2 + c) + 1 = P + (2 * c + 1) by omega]; exact e1) a ha t ht
  · intro j hj
    obtain ⟨a, ha, h⟩ := g.heard _ _ _ (hc j hj)
    rw [if_neg h1] at h
    exact pairPower_ne ⟨a, ha, h⟩

/-- Cells of the next OFDM symbol -/
theorem drop_order {sel : Symbol → List Nat} {x : Symbol} {xs : List Symbol} {l P : Nat} (h : cells.drop P = order sel l (x :: xs)) :
    (∀ j < (sel x).length, cells[P + j]? = some (l, (sel x).getD j 0)) ∧ cells.drop (P + (sel x).length) = order sel (l + 1) xs := by
  unfold order at h
  constructor
  · intro j hj
    rw [← List.getElem?_drop, h, List.getElem?_append_left (by simpa using hj), List.getElem?_map, List.getElem?_eq_getElem hj, Option.map_some,
      List.getD_eq_getElem?_getD, List.getElem?_eq_getElem hj, Option.getD_some]
  · rw [← List.drop_drop, h, List.drop_append_of_le_length (by simp), List.drop_of_length_le (by simp), List.nil_append]

theorem pccLoop_eq (g : Good nTs nRx cells sym V H N y) : ∀ (xs : List Symbol) (l P : Nat), cells.drop P = order Symbol.pcc l xs →
    P % 2 = 0 → (∀ x ∈ xs, x.pcc.length % 2 = 0) →
    pccLoop nTs nRx y H xs l P = .ok ((List.range' P (cells.length - P)).map fun i => sym i + residual nTs nRx H N cells i) := by
  intro xs
  induction xs with
  | nil =>
    intro l P h _ _
    have : cells.length - P = 0 := by
      rw [← List.length_drop, h]; rfl
    rw [this]; rfl
  | cons x xs ih =>
    intro l P h hP hev
    obtain ⟨h1, h2⟩ := drop_order (sel := Symbol.pcc) h
    have hx := hev x (by simp)
    have hlen : cells.length - P = x.pcc.length + (cells.length - (P + x.pcc.length)) := by
      have e := congrArg List.length h
      rw [List.length_drop] at e
      unfold order at e
      rw [List.length_append, List.length_map] at e
      omega
    have hv : visitPcc nTs nRx (y l) (H l) P x.pcc = .ok ((List.range' P x.pcc.length).map fun i => sym i + residual nTs nRx H N cells i) := by
      unfold visitPcc
      split
      · rename_i h0; rw [h0]; rfl
      · unfold collectPcc
        split
        · rename_i hts
          obtain ⟨s1, s2, s3⟩ := g.single hts h1
          rw [pccSingle_eq (x := fun j => sym (P + j)) (n := N l) s1 s2, s3]
        · rename_i hts
          exact g.div hts h1 hP hx
    unfold pccLoop
    rw [hv, Res.ok_bind, ih (l + 1) (P + x.pcc.length) h2 (by omega) (fun z hz => hev z (by simp [hz])), Res.ok_bind, ← List.map_append, hlen,
      List.range'_append_1]

theorem pdcLoop_eq (g : Good nTs nRx cells sym V H N y) {b : Nat} : ∀ (xs : List Symbol) (l P : Nat), cells.drop P = order Symbol.pdc l xs →
    P % 2 = 0 → (∀ x ∈ xs, x.pdc.length % 2 = 0 ∧ (∀ k ∈ x.pdc, k ≤ 56 * b) ∧
      (x.pdc.length = 56 * b → x.pdc = (List.range (56 * b)).map (Verif.Sp3.Cells.Spec.subc b))) →
    pdcLoop (56 * b) nTs 1 nRx y H xs l P = .ok ((List.range' P (cells.length - P)).map fun i => sym i + residual nTs nRx H N cells i) := by
  intro xs
  induction xs with
  | nil =>
    intro l P h _ _
    have : cells.length - P = 0 := by
      rw [← List.length_drop, h]; rfl
    rw [this]; rfl
  | cons x xs ih =>
    intro l P h hP hev
    obtain ⟨h1, h2⟩ := drop_order (sel := Symbol.pdc) h
    obtain ⟨hx, hk, hfull⟩ := hev x (by simp)
    have hlen : cells.length - P = x.pdc.length + (cells.length - (P + x.pdc.length)) := by
      have e := congrArg List.length h
      rw [List.length_drop] at e
      unfold order at e
      rw [List.length_append, List.length_map] at e
      omega
    have hv : visitPdc (56 * b) nTs 1 nRx (y l) (H l) P x.pdc = .ok ((List.range' P x.pdc.length).map fun i => sym i + residual nTs nRx H N cells i) := by
      unfold visitPdc
      split
      · rename_i h0; rw [h0]; rfl
      · unfold collectPdc
        split
        · rename_i hts
          obtain ⟨s1, s2, s3⟩ := g.single hts h1
          rw [pdcSingle_eq (x := fun j => sym (P + j)) (n := N l) hfull hk s1 s2, s3]
        · rename_i hts
          rw [if_pos rfl]
          exact g.div hts h1 hP hx
    unfold pdcLoop
    rw [hv, Res.ok_bind, List.length_map, List.length_range', ih (l + 1) (P + x.pdc.length) h2 (by omega) (fun z hz => hev z (by simp [hz])), Res.ok_bind,
      ← List.map_append, hlen, List.range'_append_1]

/-- Without noise nothing remains of it -/
theorem residual_zero {i : Nat} (hN : ∀ l a k, N l a k = 0) : residual nTs nRx H N cells i = 0 := by
  have hz : ∀ c : K, scale c 0 = 0 := fun c => by ext <;> simp [scale]
  have c0 : (0 : Cx K).conj = 0 := by ext <;> simp
  have zm : ∀ z : Cx K, 0 * z = 0 := fun z => by ext <;> simp
  unfold residual noise pairNoise
  simp only [hN, c0, zm, mul_zero', add_zero, ite_self, Finset.sum_const_zero, hz]

end Verif.Phy.Combine
