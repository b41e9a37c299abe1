import Verif.Lemma.MimoEst
import Verif.Props.C71_Codebook
import Mathlib.Tactic.IntervalCases
import Mathlib.Analysis.Real.Sqrt

/-!
# C73: the recommended beamforming matrix has the highest lowest amplitude -/

namespace Verif.Phy.MimoEst

open Codebook Spec

variable {F : Type} [Field F] [LinearOrder F] [IsStrictOrderedRing F]

theorem mode37_best {sqrt : F → F} (hs : Root sqrt) {abs : Cx F → Option F} (ha : ∀ z y, abs z = some y → 0 ≤ y) {nTx : Nat} (hn : nTx = 2 ∨ nTx = 4)
    (nRx : Nat) (h : Nat → Nat → Nat → Cx F) :
    ∃ Ws : List (List (Cx F)), getWs 1 nTx = .ok Ws ∧ ∃ A mx, indexNonzero 1 nTx = .ok A ∧ indexMax 1 nTx = .ok mx ∧ Ws.length = mx + 1 ∧
      ∃ r, mode37 sqrt abs nTx nRx ((List.range nRx).map fun rx => grid nTx (h rx)) = .ok r ∧
        Best (fun k i => abs (received (Ws.getD k []) nTx (h i))) nRx A mx r := by
  have hp : (1, nTx) ∈ pairs := by rcases hn with rfl | rfl <;> decide
  obtain ⟨A, hA, hlt, hc, hl⟩ := full_table (1, nTx) (by rcases hn with rfl | rfl <;> decide)
  simp only at hA hlt hc hl
  obtain ⟨hm, h0⟩ := indexMax_eq _ hp
  simp only at hm h0
  have hw := getWs_eq (F := F) hp
  have hsc : getScales sqrt 1 nTx = .ok ((rowI 1 nTx).map fun l => 1 / sqrt (cnt l : F)) := by
    unfold getScales
    rw [(at2_idx _ hp).1, Res.ok_bind, scales_eq]
    rcases hn with rfl | rfl <;> rfl
  refine ⟨_, hw, A, _, hA, hm, by simp only [List.length_map]; omega, ?_⟩
  have hnp : 0 < nTx := by omega
  have hpos : (0 : F) < 1 / sqrt (nTx : F) := one_div_pos.mpr (hs nTx hnp).1
  set Ws : List (List (Cx F)) := (rowI 1 nTx).map fun l => l.map (cx (F := F)) with hWs
  have hlen : Ws.length = (rowI 1 nTx).length := by simp [hWs]
  have hget : ∀ k < (rowI 1 nTx).length, Ws[k]? = some (Ws.getD k []) ∧ (Ws.getD k []).length = nTx := by
    intro k hk
    have := getD_of_lt ([] : List (Cx F)) (l := Ws) (i := k) (by rw [hlen]; exact hk)
    refine ⟨this, ?_⟩
    have h2 : Ws.getD k [] = (matI 1 nTx k).map cx := by
      rw [List.getD_eq_getElem?_getD, hWs, List.getElem?_map, List.getElem?_eq_getElem hk]
      simp [matI, List.getD_eq_getElem?_getD, List.getElem?_eq_getElem hk]
    rw [h2, List.length_map]
    exact hl k hk
  set v : Nat → F := fun k => low (fun rx => abs (received (Ws.getD k []) nTx (h rx))) nRx * (1 / sqrt (nTx : F)) with hv
  have hv0 : ∀ k, 0 ≤ v k := fun k => mul_nonneg (low_nonneg (fun i y => ha _ y) _) hpos.le
  obtain ⟨r, hr, h1, h2, h3, h4⟩ := search_spec v A hv0 (Ws.length - A) (by omega)
  have hlow : ∀ k, v k ≤ v r → low (fun rx => abs (received (Ws.getD k []) nTx (h rx))) nRx ≤
      low (fun rx => abs (received (Ws.getD r []) nTx (h rx))) nRx := fun k hk => le_of_mul_le_mul_right hk hpos
  have hlow' : ∀ k, v k < v r → low (fun rx => abs (received (Ws.getD k []) nTx (h rx))) nRx <
      low (fun rx => abs (received (Ws.getD r []) nTx (h rx))) nRx := fun k hk => lt_of_mul_lt_mul_right hk hpos.le
  refine ⟨r, ?_, ⟨⟨h1, by omega⟩, ?_, ?_⟩⟩
  · unfold mode37
    rw [decide_eq_true (show 1 < nTx by omega), Res.assert_true, Res.ok_bind, hw, Res.ok_bind, hsc, Res.ok_bind, hA, Res.ok_bind,
      decide_eq_true (show A < Ws.length by omega), Res.assert_true, Res.ok_bind]
    rw [foldlM_eq _ (fun o wm => better o (v wm) wm)]
    · change (do Res.assert (search v A (Ws.length - A)).2.isSome; Res.ok ((search v A (Ws.length - A)).2.getD 0)) = _
      rw [hr]
      rfl
    · intro k hk o
      rw [List.mem_range'_1] at hk
      have hk' : k < (rowI 1 nTx).length := by omega
      obtain ⟨g1, g2⟩ := hget k hk'
      have hs' : ((rowI 1 nTx).map fun l => 1 / sqrt (cnt l : F))[k]? = some (1 / sqrt (nTx : F)) := by
        rw [List.getElem?_map, List.getElem?_eq_getElem hk']
        have : cnt ((rowI 1 nTx)[k]) = nTx := by
          have := hc k hk' hk.1
          rwa [matI, List.getD_eq_getElem?_getD, List.getElem?_eq_getElem hk'] at this
        simp [this]
      rw [atU_ok g1, Res.ok_bind, inner_eq abs h g2, Res.ok_bind, atU_ok hs', Res.ok_bind]
  · intro k hk1 hk2 i hi y hy hy6
    have hle := hlow k (h3 k hk1 (by omega))
    obtain ⟨-, b, -⟩ := low_spec (fun rx => abs (received (Ws.getD r []) nTx (h rx))) nRx
    have hyr := b i hi y hy
    obtain ⟨-, -, c | ⟨i', hi', c⟩⟩ := low_spec (fun rx => abs (received (Ws.getD k []) nTx (h rx))) nRx
    · rw [c] at hle
      exact absurd (hle.trans hyr) (not_le.mpr hy6)
    · exact ⟨i', hi', _, c, hle.trans hyr⟩
  · intro k hk1 hk2
    have hl := hlow' k (h4 k hk1 hk2)
    obtain ⟨a, b, -⟩ := low_spec (fun rx => abs (received (Ws.getD r []) nTx (h rx))) nRx
    obtain ⟨-, -, c | ⟨i', hi', c⟩⟩ := low_spec (fun rx => abs (received (Ws.getD k []) nTx (h rx))) nRx
    · rw [c] at hl
      exact absurd hl (not_lt.mpr a)
    · exact ⟨i', hi', _, c, lt_of_lt_of_le hl a, fun i hi y hy => lt_of_lt_of_le hl (b i hi y hy)⟩

theorem drs_eq {b nRx nTsMax nTs : Nat} (sqrt : F → F) (abs : Cx F → Option F) (hb : 0 < b) (ht : nTs ≤ nTsMax) (hp : 0 < nTs)
    {ch : List (List (List (Cx F)))} (hc : Complete b nRx nTs ch) :
    processDrs sqrt abs b nRx nTsMax nTs 0 (nTs - 1) ch = (do
      let i ← recommend sqrt abs nTs nRx ((List.range nRx).map fun rx => grid nTs (chan b ch rx))
      let j ← recommend sqrt abs nRx nTs ((List.range nTs).map fun ts => grid nRx fun rx c => chan b ch rx ts c)
      .ok (i, j)) := by
  unfold processDrs
  rw [steps_eq hb, Res.ok_bind, decide_eq_true hc.1.symm, Res.assert_true, Res.ok_bind, decide_eq_true rfl, Res.assert_true, Res.ok_bind,
    decide_eq_true (by omega), Res.assert_true, Res.ok_bind, stages_eq hb ht hc, Res.ok_bind, transposed_eq, Res.ok_bind]

/-- Partial: eight antennas or streams abort, see below. After a packet with one, two or four streams, received with one, two or four antennas, whatever the channel estimates are: among all
matrices without a zero weight, the one recommended to the transmitter has the highest lowest amplitude over the receive antennas, the one found
for the own transmitter that over the antennas of the peer with the channel reversed. With a single antenna it is 0. NaN does not abort. -/
theorem C73_best_partial {sqrt : F → F} (hs : Root sqrt) {abs : Cx F → Option F} (ha : ∀ z y, abs z = some y → 0 ≤ y) {b nRx nTsMax nTs : Nat}
    (hb : 0 < b) (ht : nTs ≤ nTsMax) (hT : nTs = 1 ∨ nTs = 2 ∨ nTs = 4) (hR : nRx = 1 ∨ nRx = 2 ∨ nRx = 4)
    {ch : List (List (List (Cx F)))} (hc : Complete b nRx nTs ch) :
    ∃ i j, processDrs sqrt abs b nRx nTsMax nTs 0 (nTs - 1) ch = .ok (i, j) ∧
      (nTs = 1 → i = 0) ∧ (nRx = 1 → j = 0) ∧
      (nTs ≠ 1 → ∃ Ws : List (List (Cx F)), getWs 1 nTs = .ok Ws ∧ ∃ A mx, indexNonzero 1 nTs = .ok A ∧ indexMax 1 nTs = .ok mx ∧
        Ws.length = mx + 1 ∧ Best (fun k rx => abs (received (Ws.getD k []) nTs fun ts c => chan b ch rx ts c)) nRx A mx i) ∧
      (nRx ≠ 1 → ∃ Ws : List (List (Cx F)), getWs 1 nRx = .ok Ws ∧ ∃ A mx, indexNonzero 1 nRx = .ok A ∧ indexMax 1 nRx = .ok mx ∧
        Ws.length = mx + 1 ∧ Best (fun k ts => abs (received (Ws.getD k []) nRx fun rx c => chan b ch rx ts c)) nTs A mx j) := by
  rw [drs_eq sqrt abs hb ht (by omega) hc]
  have key : ∀ nTx nR : Nat, (nTx = 1 ∨ nTx = 2 ∨ nTx = 4) → ∀ h : Nat → Nat → Nat → Cx F, ∃ i,
      recommend sqrt abs nTx nR ((List.range nR).map fun rx => grid nTx (h rx)) = .ok i ∧ (nTx = 1 → i = 0) ∧
      (nTx ≠ 1 → ∃ Ws : List (List (Cx F)), getWs 1 nTx = .ok Ws ∧ ∃ A mx, indexNonzero 1 nTx = .ok A ∧ indexMax 1 nTx = .ok mx ∧
        Ws.length = mx + 1 ∧ Best (fun k i => abs (received (Ws.getD k []) nTx (h i))) nR A mx i) := by
    intro nTx nR hn h
    unfold recommend
    by_cases h1 : nTx = 1
    · rw [if_pos h1]
      exact ⟨0, rfl, fun _ => rfl, fun h => absurd h1 h⟩
    · rw [if_neg h1]
      obtain ⟨Ws, e1, A, mx, e2, e3, e4, r, e5, e6⟩ := mode37_best hs ha (hn.resolve_left h1) nR h
      exact ⟨r, e5, fun h => absurd h h1, fun _ => ⟨Ws, e1, A, mx, e2, e3, e4, e6⟩⟩
  obtain ⟨i, e1, e2, e3⟩ := key nTs nRx hT fun rx ts c => chan b ch rx ts c
  obtain ⟨j, f1, f2, f3⟩ := key nRx nTs hR fun ts rx c => chan b ch rx ts c
  refine ⟨i, j, ?_, e2, f2, e3, f3⟩
  have e1' : recommend sqrt abs nTs nRx ((List.range nRx).map fun rx => grid nTs (chan b ch rx)) = .ok i := e1
  rw [e1', Res.ok_bind, f1, Res.ok_bind]

/-- With the magnitude of complex numbers: no matrix without a zero weight brings more power to every antenna. -/
theorem C73_power {abs : Cx F → Option F} (hab : ∀ z, ∃ y, abs z = some y ∧ 0 ≤ y ∧ y * y = z.sq) {amp : Nat → Nat → Cx F} {n lo hi r : Nat}
    (hB : Best (fun k i => abs (amp k i)) n lo hi r) {k : Nat} (h1 : lo ≤ k) (h2 : k ≤ hi) {i : Nat} (hi : i < n)
    (hlim : (amp r i).sq < 1000000 * 1000000) : ∃ i' < n, (amp k i').sq ≤ (amp r i).sq := by
  obtain ⟨y, e, y0, hy⟩ := hab (amp r i)
  have hy6 : y < 1000000 := by
    by_contra hc
    have : (1000000 : F) * 1000000 ≤ y * y := mul_le_mul (not_lt.mp hc) (not_lt.mp hc) (by norm_num) y0
    rw [hy] at this
    exact absurd hlim (not_lt.mpr this)
  obtain ⟨i', hi', x, ex, hx⟩ := hB.best k h1 h2 i hi y e hy6
  refine ⟨i', hi', ?_⟩
  obtain ⟨x', ex', x0, hx'⟩ := hab (amp k i')
  obtain rfl : x' = x := by
    have : some x' = some x := ex'.symm.trans ex
    exact Option.some.inj this
  rw [← hx', ← hy]
  exact mul_le_mul hx hx x0 y0

/-- Partial for the same reason. The transmitter accepts both indices in the transmission mode with one stream and that number of antennas, and they fit into the feedback. -/
theorem C73_accepted_partial {sqrt : F → F} (hs : Root sqrt) {abs : Cx F → Option F} (ha : ∀ z y, abs z = some y → 0 ≤ y) {b nRx nTsMax nTs : Nat}
    (hb : 0 < b) (ht : nTs ≤ nTsMax) (hT : nTs = 1 ∨ nTs = 2 ∨ nTs = 4) (hR : nRx = 1 ∨ nRx = 2 ∨ nRx = 4)
    {ch : List (List (List (Cx F)))} (hc : Complete b nRx nTs ch) :
    ∃ i j, processDrs sqrt abs b nRx nTsMax nTs 0 (nTs - 1) ch = .ok (i, j) ∧ i ≤ 63 ∧ j ≤ 63 ∧
      (∀ m tm, Sp3.getTm m = .ok tm → tm.nTs = 1 → tm.nTx = nTs → ∀ opt dac occ, ∃ r, txScale sqrt opt (decide (0 < i)) dac occ 1 nTs i = .ok r) ∧
      ∀ m tm, Sp3.getTm m = .ok tm → tm.nTs = 1 → tm.nTx = nRx → ∀ opt dac occ, ∃ r, txScale sqrt opt (decide (0 < j)) dac occ 1 nRx j = .ok r := by
  obtain ⟨i, j, e, e1, e2, e3, e4⟩ := C73_best_partial hs ha hb ht hT hR hc
  have key : ∀ n k : Nat, (n = 1 ∨ n = 2 ∨ n = 4) → (n = 1 → k = 0) →
      (n ≠ 1 → ∃ mx, indexMax 1 n = .ok mx ∧ k ≤ mx) → k ≤ 63 ∧
      ∀ m tm, Sp3.getTm m = .ok tm → tm.nTs = 1 → tm.nTx = n → ∀ opt dac occ, ∃ r, txScale sqrt opt (decide (0 < k)) dac occ 1 n k = .ok r := by
    intro n k hn h1 h2
    have hmx : ∃ mx, indexMax 1 n = .ok mx ∧ k ≤ mx ∧ mx ≤ 63 := by
      rcases hn with rfl | rfl | rfl
      · exact ⟨0, rfl, (h1 rfl).le, by omega⟩
      · obtain ⟨mx, g1, g2⟩ := h2 (by omega)
        have : indexMax 1 2 = .ok 5 := rfl
        rw [this, Res.ok.injEq] at g1
        exact ⟨mx, by rw [this, g1], g2, by omega⟩
      · obtain ⟨mx, g1, g2⟩ := h2 (by omega)
        have : indexMax 1 4 = .ok 27 := rfl
        rw [this, Res.ok.injEq] at g1
        exact ⟨mx, by rw [this, g1], g2, by omega⟩
    obtain ⟨mx, g1, g2, g3⟩ := hmx
    refine ⟨by omega, fun m tm htm t1 t2 opt dac occ => ?_⟩
    obtain ⟨mx', hm, -, hW⟩ := C71_matrices (F := F) htm
    have hacc := (C71_accepted (fun n hn => (hs n hn).2) htm k occ opt dac).1
    rw [t1, t2] at hm hW hacc
    rw [g1, Res.ok.injEq] at hm
    subst hm
    obtain ⟨W, hW, -⟩ := (hW k).1 g2
    exact hacc.mpr ⟨W, hW⟩
  have hI := key nTs i hT e1 fun h => by
    obtain ⟨Ws, -, A, mx, -, hm, -, hB⟩ := e3 h
    exact ⟨mx, hm, hB.range.2⟩
  have hJ := key nRx j hR e2 fun h => by
    obtain ⟨Ws, -, A, mx, -, hm, -, hB⟩ := e4 h
    exact ⟨mx, hm, hB.range.2⟩
  exact ⟨i, j, e, hI.1, hJ.1, hI.2, hJ.2⟩

theorem mode37_abort (sqrt : F → F) (abs : Cx F → Option F) {nTx nRx : Nat} (h1 : 1 < nTx) (h2 : nTx ≠ 2) (h4 : nTx ≠ 4) (hR : 0 < nRx)
    (h : Nat → Nat → Nat → Cx F) : mode37 sqrt abs nTx nRx ((List.range nRx).map fun rx => grid nTx (h rx)) = .abort := by
  unfold mode37
  rw [decide_eq_true h1, Res.assert_true, Res.ok_bind]
  by_cases h9 : 9 ≤ nTx
  · have : at2 idxTable 1 nTx = .abort := by
      have : atA idxTable 1 = .ok [0, 0, 1, 0, 2, 0, 0, 0, 0] := rfl
      unfold at2
      rw [this, Res.ok_bind, atA_abort (by simpa using h9)]
    unfold getWs
    rw [matrices_eq, Res.ok_bind, this]
    rfl
  · have hz : at2 idxTable 1 nTx = .ok 0 ∧ indexNonzero 1 nTx = .ok 0 := by
      have : nTx = 3 ∨ nTx = 5 ∨ nTx = 6 ∨ nTx = 7 ∨ nTx = 8 := by omega
      rcases this with rfl | rfl | rfl | rfl | rfl <;> exact ⟨rfl, rfl⟩
    have hw : (getWs 1 nTx : Res (List (List (Cx F)))) = .ok [[cx 1]] := by
      unfold getWs
      rw [matrices_eq, Res.ok_bind, hz.1, Res.ok_bind]
      rfl
    have hsc : getScales sqrt 1 nTx = .ok [1] := by
      unfold getScales
      rw [hz.1, Res.ok_bind]
      rfl
    have hsum : sumOf ((List.range nRx).map fun rx => grid nTx (h rx)) [cx 1] nTx 0 = .abort := by
      obtain ⟨k, rfl⟩ : ∃ k, nTx = k + 2 := ⟨nTx - 2, by omega⟩
      unfold sumOf
      have hr2 : List.range (k + 2) = 0 :: (0 + 1) :: List.range' 2 k := by
        rw [List.range_eq_range', List.range'_succ, List.range'_succ]
      rw [hr2, List.foldlM_cons]
      have s0 : ∃ z, sumStep ((List.range nRx).map fun rx => grid (k + 2) (h rx)) [cx 1] 0 0 0 = .ok z := by
        unfold sumStep
        rw [atA_ok (by simpa using hR), Res.ok_bind]
        simp only [List.getElem_map, List.getElem_range]
        rw [slice_grid (k + 2) (h 0) (by omega), Res.ok_bind, atA_ok (by simp), Res.ok_bind]
        exact ⟨_, rfl⟩
      have s1 : ∀ z, sumStep ((List.range nRx).map fun rx => grid (k + 2) (h rx)) [cx 1] 0 z (0 + 1) = .abort := by
        intro z
        unfold sumStep
        rw [atA_ok (by simpa using hR), Res.ok_bind]
        simp only [List.getElem_map, List.getElem_range]
        rw [slice_grid (k + 2) (h 0) (by omega), Res.ok_bind, atA_abort (by simp)]
        rfl
      obtain ⟨z, s0⟩ := s0
      rw [s0, Res.ok_bind, List.foldlM_cons, s1]
      rfl
    have hin : inner abs ((List.range nRx).map fun rx => grid nTx (h rx)) [cx 1] nTx nRx = .abort := by
      obtain ⟨k, rfl⟩ : ∃ k, nRx = k + 1 := ⟨nRx - 1, by omega⟩
      unfold inner
      have hr2 : List.range (k + 1) = 0 :: List.range' 1 k := by rw [List.range_eq_range', List.range'_succ]
      generalize hg : ((List.range (k + 1)).map fun rx => grid nTx (h rx)) = s at hsum
      rw [hr2, List.foldlM_cons, hsum]
      rfl
    rw [hw, Res.ok_bind, hsc, Res.ok_bind, hz.2, Res.ok_bind]
    have hr : List.range' 0 (([[cx 1]] : List (List (Cx F))).length - 0) = [0] := rfl
    rw [decide_eq_true (by simp), Res.assert_true, Res.ok_bind, hr, List.foldlM_cons]
    have hu : atU ([[cx 1]] : List (List (Cx F))) 0 = .ok [cx 1] := rfl
    rw [hu, Res.ok_bind, hin]
    rfl

/-- With any other number of receive antennas, eight in particular, every packet with one, two or four streams ends the program: the lookup
falls back to the matrix for a single antenna. -/
theorem C73_antennas_finding {sqrt : F → F} (hs : Root sqrt) {abs : Cx F → Option F} (ha : ∀ z y, abs z = some y → 0 ≤ y) {b nRx nTsMax nTs : Nat}
    (hb : 0 < b) (ht : nTs ≤ nTsMax) (hT : nTs = 1 ∨ nTs = 2 ∨ nTs = 4) (hR : 2 < nRx) (h4 : nRx ≠ 4)
    {ch : List (List (List (Cx F)))} (hc : Complete b nRx nTs ch) :
    processDrs sqrt abs b nRx nTsMax nTs 0 (nTs - 1) ch = .abort := by
  rw [drs_eq sqrt abs hb ht (by omega) hc]
  have e : ∃ i, recommend sqrt abs nTs nRx ((List.range nRx).map fun rx => grid nTs (chan b ch rx)) = .ok i := by
    unfold recommend
    by_cases h1 : nTs = 1
    · rw [if_pos h1]; exact ⟨_, rfl⟩
    · rw [if_neg h1]
      obtain ⟨-, -, -, -, -, -, -, r, e5, -⟩ := mode37_best hs ha (hT.resolve_left h1) nRx (chan b ch)
      exact ⟨r, e5⟩
  obtain ⟨i, e⟩ := e
  rw [e, Res.ok_bind]
  have := mode37_abort sqrt abs (nTx := nRx) (nRx := nTs) (by omega) (by omega) h4 (by omega) fun ts rx c => chan b ch rx ts c
  unfold recommend
  rw [if_neg (by omega), this]
  rfl

/-- So does a packet with eight streams. -/
theorem C73_streams_finding (sqrt : F → F) (abs : Cx F → Option F) {b nRx nTsMax : Nat} (hb : 0 < b) (ht : 8 ≤ nTsMax) (hR : 0 < nRx)
    {ch : List (List (List (Cx F)))} (hc : Complete b nRx 8 ch) : processDrs sqrt abs b nRx nTsMax 8 0 7 ch = .abort := by
  have := drs_eq sqrt abs hb ht (by omega) hc
  rw [show (8 - 1 : Nat) = 7 from rfl] at this
  rw [this]
  unfold recommend
  rw [if_neg (by omega), mode37_abort sqrt abs (by omega) (by omega) (by omega) hR (chan b ch)]
  rfl

/-- Two streams that arrive with opposite signs at one antenna: index 3, which sends them with opposite signs. -/
theorem C73_best_example : ∃ j, processDrs Real.sqrt (fun z => some (Real.sqrt z.sq)) 1 1 2 2 0 1
    [[List.replicate 14 (⟨1, 0⟩ : Cx ℝ), List.replicate 14 ⟨-1, 0⟩]] = .ok (3, j) := by
  have hs : Root Real.sqrt := fun n hn => ⟨Real.sqrt_pos.mpr (by exact_mod_cast hn), Real.mul_self_sqrt (by positivity)⟩
  have hc : Complete 1 1 2 [[List.replicate 14 (⟨1, 0⟩ : Cx ℝ), List.replicate 14 ⟨-1, 0⟩]] := by
    refine ⟨rfl, fun a ha => ?_⟩
    simp only [List.mem_singleton] at ha
    subst ha
    refine ⟨le_rfl, fun p hp => ?_⟩
    simp only [List.mem_cons, List.not_mem_nil, or_false] at hp
    rcases hp with rfl | rfl <;> simp
  obtain ⟨i, j, e, -, -, h, -⟩ := C73_best_partial hs (abs := fun z => some (Real.sqrt z.sq))
    (fun z y hy => by simp only [Option.some.injEq] at hy; rw [← hy]; exact Real.sqrt_nonneg _) (b := 1) (nRx := 1) (nTsMax := 2) (nTs := 2)
    (by omega) le_rfl (by omega) (by omega) hc
  obtain ⟨Ws, hW, A, mx, hA, hm, -, hB⟩ := h (by omega)
  have hp : (1, 2) ∈ pairs := by decide
  rw [getWs_eq (F := ℝ) hp, Res.ok.injEq] at hW
  have hA' : indexNonzero 1 2 = .ok 2 := rfl
  have hm' : indexMax 1 2 = .ok 5 := rfl
  rw [hA', Res.ok.injEq] at hA
  rw [hm', Res.ok.injEq] at hm
  subst hA hm
  have hch : ∀ c < 4, chan 1 [[List.replicate 14 (⟨1, 0⟩ : Cx ℝ), List.replicate 14 ⟨-1, 0⟩]] 0 0 c = ⟨1, 0⟩ ∧
      chan 1 [[List.replicate 14 (⟨1, 0⟩ : Cx ℝ), List.replicate 14 ⟨-1, 0⟩]] 0 1 c = ⟨-1, 0⟩ := by
    intro c hc
    interval_cases c <;> exact ⟨rfl, rfl⟩
  have hval : ∀ k, received (Ws.getD k []) 2 (fun ts c => chan 1 [[List.replicate 14 (⟨1, 0⟩ : Cx ℝ), List.replicate 14 ⟨-1, 0⟩]] 0 ts c) =
      ⟨4 * ((Codebook.Spec.weight (Ws.getD k []) 1 0 0).re - (Codebook.Spec.weight (Ws.getD k []) 1 1 0).re),
        4 * ((Codebook.Spec.weight (Ws.getD k []) 1 0 0).im - (Codebook.Spec.weight (Ws.getD k []) 1 1 0).im)⟩ := by
    intro k
    obtain ⟨c0, d0⟩ := hch 0 (by omega)
    obtain ⟨c1, d1⟩ := hch 1 (by omega)
    obtain ⟨c2, d2⟩ := hch 2 (by omega)
    obtain ⟨c3, d3⟩ := hch 3 (by omega)
    simp only [received, Finset.sum_range_succ, Finset.sum_range_zero, c0, c1, c2, c3, d0, d1, d2, d3]
    ext <;> simp <;> ring
  have hwt : ∀ k, ∀ a, Codebook.Spec.weight (Ws.getD k []) 1 a 0 = ⟨((reI ((matI 1 2 k).getD (a * 1 + 0) 0) : Int) : ℝ), ((imI ((matI 1 2 k).getD (a * 1 + 0) 0) : Int) : ℝ)⟩ := by
    intro k a
    rw [← weight_map]
    congr 1
    rw [← hW, List.getD_eq_getElem?_getD, List.getElem?_map, matI, List.getD_eq_getElem?_getD]
    cases (rowI 1 2)[k]? <;> rfl
  have hsq : ∀ k, (received (Ws.getD k []) 2 (fun ts c => chan 1 [[List.replicate 14 (⟨1, 0⟩ : Cx ℝ), List.replicate 14 ⟨-1, 0⟩]] 0 ts c)).sq =
      ((16 * ((reI ((matI 1 2 k).getD 0 0) - reI ((matI 1 2 k).getD 1 0)) ^ 2 + (imI ((matI 1 2 k).getD 0 0) - imI ((matI 1 2 k).getD 1 0)) ^ 2) : Int) : ℝ) := by
    intro k
    rw [hval k, hwt k 0, hwt k 1]
    simp only [Cx.sq]
    push_cast
    ring
  obtain ⟨h2, h5⟩ := hB.range
  have hpow := C73_power (abs := fun z : Cx ℝ => some (Real.sqrt z.sq)) (fun z => ⟨_, rfl, Real.sqrt_nonneg _, Real.mul_self_sqrt (by
    unfold Cx.sq; nlinarith [mul_self_nonneg z.re, mul_self_nonneg z.im])⟩) hB (k := 3) (by omega) (by omega) (i := 0) (by omega)
  have h3 : (16 * ((reI ((matI 1 2 3).getD 0 0) - reI ((matI 1 2 3).getD 1 0)) ^ 2 + (imI ((matI 1 2 3).getD 0 0) - imI ((matI 1 2 3).getD 1 0)) ^ 2) : Int) = 64 := by
    decide +kernel
  have tab : ∀ k < 6, 2 ≤ k → k ≠ 3 → (16 * ((reI ((matI 1 2 k).getD 0 0) - reI ((matI 1 2 k).getD 1 0)) ^ 2 +
      (imI ((matI 1 2 k).getD 0 0) - imI ((matI 1 2 k).getD 1 0)) ^ 2) : Int) < 64 := by decide +kernel
  have hi3 : i = 3 := by
    by_contra hne
    have hlt := tab i (by omega) h2 hne
    have hlt' : (received (Ws.getD i []) 2 (fun ts c => chan 1 [[List.replicate 14 (⟨1, 0⟩ : Cx ℝ), List.replicate 14 ⟨-1, 0⟩]] 0 ts c)).sq < 64 := by
      rw [hsq i]; exact_mod_cast hlt
    obtain ⟨i', hi', hle⟩ := hpow (by
      refine lt_trans hlt' ?_
      norm_num)
    obtain rfl : i' = 0 := by omega
    have hle' := le_trans (le_of_eq (hsq 3).symm) hle
    rw [h3] at hle'
    exact absurd (lt_of_le_of_lt hle' hlt') (by norm_num)
  subst hi3
  exact ⟨j, e⟩

end Verif.Phy.MimoEst
