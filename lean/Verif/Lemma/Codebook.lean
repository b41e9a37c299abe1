import Verif.Model.Codebook
import Verif.Model.PacketSizes
import Verif.Spec.Codebook
import Mathlib.Algebra.BigOperators.Ring.Finset
import Mathlib.Algebra.BigOperators.Intervals

namespace Verif.Phy.Codebook

open Spec

/-! ## The tables as integers -/

/-- All tables, with the matrix of one antenna -/
def ints : List (List (List Int)) := [[[1]], W1, W2, W3, W4, W5, W6]

def reI (x : Int) : Int := if x = 1 then 1 else if x = -1 then -1 else 0
def imI (x : Int) : Int := if x = 2 then 1 else if x = -2 then -1 else 0

def Valid (x : Int) : Prop := x = 1 ∨ x = -1 ∨ x = 2 ∨ x = -2 ∨ x = 0
instance (x : Int) : Decidable (Valid x) := by unfold Valid; infer_instance

theorem ints_valid : ∀ W ∈ ints, ∀ l ∈ W, ∀ x ∈ l, Valid x := by decide +kernel

section
variable {F : Type} [Field F]

def cx (x : Int) : Cx F := ⟨(reI x : F), (imI x : F)⟩

theorem cx_zero : (cx 0 : Cx F) = 0 := by
  ext <;> simp [cx, reI, imI]

theorem entry_eq {x : Int} (h : Valid x) : entry x = .ok (cx x : Cx F) := by
  rcases h with h | h | h | h | h <;> subst h <;> simp [entry, cx, reI, imI, j]

theorem convert_eq : ∀ {l : List Int}, (∀ x ∈ l, Valid x) → convert l = .ok (l.map (cx (F := F)))
  | [], _ => rfl
  | x :: l, h => by
    have := convert_eq (l := l) fun y hy => h y (by simp [hy])
    unfold convert at this ⊢
    rw [List.mapM_cons, entry_eq (h x (by simp)), Res.ok_bind, this]; rfl

theorem mapM_convert : ∀ {W : List (List Int)}, (∀ l ∈ W, ∀ x ∈ l, Valid x) →
    W.mapM convert = .ok (W.map fun l => l.map (cx (F := F)))
  | [], _ => rfl
  | l :: W, h => by
    rw [List.mapM_cons, convert_eq (h l (by simp)), Res.ok_bind, mapM_convert fun y hy => h y (by simp [hy])]; rfl

theorem matrices_eq : (matrices : Res (List (List (List (Cx F))))) = .ok (ints.map fun W => W.map fun l => l.map cx) := by
  have v : ∀ W ∈ ints, W.mapM convert = .ok (W.map fun l => l.map (cx (F := F))) := fun W h => mapM_convert (ints_valid W h)
  have one : ([⟨1, 0⟩] : List (Cx F)) = [cx 1] := by simp [cx, reI, imI]
  unfold matrices
  rw [v W1 (by simp [ints]), v W2 (by simp [ints]), v W3 (by simp [ints]), v W4 (by simp [ints]), v W5 (by simp [ints]),
    v W6 (by simp [ints])]
  simp only [Res.ok_bind, one]
  have a1 : ((List.zip [[[cx 1]], W1.map fun l => l.map (cx (F := F)), W2.map fun l => l.map cx, W3.map fun l => l.map cx,
      W4.map fun l => l.map cx, W5.map fun l => l.map cx, W6.map fun l => l.map cx] dims).all fun x => decide (x.1.length = x.2.1)) = true := by
    simp [dims, W1, W2, W3, W4, W5, W6]
  have a2 : ((List.zip [[[cx 1]], W1.map fun l => l.map (cx (F := F)), W2.map fun l => l.map cx, W3.map fun l => l.map cx,
      W4.map fun l => l.map cx, W5.map fun l => l.map cx, W6.map fun l => l.map cx] dims).all
        fun x => x.1.all fun m => decide (m.length = x.2.2)) = true := by
    simp [dims, W1, W2, W3, W4, W5, W6]
  rw [a1, a2]
  rfl

/-- Row of the tables for a number of streams and antennas -/
def rowI (nTs nTx : Nat) : List (List Int) := ints.getD (((idxTable.getD nTs []).getD nTx 0)) []

/-- The numbers of streams and antennas of all transmission modes -/
def pairs : List (Nat × Nat) := [(1, 1), (2, 2), (1, 2), (4, 4), (1, 4), (2, 4), (8, 8)]

theorem modes {m : Nat} {tm : Sp3.Tm} (h : Sp3.getTm m = .ok tm) : (tm.nTs, tm.nTx) ∈ pairs := by
  unfold Sp3.getTm at h
  split at h <;> first | (cases h; decide) | cases h

theorem at2_idx : ∀ p ∈ pairs, at2 idxTable p.1 p.2 = .ok ((idxTable.getD p.1 []).getD p.2 0) ∧
    (idxTable.getD p.1 []).getD p.2 0 < ints.length := by decide +kernel

theorem indexMax_eq : ∀ p ∈ pairs, indexMax p.1 p.2 = .ok ((rowI p.1 p.2).length - 1) ∧ 0 < (rowI p.1 p.2).length := by
  decide +kernel

theorem atA_ok {α : Type} {l : List α} {i : Nat} (h : i < l.length) : atA l i = .ok l[i] := by
  simp [atA, List.getElem?_eq_getElem h]

theorem atA_abort {α : Type} {l : List α} {i : Nat} (h : l.length ≤ i) : atA l i = .abort := by
  simp [atA, List.getElem?_eq_none h]

theorem getWs_eq {nTs nTx : Nat} (h : (nTs, nTx) ∈ pairs) :
    getWs nTs nTx = .ok ((rowI nTs nTx).map fun l => l.map (cx (F := F))) := by
  obtain ⟨a, b⟩ := at2_idx _ h
  simp only at a b
  unfold getWs
  rw [matrices_eq, Res.ok_bind, a, Res.ok_bind, atA_ok (by simpa using b), List.getElem_map]
  have : rowI nTs nTx = ints[(idxTable.getD nTs []).getD nTx 0] := by
    unfold rowI
    rw [List.getD_eq_getElem?_getD, List.getElem?_eq_getElem b]; rfl
  rw [this]

/-- The matrix of a codebook index -/
def matI (nTs nTx cb : Nat) : List Int := (rowI nTs nTx).getD cb []

theorem getW_eq {nTs nTx cb : Nat} (h : (nTs, nTx) ∈ pairs) (hc : cb < (rowI nTs nTx).length) :
    getW nTs nTx cb = .ok ((matI nTs nTx cb).map (cx (F := F))) := by
  unfold getW
  rw [getWs_eq h, Res.ok_bind, atA_ok (by simpa using hc), List.getElem_map]
  simp [matI, List.getD_eq_getElem?_getD, List.getElem?_eq_getElem hc]

theorem getW_abort {nTs nTx cb : Nat} (h : (nTs, nTx) ∈ pairs) (hc : (rowI nTs nTx).length ≤ cb) :
    (getW nTs nTx cb : Res (List (Cx F))) = .abort := by
  unfold getW
  rw [getWs_eq h, Res.ok_bind, atA_abort (by simpa using hc)]

/-- Number of entries that are not zero -/
def cnt (l : List Int) : Nat := (l.filter (· ≠ 0)).length

theorem scaleOf_eq (sqrt : F → F) (l : List Int) : scaleOf sqrt l = 1 / sqrt (cnt l : F) := by
  have : ∀ (l : List Int) (p : F), l.foldl (fun p x => if x ≠ 0 then p + 1 else p) p = p + (cnt l : F) := by
    intro l
    induction l with
    | nil => intro p; simp [cnt]
    | cons x l ih =>
      intro p
      rw [List.foldl_cons, ih]
      by_cases h : x = 0
      · simp [cnt, h]
      · simp [cnt, h]; ring
  unfold scaleOf
  rw [this, zero_add]

theorem scales_eq (sqrt : F → F) : scales sqrt = [1] :: (ints.drop 1).map fun W => W.map fun l => 1 / sqrt (cnt l : F) := by
  have : scaleOf sqrt = fun l => 1 / sqrt (cnt l : F) := funext (scaleOf_eq sqrt)
  simp [scales, ints, this]

/-- Squares of the reciprocals of the scales for the DAC -/
def dacI : List (List Nat) :=
  [[1], List.replicate 6 1, List.replicate 28 1, [1, 2, 2], List.replicate 14 1 ++ List.replicate 8 2, [1, 2, 2, 4, 4], [1]]

def dacRow (nTs nTx : Nat) : List Nat := dacI.getD (((idxTable.getD nTs []).getD nTx 0)) []

theorem dac_len : ∀ p ∈ pairs, (dacRow p.1 p.2).length = (rowI p.1 p.2).length := by decide +kernel

theorem dac_table : ∀ p ∈ pairs, ∀ cb < (rowI p.1 p.2).length, 0 < (dacRow p.1 p.2).getD cb 0 := by decide +kernel

/-- Power of the weights of antenna `a` -/
def rowPow (l : List Int) (nTs a : Nat) : Nat := cnt ((l.drop (a * nTs)).take nTs)

theorem row_table : ∀ p ∈ pairs, ∀ cb < (rowI p.1 p.2).length,
    (∀ a < p.2, rowPow (matI p.1 p.2 cb) p.1 a ≤ (dacRow p.1 p.2).getD cb 0) ∧
    ∃ a < p.2, rowPow (matI p.1 p.2 cb) p.1 a = (dacRow p.1 p.2).getD cb 0 := by decide +kernel

/-- Real and imaginary part of the product of two columns -/
def gramRe (l : List Int) (nTs nTx t u : Nat) : Int :=
  ((List.range nTx).map fun a => reI (l.getD (a * nTs + t) 0) * reI (l.getD (a * nTs + u) 0) +
    imI (l.getD (a * nTs + t) 0) * imI (l.getD (a * nTs + u) 0)).sum
def gramIm (l : List Int) (nTs nTx t u : Nat) : Int :=
  ((List.range nTx).map fun a => reI (l.getD (a * nTs + t) 0) * imI (l.getD (a * nTs + u) 0) -
    imI (l.getD (a * nTs + t) 0) * reI (l.getD (a * nTs + u) 0)).sum

theorem gram_table : ∀ p ∈ pairs, ∀ cb < (rowI p.1 p.2).length, (matI p.1 p.2 cb).length = p.1 * p.2 ∧ 0 < cnt (matI p.1 p.2 cb) ∧
    ∀ t < p.1, ∀ u < p.1, p.1 * gramRe (matI p.1 p.2 cb) p.1 p.2 t u = (if t = u then (cnt (matI p.1 p.2 cb) : Int) else 0) ∧
      gramIm (matI p.1 p.2 cb) p.1 p.2 t u = 0 := by decide +kernel

/-! ## Power -/

theorem re_sum (f : Nat → Cx F) (n : Nat) : (∑ t ∈ Finset.range n, f t).re = ∑ t ∈ Finset.range n, (f t).re := by
  induction n with
  | zero => rfl
  | succ n ih => rw [Finset.sum_range_succ, Finset.sum_range_succ, Cx.add_re, ih]

theorem im_sum (f : Nat → Cx F) (n : Nat) : (∑ t ∈ Finset.range n, f t).im = ∑ t ∈ Finset.range n, (f t).im := by
  induction n with
  | zero => rfl
  | succ n ih => rw [Finset.sum_range_succ, Finset.sum_range_succ, Cx.add_im, ih]

theorem range_sum_cast (g : Nat → Int) (n : Nat) : (((List.range n).map g).sum : Int) = ∑ a ∈ Finset.range n, g a := by
  induction n with
  | zero => rfl
  | succ n ih => rw [List.range_succ, List.map_append, List.sum_append, ih, Finset.sum_range_succ]; simp

/-- Columns that are orthogonal and of the same power keep the power of the streams -/
theorem gram_power (wr wi : Nat → Nat → F) (c : F) (n m : Nat) (x : Nat → Cx F)
    (hre : ∀ t < n, ∀ u < n, ∑ a ∈ Finset.range m, (wr a t * wr a u + wi a t * wi a u) = if t = u then c else 0)
    (him : ∀ t < n, ∀ u < n, ∑ a ∈ Finset.range m, (wr a t * wi a u - wi a t * wr a u) = 0) :
    ∑ a ∈ Finset.range m, ((∑ t ∈ Finset.range n, (wr a t * (x t).re - wi a t * (x t).im)) *
        (∑ t ∈ Finset.range n, (wr a t * (x t).re - wi a t * (x t).im)) +
      (∑ t ∈ Finset.range n, (wr a t * (x t).im + wi a t * (x t).re)) * (∑ t ∈ Finset.range n, (wr a t * (x t).im + wi a t * (x t).re))) =
    c * ∑ t ∈ Finset.range n, (x t).sq := by
  have e1 : ∀ a, ((∑ t ∈ Finset.range n, (wr a t * (x t).re - wi a t * (x t).im)) *
        (∑ t ∈ Finset.range n, (wr a t * (x t).re - wi a t * (x t).im)) +
      (∑ t ∈ Finset.range n, (wr a t * (x t).im + wi a t * (x t).re)) * (∑ t ∈ Finset.range n, (wr a t * (x t).im + wi a t * (x t).re))) =
      ∑ t ∈ Finset.range n, ∑ u ∈ Finset.range n,
        ((wr a t * wr a u + wi a t * wi a u) * ((x t).re * (x u).re + (x t).im * (x u).im) +
          (wr a t * wi a u - wi a t * wr a u) * ((x t).im * (x u).re - (x t).re * (x u).im)) := by
    intro a
    rw [Finset.sum_mul_sum, Finset.sum_mul_sum, ← Finset.sum_add_distrib]
    refine Finset.sum_congr rfl fun t _ => ?_
    rw [← Finset.sum_add_distrib]
    refine Finset.sum_congr rfl fun u _ => ?_
    ring
  rw [Finset.sum_congr rfl fun a _ => e1 a, Finset.sum_comm, Finset.mul_sum]
  refine Finset.sum_congr rfl fun t ht => ?_
  rw [Finset.sum_comm]
  have ht' := Finset.mem_range.mp ht
  have e2 : ∀ u ∈ Finset.range n, ∑ a ∈ Finset.range m,
        ((wr a t * wr a u + wi a t * wi a u) * ((x t).re * (x u).re + (x t).im * (x u).im) +
          (wr a t * wi a u - wi a t * wr a u) * ((x t).im * (x u).re - (x t).re * (x u).im)) =
      if t = u then c * (x t).sq else 0 := by
    intro u hu
    have hu' := Finset.mem_range.mp hu
    rw [Finset.sum_add_distrib, ← Finset.sum_mul, ← Finset.sum_mul, hre t ht' u hu', him t ht' u hu']
    by_cases e : t = u
    · subst e; simp [Cx.sq]
    · simp [e]
  rw [Finset.sum_congr rfl e2, Finset.sum_ite_eq, if_pos ht]

theorem weight_map (l : List Int) (nTs a t : Nat) :
    Spec.weight (l.map (cx (F := F))) nTs a t = ⟨(reI (l.getD (a * nTs + t) 0) : F), (imI (l.getD (a * nTs + t) 0) : F)⟩ := by
  unfold Spec.weight
  rw [List.getD_eq_getElem?_getD, List.getD_eq_getElem?_getD, List.getElem?_map]
  cases l[a * nTs + t]? with
  | none => simpa [cx] using (cx_zero (F := F)).symm
  | some v => rfl

/-- Power sent on all antennas -/
theorem power_table [CharZero F] {nTs nTx cb : Nat} (h : (nTs, nTx) ∈ pairs) (hc : cb < (rowI nTs nTx).length) (x : Nat → Cx F) :
    (nTs : F) * ∑ a ∈ Finset.range nTx, (Spec.sent ((matI nTs nTx cb).map cx) nTs x a).sq =
      (cnt (matI nTs nTx cb) : F) * ∑ t ∈ Finset.range nTs, (x t).sq := by
  obtain ⟨-, -, g⟩ := gram_table _ h cb hc
  simp only at g
  have hn : (nTs : F) ≠ 0 := by
    have : 0 < nTs := by
      have : ∀ p ∈ pairs, 0 < p.1 := by decide
      exact this _ h
    exact_mod_cast this.ne'
  generalize matI nTs nTx cb = l at g ⊢
  have e : ∀ a, (Spec.sent (l.map cx) nTs x a).sq =
      ((∑ t ∈ Finset.range nTs, ((reI (l.getD (a * nTs + t) 0) : F) * (x t).re - (imI (l.getD (a * nTs + t) 0) : F) * (x t).im)) *
        (∑ t ∈ Finset.range nTs, ((reI (l.getD (a * nTs + t) 0) : F) * (x t).re - (imI (l.getD (a * nTs + t) 0) : F) * (x t).im)) +
      (∑ t ∈ Finset.range nTs, ((reI (l.getD (a * nTs + t) 0) : F) * (x t).im + (imI (l.getD (a * nTs + t) 0) : F) * (x t).re)) *
        (∑ t ∈ Finset.range nTs, ((reI (l.getD (a * nTs + t) 0) : F) * (x t).im + (imI (l.getD (a * nTs + t) 0) : F) * (x t).re))) := by
    intro a
    unfold Spec.sent Cx.sq
    rw [re_sum, im_sum]
    simp only [weight_map, Cx.mul_re, Cx.mul_im]
  rw [Finset.sum_congr rfl fun a _ => e a,
    gram_power (fun a t => (reI (l.getD (a * nTs + t) 0) : F)) (fun a t => (imI (l.getD (a * nTs + t) 0) : F)) ((cnt l : F) / nTs) nTs nTx x
      ?_ ?_]
  · rw [← mul_assoc, mul_div_cancel₀ _ hn]
  · intro t ht u hu
    have := (g t ht u hu).1
    unfold gramRe at this
    rw [range_sum_cast] at this
    have := congrArg (Int.cast : Int → F) this
    push_cast at this
    by_cases e : t = u
    · rw [if_pos e] at this ⊢
      rw [eq_div_iff hn, mul_comm]
      exact this
    · rw [if_neg e] at this ⊢
      exact (mul_eq_zero.mp this).resolve_left hn
  · intro t ht u hu
    have := (g t ht u hu).2
    unfold gramIm at this
    rw [range_sum_cast] at this
    have := congrArg (Int.cast : Int → F) this
    push_cast at this
    exact this

theorem scale_sq {sqrt : F → F} (hs : Exact sqrt) {nTs nTx cb : Nat} (h : (nTs, nTx) ∈ pairs) (hc : cb < (rowI nTs nTx).length) [CharZero F] :
    ∃ s, getScale sqrt nTs nTx cb = .ok s ∧ s * s * (cnt (matI nTs nTx cb) : F) = 1 := by
  obtain ⟨a, b⟩ := at2_idx _ h
  simp only at a b
  obtain ⟨-, hpos, -⟩ := gram_table _ h cb hc
  have e : scales sqrt = [1] :: (ints.drop 1).map fun W => W.map fun l => 1 / sqrt (cnt l : F) := scales_eq sqrt
  have hl : (scales sqrt).length = ints.length := by rw [e]; rfl
  unfold getScale getScales
  rw [a, Res.ok_bind, atA_ok (by rw [hl]; exact b), Res.ok_bind]
  generalize hk : (idxTable.getD nTs []).getD nTx 0 = k at *
  have hrow : rowI nTs nTx = ints.getD k [] := by unfold rowI; rw [hk]
  rcases k with _ | k
  · have hr : rowI nTs nTx = [[1]] := by rw [hrow]; rfl
    have : cb = 0 := by rw [hr] at hc; simpa using hc
    subst this
    have hm : matI nTs nTx 0 = [1] := by unfold matI; rw [hr]; rfl
    refine ⟨1, by simp [e, atA], ?_⟩
    rw [hm]; simp [cnt]
  · have hb : k < (ints.drop 1).length := by simp only [List.length_drop]; omega
    have h1 : (scales sqrt)[k + 1]'(by rw [hl]; exact b) = (rowI nTs nTx).map fun l => 1 / sqrt (cnt l : F) := by
      rw [hrow]
      simp only [e, List.getElem_cons_succ, List.getElem_map, List.getElem_drop]
      rw [List.getD_eq_getElem?_getD, List.getElem?_eq_getElem b]
      simp [Nat.add_comm]
    rw [h1, atA_ok (by simpa using hc), List.getElem_map]
    refine ⟨_, rfl, ?_⟩
    have hm : (rowI nTs nTx)[cb] = matI nTs nTx cb := by
      unfold matI; rw [List.getD_eq_getElem?_getD, List.getElem?_eq_getElem hc]; rfl
    rw [hm]
    have hq := hs _ hpos
    simp only at hq
    have hne : ((cnt (matI nTs nTx cb) : Nat) : F) ≠ 0 := by exact_mod_cast hpos.ne'
    have hz : sqrt ((cnt (matI nTs nTx cb) : Nat) : F) ≠ 0 := by
      intro z; rw [z, zero_mul] at hq; exact hne hq.symm
    generalize ((cnt (matI nTs nTx cb) : Nat) : F) = c at hq hz ⊢
    field_simp
    rw [sq]; exact hq.symm

def dacF (sqrt : F → F) (d : Nat) : F := if d = 1 then 1 else 1 / sqrt (d : F)

theorem scalesDac_eq (sqrt : F → F) : scalesDac sqrt = dacI.map fun r => r.map (dacF sqrt) := by
  simp [scalesDac, dacI, dacF]

theorem scaleDac_sq {sqrt : F → F} (hs : Exact sqrt) {nTs nTx cb : Nat} (h : (nTs, nTx) ∈ pairs) (hc : cb < (rowI nTs nTx).length)
    [CharZero F] : ∃ s, getScaleDac sqrt nTs nTx cb = .ok s ∧ s * s * ((dacRow nTs nTx).getD cb 0 : F) = 1 := by
  obtain ⟨a, b⟩ := at2_idx _ h
  have hlen := dac_len _ h
  have hpos := dac_table _ h cb hc
  simp only at a b hlen hpos
  have hcd : cb < (dacRow nTs nTx).length := by rw [hlen]; exact hc
  have hb : (idxTable.getD nTs []).getD nTx 0 < dacI.length := b
  have hrow : dacRow nTs nTx = dacI[(idxTable.getD nTs []).getD nTx 0] := by
    unfold dacRow
    rw [List.getD_eq_getElem?_getD, List.getElem?_eq_getElem hb]; rfl
  unfold getScaleDac
  rw [a, Res.ok_bind, scalesDac_eq, atA_ok (by simpa using hb), Res.ok_bind, List.getElem_map, ← hrow, atA_ok (by simpa using hcd),
    List.getElem_map]
  have hm : (dacRow nTs nTx)[cb] = (dacRow nTs nTx).getD cb 0 := by
    rw [List.getD_eq_getElem?_getD, List.getElem?_eq_getElem hcd]; rfl
  rw [hm]
  refine ⟨_, rfl, ?_⟩
  generalize (dacRow nTs nTx).getD cb 0 = d at *
  unfold dacF
  by_cases e : d = 1
  · subst e; simp
  · rw [if_neg e]
    have hq := hs _ hpos
    have hne : (d : F) ≠ 0 := by exact_mod_cast hpos.ne'
    have hz : sqrt (d : F) ≠ 0 := by
      intro z; rw [z, zero_mul] at hq; exact hne hq.symm
    field_simp
    rw [sq]; exact hq.symm

/-- Power of the weights of one antenna -/
theorem row_power {nTs nTx cb : Nat} (h : (nTs, nTx) ∈ pairs) (hc : cb < (rowI nTs nTx).length) {a : Nat} (ha : a < nTx) :
    ∑ t ∈ Finset.range nTs, (Spec.weight ((matI nTs nTx cb).map (cx (F := F))) nTs a t).sq = (rowPow (matI nTs nTx cb) nTs a : F) := by
  have tab : ∀ p ∈ pairs, ∀ cb < (rowI p.1 p.2).length, ∀ a < p.2,
      ((List.range p.1).map fun t => reI ((matI p.1 p.2 cb).getD (a * p.1 + t) 0) * reI ((matI p.1 p.2 cb).getD (a * p.1 + t) 0) +
        imI ((matI p.1 p.2 cb).getD (a * p.1 + t) 0) * imI ((matI p.1 p.2 cb).getD (a * p.1 + t) 0)).sum =
      (rowPow (matI p.1 p.2 cb) p.1 a : Int) := by decide +kernel
  have := tab _ h cb hc a ha
  simp only at this
  rw [range_sum_cast] at this
  have := congrArg (Int.cast : Int → F) this
  push_cast at this
  rw [← this]
  refine Finset.sum_congr rfl fun t _ => ?_
  rw [weight_map]; rfl

end
end Verif.Phy.Codebook
