import Verif.Model.Vspace
import Mathlib.Tactic.Ring
import Mathlib.Tactic.Linarith
import Mathlib.Algebra.BigOperators.Intervals

/-!
# C62: wireless channels of the virtual space -/

namespace Verif.Sim

theorem flatMap_range_getElem? {β : Type} (f : Nat → List β) (m A r : Nat) (hA : A < m) (hr : r < (f A).length) :
    ((List.range m).flatMap f)[(∑ x ∈ Finset.range A, (f x).length) + r]? = (f A)[r]? := by
  have hlen : ∀ a : Nat, ((List.range a).flatMap f).length = ∑ x ∈ Finset.range a, (f x).length := by
    intro a
    induction a with
    | zero => simp
    | succ a ih => rw [List.range_succ, List.flatMap_append, List.length_append, ih, Finset.sum_range_succ]; simp
  obtain ⟨d, rfl⟩ : ∃ d, m = A + 1 + d := ⟨m - A - 1, by omega⟩
  rw [List.range_add, List.flatMap_append, List.range_succ, List.flatMap_append, List.append_assoc,
    List.getElem?_append_right (by rw [hlen]; omega), hlen, Nat.add_sub_cancel_left]
  rw [List.getElem?_append_left (by simpa using hr)]
  simp

/-- Sum of the lengths of the first rows, twice -/
theorem rows (n A : Nat) (hA : A < n) : 2 * ∑ x ∈ Finset.range A, (n - 1 - x) + A + A * A = 2 * n * A := by
  induction A with
  | zero => simp
  | succ a ih =>
    have := ih (by omega)
    rw [Finset.sum_range_succ]
    obtain ⟨d, rfl⟩ : ∃ d, n = a + 2 + d := ⟨n - a - 2, by omega⟩
    have e : a + 2 + d - 1 - a = d + 1 := by omega
    rw [e]
    nlinarith

/-- The index in natural numbers: no intermediate value leaves the range of `uint32_t` -/
theorem edgeIndex_eq {n A B : Nat} (hAB : A < B) (hB : B < n) (hn : n ≤ 65536) :
    edgeIndex n A B = .ok ((∑ x ∈ Finset.range A, (n - 1 - x)) + (B - A - 1)) ∧
    edgeIndex n B A = .ok ((∑ x ∈ Finset.range A, (n - 1 - x)) + (B - A - 1)) := by
  have hr := rows n A (by omega)
  have h1 : 2 * ∑ x ∈ Finset.range A, (n - 1 - x) < 4294967296 := by
    obtain ⟨d, rfl⟩ : ∃ d, n = A + 1 + d := ⟨n - A - 1, by omega⟩
    have h2 : (A + 1 + d) * (A + d) ≤ 65536 * 65535 := Nat.mul_le_mul (by omega) (by omega)
    nlinarith [Nat.zero_le (d * d)]
  have key : ((2 * n * A + 2 * 4294967296 * 4294967296 - A - A * A) % 4294967296 / 2 + B + 4294967296 * 2 - A - 1) % 4294967296 =
      (∑ x ∈ Finset.range A, (n - 1 - x)) + (B - A - 1) := by
    generalize hS : ∑ x ∈ Finset.range A, (n - 1 - x) = S at *
    generalize 2 * n * A = P at *
    generalize A * A = Q at *
    omega
  constructor
  · rw [edgeIndex, if_neg (by omega)]
    simp only [hAB, if_true, key]
  · rw [edgeIndex, if_neg (by omega)]
    simp only [show ¬ B < A by omega, if_false, key]

/-- The edges are created in an order such that the one between two devices has the index computed from the two numbers, in either
order: the assert of vspace.cpp:415-418 never fails and `wchannel_inter_vec[idx]` is the channel of the two devices. -/
theorem C62_edge_of_pair {n A B : Nat} (hAB : A < B) (hB : B < n) (hn : n ≤ 65536) :
    ∃ k, edgeIndex n A B = .ok k ∧ edgeIndex n B A = .ok k ∧ (generateGraph n)[k]? = some (A, B) := by
  obtain ⟨h1, h2⟩ := edgeIndex_eq hAB hB hn
  refine ⟨_, h1, h2, ?_⟩
  have := flatMap_range_getElem? (fun i => (List.range (n - 1 - i)).map fun k => (i, i + 1 + k)) (n - 1) A (B - A - 1) (by omega)
    (by simp; omega)
  simp only [List.length_map, List.length_range] at this
  rw [generateGraph, this]
  rw [List.getElem?_map, List.getElem?_range (by omega)]
  simp only [Option.map_some, Option.some.injEq, Prod.mk.injEq, true_and]
  omega

/-- Exactly as many channels are created as there is room for (vspace.cpp:64, 448), each for two different devices, and every index
belongs to exactly one pair of devices. -/
theorem C62_all_edges {n : Nat} (h0 : 0 < n) (hn : n ≤ 65536) :
    (generateGraph n).length = nofEdges n ∧
    ∀ k < nofEdges n, ∃! p : Nat × Nat, p.1 < p.2 ∧ p.2 < n ∧ edgeIndex n p.1 p.2 = .ok k := by
  have hmem : ∀ p ∈ generateGraph n, p.1 < p.2 ∧ p.2 < n := by
    intro p hp
    simp only [generateGraph, List.mem_flatMap, List.mem_range, List.mem_map] at hp
    obtain ⟨i, hi, k, hk, rfl⟩ := hp
    simp only; omega
  have hlen : (generateGraph n).length = nofEdges n := by
    have hl : (generateGraph n).length = ∑ x ∈ Finset.range (n - 1), (n - 1 - x) := by
      rw [generateGraph]
      have : ∀ a : Nat, ((List.range a).flatMap fun i => (List.range (n - 1 - i)).map fun k => (i, i + 1 + k)).length =
          ∑ x ∈ Finset.range a, (n - 1 - x) := by
        intro a
        induction a with
        | zero => simp
        | succ a ih => rw [List.range_succ, List.flatMap_append, List.length_append, ih, Finset.sum_range_succ]; simp
      exact this (n - 1)
    have hr := rows n (n - 1) (by omega)
    rw [hl, nofEdges, show (n + 4294967295) % 4294967296 = n - 1 by omega]
    obtain ⟨m, rfl⟩ : ∃ m, n = m + 1 := ⟨n - 1, by omega⟩
    simp only [Nat.add_sub_cancel] at hr ⊢
    have hb : (m + 1) * m ≤ 65536 * 65535 := Nat.mul_le_mul (by omega) (by omega)
    rw [Nat.mod_eq_of_lt (by omega)]
    have : 2 * ∑ x ∈ Finset.range m, (m - x) = (m + 1) * m := by nlinarith
    omega
  refine ⟨hlen, ?_⟩
  intro k hk
  rw [← hlen] at hk
  have h1 := hmem _ (List.getElem_mem hk)
  obtain ⟨k', e1, _, e3⟩ := C62_edge_of_pair h1.1 h1.2 hn
  -- the list has no duplicates, as every pair has one index
  have hinj : ∀ a b : Nat, a < (generateGraph n).length → (generateGraph n)[a]? = (generateGraph n)[b]? → a = b := by
    have hnd : (generateGraph n).Nodup := by
      rw [generateGraph, List.nodup_flatMap]
      constructor
      · intro i _
        refine List.Nodup.map ?_ (List.nodup_range)
        intro a b hab; simp only [Prod.mk.injEq, true_and] at hab; omega
      · refine List.Pairwise.imp ?_ (List.nodup_range (n := n - 1))
        intro a b hab x h1 h2
        simp only [List.mem_map] at h1 h2
        obtain ⟨_, _, rfl⟩ := h1
        obtain ⟨_, _, h2⟩ := h2
        simp only [Prod.mk.injEq] at h2
        exact hab h2.1.symm
    intro a b ha hab
    exact (List.getElem?_inj ha hnd).1 hab
  have hkk : k = k' := hinj k k' hk (by rw [e3, List.getElem?_eq_getElem hk])
  subst hkk
  refine ⟨(generateGraph n)[k], ⟨h1.1, h1.2, e1⟩, ?_⟩
  rintro ⟨a, b⟩ ⟨g1, g2, g3⟩
  obtain ⟨k'', f1, _, f3⟩ := C62_edge_of_pair g1 g2 hn
  rw [g3] at f1
  simp only [Res.ok.injEq] at f1
  subst f1
  rw [List.getElem?_eq_getElem hk, Option.some.injEq] at f3
  exact f3.symm

/-- Equal numbers abort. -/
theorem C62_equal_aborts (n v : Nat) : edgeIndex n v v = .abort := by simp [edgeIndex]

/-- With more devices the number of edges wraps around (`uint32_t`), and indices are outside of the vector of channels. -/
theorem C62_overflow : ∃ k, edgeIndex 65537 0 40000 = .ok k ∧ nofEdges 65537 ≤ k := ⟨39999, by decide +kernel, by decide +kernel⟩

example : edgeIndex 6 4 2 = .ok 10 ∧ edgeIndex 6 2 4 = .ok 10 := by decide +kernel
example : generateGraph 4 = [(0, 1), (0, 2), (0, 3), (1, 2), (1, 3), (2, 3)] := by decide +kernel

end Verif.Sim
