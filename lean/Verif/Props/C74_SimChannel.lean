import Verif.Lemma.SimChannel
import Mathlib.Data.Rat.Floor
import Mathlib.Algebra.Order.BigOperators.Group.List
import Mathlib.Tactic.NormNum
import Mathlib.Tactic.FinCases
import Mathlib.Tactic.LinearCombination
import Mathlib.Analysis.SpecialFunctions.Trigonometric.Basic

/-! # C74: the simulated radio channel is a reciprocal linear channel without seams -/

namespace Verif.Sim.Wireless

open Spec

section
variable {F : Type} [Field F] [CharZero F]

/-- A link started with silence. For every history of uses in both directions, chunk sizes permitting, sample `k` of every output is the
superposition of the taps: the input of this direction delayed by the tap's delay, across the borders of the chunks, times a sum of sinusoids of
absolute time. The other direction plays no role. -/
theorem C74_link (sqrt : F → F) (cis : F → Cx F) (tp : F) (h : Turn cis tp) (spp : Nat) (taps : List (Tap F)) (ht : ∀ p ∈ taps, GoodTap spp p)
    (us : List (Use F)) (hu : ∀ u ∈ us, u.inp.length = spp) :
    ∃ outs, outputs sqrt cis tp spp ⟨taps, List.replicate spp 0, List.replicate spp 0⟩ us = .ok outs ∧ outs.length = us.length ∧
      ∀ (i : Nat) (u : Use F), us[i]? = some u → (outs.getD i []).length = spp ∧ ∀ k < spp, at2 outs i k =
        response sqrt cis tp taps ((u.t : F) + k) fun d =>
          stream (sent us u.primary) ((spp * (sent (us.take i) u.primary).length + k : Nat) - d : Int) := by
  obtain ⟨outs, e, hl, hv⟩ := outputs_ok (sqrt := sqrt) h us ⟨taps, List.replicate spp 0, List.replicate spp 0⟩ (fun _ => []) ht (by simp)
    (by intro b; unfold Link.hist; split_ifs <;> rfl) hu
  refine ⟨outs, e, hl, fun i u hi => ?_⟩
  obtain ⟨a, b⟩ := hv i u hi
  refine ⟨a, fun k hk => ?_⟩
  have := b k hk
  simp only [List.nil_append, List.length_nil, Nat.zero_add] at this
  exact this

/-- Both ends that send the same receive the same at the same time -/
theorem C74_reciprocal_link (sqrt : F → F) (cis : F → Cx F) (tp : F) (h : Turn cis tp) (spp : Nat) (taps : List (Tap F))
    (ht : ∀ p ∈ taps, GoodTap spp p) (us : List (Use F)) (hu : ∀ u ∈ us, u.inp.length = spp) (hs : sent us true = sent us false)
    {i j : Nat} {u v : Use F} (hi : us[i]? = some u) (hj : us[j]? = some v) (hn : (sent (us.take i) u.primary).length = (sent (us.take j) v.primary).length)
    (hte : u.t = v.t) (outs : List (List (Cx F)))
    (e : outputs sqrt cis tp spp ⟨taps, List.replicate spp 0, List.replicate spp 0⟩ us = .ok outs) : outs.getD i [] = outs.getD j [] := by
  obtain ⟨outs', e', _, hv⟩ := C74_link sqrt cis tp h spp taps ht us hu
  obtain rfl : outs = outs' := by rw [e] at e'; exact Res.ok.inj e'
  have hsame : sent us u.primary = sent us v.primary := by
    cases u.primary <;> cases v.primary <;> simp [hs]
  obtain ⟨a1, b1⟩ := hv i u hi
  obtain ⟨a2, b2⟩ := hv j v hj
  apply List.ext_getElem (by rw [a1, a2])
  intro k h1 h2
  have hk : k < spp := a1 ▸ h1
  rw [← List.getD_eq_getElem _ 0, ← List.getD_eq_getElem _ 0]
  have := b1 k hk
  rw [hn, hte, hsame, ← b2 k hk] at this
  exact this

/-- One channel: each pair of antennas has its own entry, used once; every receive antenna hears the sum -/
theorem C74_superimpose (sqrt : F → F) (cis : F → Cx F) (tp : F) (h : Turn cis tp) (spp idTx idRx nTx nRx : Nat) (t : Int) (g : Nat → Nat → F)
    (x : List (List (Cx F))) (hx : Frame nTx spp x) (ids : Nat × Nat) (c : Chan F) (rx : List (List (Cx F))) (hc : Fits spp (nTx * nRx) c)
    (hr : Frame nRx spp rx) :
    if ids = (idTx, idRx) ∨ ids = (idRx, idTx) then
      ∃ rx', superimpose sqrt cis tp spp idTx idRx nTx nRx t g x ids c rx = .ok (pairNext c (faded g x nRx) (decide (idTx < idRx)), rx') ∧
        Frame nRx spp rx' ∧ ∀ b < nRx, ∀ k < spp, at2 rx' b k = at2 rx b k + ((List.range nTx).map fun a =>
          pairOut sqrt cis tp spp c (a * nRx + b) (decide (idTx < idRx)) t (fun k => real (g a b) (at2 x a k)) k).sum
    else superimpose sqrt cis tp spp idTx idRx nTx nRx t g x ids c rx = .abort := by
  split_ifs with hi
  · exact superimpose_ok h t g x hx ids hi c rx hc hr
  · unfold superimpose
    have : ((decide (idTx = ids.1) && decide (idRx = ids.2)) || (decide (idTx = ids.2) && decide (idRx = ids.1))) = false := by
      rw [Bool.eq_false_iff]
      intro e
      apply hi
      simp only [Bool.or_eq_true, Bool.and_eq_true, decide_eq_true_eq] at e
      rcases e with ⟨e1, e2⟩ | ⟨e1, e2⟩
      · left; rw [e1, e2]
      · right; rw [e1, e2]
    rw [this]; rfl

/-- A device hears all other devices, except while it sends, and its own leakage -/
theorem C74_execute (sqrt : F → F) (cis : F → Cx F) (tp : F) (h : Turn cis tp) (spp d nRx : Nat) (hspp : 0 < spp) (t : Int) (g : Nat → Nat → Nat → F)
    (tx : Nat → Tx F) (hx : ∀ i, Frame (tx i).nAnt spp (tx i).x) (inter : List (Nat × Chan F)) (intra : Chan F) (rx : List (List (Cx F)))
    (hi : ∀ c ∈ inter, Fits spp ((tx c.1).nAnt * nRx) c.2) (hd : Fits spp ((tx d).nAnt * nRx) intra) (hr : Frame nRx spp rx)
    (hown : 0 ≤ (tx d).idx → (tx d).len ≠ 0 ∧ (tx d).idx.toNat + (tx d).len ≤ spp) :
    ∃ rx', execute sqrt cis tp spp d nRx t g tx inter intra rx =
        .ok (inter.map fun c => (c.1, pairNext c.2 (faded (g c.1) (tx c.1).x nRx) (decide (c.1 < d))),
          pairNext intra (faded (g d) (tx d).x nRx) false, rx') ∧ Frame nRx spp rx' ∧
      ∀ b < nRx, ∀ k < spp, at2 rx' b k =
        (if 0 ≤ (tx d).idx ∧ (tx d).idx ≤ k ∧ (k : Int) < (tx d).idx + (tx d).len then 0 else
          (inter.map fun c => ((List.range (tx c.1).nAnt).map fun a =>
            pairOut sqrt cis tp spp c.2 (a * nRx + b) (decide (c.1 < d)) t (fun k => real (g c.1 a b) (at2 (tx c.1).x a k)) k).sum).sum) +
        ((List.range (tx d).nAnt).map fun a =>
          pairOut sqrt cis tp spp intra (a * nRx + b) false t (fun k => real (g d a b) (at2 (tx d).x a k)) k).sum := by
  obtain ⟨r0, e0, f0, v0⟩ := sppZero_ok rx hr (Nat.ne_of_gt hspp) (show 0 + spp ≤ spp by omega)
  obtain ⟨r1, e1, f1, v1⟩ := executeInter_ok (sqrt := sqrt) h (d := d) t g tx hx inter r0 hi f0
  have hm : ∃ r2, mute spp (tx d) r1 = .ok r2 ∧ Frame nRx spp r2 ∧ ∀ b k, k < spp → at2 r2 b k =
      if 0 ≤ (tx d).idx ∧ (tx d).idx ≤ k ∧ (k : Int) < (tx d).idx + (tx d).len then 0 else at2 r1 b k := by
    unfold mute
    by_cases ho : 0 ≤ (tx d).idx
    · rw [if_pos ho]
      obtain ⟨r2, e2, f2, v2⟩ := sppZero_ok r1 f1 (hown ho).1 (hown ho).2
      refine ⟨r2, e2, f2, fun b k hk => ?_⟩
      rw [v2 b k hk]
      congr 1
      apply propext
      omega
    · rw [if_neg ho]
      refine ⟨r1, rfl, f1, fun b k _ => ?_⟩
      rw [if_neg (fun hh => ho hh.1)]
  obtain ⟨r2, e2, f2, v2⟩ := hm
  obtain ⟨r3, e3, f3, v3⟩ := superimpose_ok (sqrt := sqrt) h (idTx := d) (idRx := d) t (g d) (tx d).x (hx d) (d, d) (Or.inl rfl) intra r2 hd f2
  refine ⟨r3, ?_, f3, fun b hb k hk => ?_⟩
  rotate_left
  · rw [v3 b hb k hk, v2 b k hk, v1 b hb k hk, v0 b k hk, if_pos (show 0 ≤ k ∧ k < 0 + spp by omega)]
    simp only [Nat.lt_irrefl, decide_false, zero_add]
  · unfold execute
    rw [e0, Res.ok_bind, e1, Res.ok_bind]
    simp only
    rw [e2, Res.ok_bind, e3, Res.ok_bind, decide_eq_false (Nat.lt_irrefl d)]
    rfl

/-- Flat channel between devices 0 and 1: the gain from antenna `a` of device 0 to antenna `b` of device 1 is that of the opposite direction, if
one of the devices has a single antenna. Missing: two devices with several antennas, see `C74_reciprocal_finding`. -/
theorem C74_reciprocal_partial (sqrt : F → F) (cis : F → Cx F) (tp : F) (spp n0 n1 a b : Nat) (ha : a < n0) (hb : b < n1)
    (hn : n0 = 1 ∨ n1 = 1) (coeffs : List (Cx F)) (t : Int) (y : Nat → Cx F) (k : Nat) :
    pairOut sqrt cis tp spp (.flat coeffs) (a * n1 + b) true t y k = pairOut sqrt cis tp spp (.flat coeffs) (b * n0 + a) false t y k := by
  rcases hn with rfl | rfl
  · obtain rfl : a = 0 := by omega
    simp [pairOut]
  · obtain rfl : b = 0 := by omega
    simp [pairOut]

/-- Two devices with two or more antennas each, both hear each other through the same flat channel. Device 0 sends from antenna 0 only and
device 1 receives on antenna 1; then device 1 sends the same from antenna 1 only and device 0 receives on antenna 0. The received signals are the
input times entry 1 and times entry `n0` of the coefficients: two independent random numbers, the channel is not reciprocal. -/
theorem C74_reciprocal_finding (sqrt : F → F) (cis : F → Cx F) (tp : F) (h : Turn cis tp) (spp n0 n1 : Nat) (h0 : 2 ≤ n0) (h1 : 2 ≤ n1)
    (coeffs : List (Cx F)) (hc : coeffs.length = n0 * n1) (t : Int) (x0 x1 : List (List (Cx F))) (hx0 : Frame n0 spp x0) (hx1 : Frame n1 spp x1)
    (s : Nat → Cx F) (hs0 : ∀ a k, at2 x0 a k = if a = 0 then s k else 0) (hs1 : ∀ a k, at2 x1 a k = if a = 1 then s k else 0) :
    ∃ at1 at0, superimpose sqrt cis tp spp 0 1 n0 n1 t (fun _ _ => 1) x0 (0, 1) (.flat coeffs) (List.replicate n1 (List.replicate spp 0)) =
        .ok (.flat coeffs, at1) ∧
      superimpose sqrt cis tp spp 1 0 n1 n0 t (fun _ _ => 1) x1 (0, 1) (.flat coeffs) (List.replicate n0 (List.replicate spp 0)) =
        .ok (.flat coeffs, at0) ∧
      ∀ k < spp, at2 at1 1 k = s k * coeffs.getD 1 0 ∧ at2 at0 0 k = s k * coeffs.getD n0 0 := by
  have hz : ∀ n b k, at2 (List.replicate n (List.replicate spp (0 : Cx F))) b k = 0 := by
    intro n b k
    unfold at2
    by_cases hb : b < n
    · have : (List.replicate n (List.replicate spp (0 : Cx F))).getD b [] = List.replicate spp 0 := by
        simp [List.getD_eq_getElem?_getD, List.getElem?_replicate, hb]
      rw [this, replicate_getD]
    · have : (List.replicate n (List.replicate spp (0 : Cx F))).getD b [] = [] := by
        simp [List.getD_eq_getElem?_getD, List.getElem?_replicate, hb]
      rw [this]; rfl
  have hf : ∀ n, Frame n spp (List.replicate n (List.replicate spp (0 : Cx F))) := by
    intro n
    refine ⟨by simp, fun l hl => ?_⟩
    rw [List.eq_of_mem_replicate hl]; simp
  have hone : ∀ z : Cx F, real 1 z = z := by intro z; unfold real; ext <;> simp
  have hsum : ∀ (n j : Nat) (v : Nat → Cx F), j < n → ((List.range n).map fun a => if a = j then v a else 0).sum = v j := by
    intro n j v hj
    induction n with
    | zero => omega
    | succ n ih =>
      rw [List.range_succ (n := n), List.map_append, List.sum_append]
      by_cases e : j = n
      · subst e
        have : ((List.range j).map fun a => if a = j then v a else 0) = (List.range j).map fun _ => 0 := by
          apply List.map_congr_left; intro a m; rw [if_neg (Nat.ne_of_lt (List.mem_range.mp m))]
        rw [this]; simp
      · rw [ih (by omega)]; simp [Ne.symm e]
  obtain ⟨r1, e1, _, v1⟩ := superimpose_ok (sqrt := sqrt) h (idTx := 0) (idRx := 1) t (fun _ _ => 1) x0 hx0 (0, 1) (Or.inl rfl) (.flat coeffs) _
    (show Fits spp (n0 * n1) (.flat coeffs) from hc) (hf n1)
  obtain ⟨r0, e0, _, v0⟩ := superimpose_ok (sqrt := sqrt) h (idTx := 1) (idRx := 0) t (fun _ _ => 1) x1 hx1 (0, 1) (Or.inr rfl) (.flat coeffs) _
    (show Fits spp (n1 * n0) (.flat coeffs) from hc.trans (Nat.mul_comm _ _)) (hf n0)
  refine ⟨r1, r0, e1, e0, fun k hk => ⟨?_, ?_⟩⟩
  · rw [v1 1 (by omega) k hk, hz, zero_add]
    have : ∀ a, pairOut sqrt cis tp spp (.flat coeffs) (a * n1 + 1) (decide (0 < 1)) t (fun k => real 1 (at2 x0 a k)) k =
        if a = 0 then s k * coeffs.getD (a * n1 + 1) 0 else 0 := by
      intro a
      unfold pairOut
      simp only [hone, hs0]
      split_ifs with ha
      · rfl
      · rw [cx_mul_comm, cx_mul_zero]
    simp only [this]
    rw [hsum n0 0 _ (by omega)]
    simp
  · rw [v0 0 (by omega) k hk, hz, zero_add]
    have : ∀ a, pairOut sqrt cis tp spp (.flat coeffs) (a * n0 + 0) (decide (1 < 0)) t (fun k => real 1 (at2 x1 a k)) k =
        if a = 1 then s k * coeffs.getD (a * n0 + 0) 0 else 0 := by
      intro a
      unfold pairOut
      simp only [hone, hs1]
      split_ifs with ha
      · rfl
      · rw [cx_mul_comm, cx_mul_zero]
    simp only [this]
    rw [hsum n1 1 _ (by omega)]
    simp

/-- The leakage of a device without fading: every transmit antenna leaks into every receive path, not only into its own -/
theorem C74_leakage_finding (sqrt : F → F) (cis : F → Cx F) (tp : F) (h : Turn cis tp) (spp d n : Nat) (t : Int) (g : Nat → Nat → F)
    (x rx : List (List (Cx F))) (hx : Frame n spp x) (hr : Frame n spp rx) :
    ∃ rx', superimpose sqrt cis tp spp d d n n t g x (d, d) .awgn rx = .ok (.awgn, rx') ∧
      ∀ b < n, ∀ k < spp, at2 rx' b k = at2 rx b k + ((List.range n).map fun a => real (g a b) (at2 x a k)).sum := by
  obtain ⟨r, e, _, v⟩ := superimpose_ok (sqrt := sqrt) h (idTx := d) (idRx := d) t g x hx (d, d) (Or.inl rfl) .awgn rx trivial hr
  exact ⟨r, e, v⟩

end

section
variable {F : Type} [Field F] [LinearOrder F] [IsStrictOrderedRing F] [FloorRing F]

theorem profile_zip {idx : Nat} (hi : idx < 3) : (genericDelays.getD idx []).zip (genericPowers.getD idx []) = profile idx := by
  have : ∀ i : Fin 3, (genericDelays.getD i.val []).zip (genericPowers.getD i.val []) = profile i.val := by
    intro i
    fin_cases i <;> simp [genericDelays, genericPowers, profile] <;> norm_num
  exact this ⟨idx, hi⟩

theorem profile_facts {idx : Nat} (hi : idx < 3) : ((profile idx).map (·.1)).Pairwise (· ≤ ·) ∧ ((profile idx).map (·.1)).head? = some 0 ∧
    lastDelay idx ∈ (profile idx).map (·.1) ∧ ∀ n ∈ (profile idx).map (·.1), n ≤ lastDelay idx := by
  have : ∀ i : Fin 3, ((profile i.val).map (·.1)).Pairwise (· ≤ ·) ∧ ((profile i.val).map (·.1)).head? = some 0 ∧
    lastDelay i.val ∈ (profile i.val).map (·.1) ∧ ∀ n ∈ (profile i.val).map (·.1), n ≤ lastDelay i.val := by
    intro i
    fin_cases i <;> simp [profile, lastDelay]
  exact this ⟨idx, hi⟩

/-- The power delay profile at the sample rate, `c` samples per ns of the stored profile: the constructor of a link aborts if and only if the last
delay does not fit into a chunk. Otherwise the delays ascend from 0, each power is what falls on its sample, normalized, and the powers add up
to 1. -/
theorem C74_profile (db2pow : ℚ → F) (hpos : ∀ q, 0 < db2pow q) (c : F) (hc : 0 ≤ c) (spp idx : Nat) :
    if idx < 3 ∧ ⌊(lastDelay idx : F) * c⌋ < spp then
      ∃ l, setPdp db2pow c spp idx = .ok l ∧ (l.map (·.1)).Pairwise (· < ·) ∧ (l.map (·.1)).head? = some 0 ∧ (∀ p ∈ l, p.1 < spp ∧ 0 < p.2) ∧
        (l.map (·.2)).sum = 1 ∧
        ∀ n : Nat, ((l.filter fun p => p.1 = n).map (·.2)).sum =
          (((profile idx).filter fun x => ⌊(x.1 : F) * c⌋ = n).map fun x => db2pow x.2).sum / ((profile idx).map fun x => db2pow x.2).sum
    else setPdp db2pow c spp idx = .abort := by
  by_cases hi : idx < 3
  swap
  · rw [if_neg (fun h => hi h.1)]
    unfold setPdp
    rw [decide_eq_false hi]; rfl
  obtain ⟨p1, p2, p3, p4⟩ := profile_facts hi
  set f : Nat × ℚ → Nat × F := fun x => (⌊(x.1 : F) * c⌋.toNat, db2pow x.2) with hf
  have hmono : ∀ {a b : Nat}, a ≤ b → ⌊(a : F) * c⌋.toNat ≤ ⌊(b : F) * c⌋.toNat := by
    intro a b hab
    apply Int.toNat_le_toNat
    apply Int.floor_le_floor
    exact mul_le_mul_of_nonneg_right (by exact_mod_cast hab) hc
  have hfst : ((profile idx).map f).map (·.1) = ((profile idx).map (·.1)).map fun n : Nat => ⌊(n : F) * c⌋.toNat := by
    rw [List.map_map, List.map_map]; rfl
  obtain ⟨a1, a2, a3, a4, a5⟩ := fold_taps ((profile idx).map f) [] (by simp)
    (by rw [hfst, List.pairwise_map]; exact p1.imp fun h => hmono h) (by simp) (by simp)
    (by intro x hx; obtain ⟨y, _, rfl⟩ := List.mem_map.mp hx; exact hpos _)
  set L := ((profile idx).map f).foldl addTap [] with hL
  have hset : setPdp db2pow c spp idx = normalize spp L := by
    unfold setPdp
    rw [decide_eq_true hi, Res.assert_true, Res.ok_bind, profile_zip hi, hL, List.foldl_map]
  simp only [List.map_nil, List.not_mem_nil, false_or, List.filter_nil, List.sum_nil, zero_add] at a3 a4 a5
  rw [hfst] at a5
  have h0 : 0 ∈ L.map (·.1) := by
    rw [a5, List.mem_map]
    exact ⟨0, List.mem_of_mem_head? (by rw [p2]; rfl), by simp⟩
  have hlast : ⌊(lastDelay idx : F) * c⌋.toNat ∈ L.map (·.1) := by
    rw [a5, List.mem_map]; exact ⟨_, p3, rfl⟩
  have hmax : ∀ n ∈ L.map (·.1), n ≤ ⌊(lastDelay idx : F) * c⌋.toNat := by
    intro n hn
    rw [a5, List.mem_map] at hn
    obtain ⟨m, hm, rfl⟩ := hn
    exact hmono (p4 m hm)
  have hne : L ≠ [] := by rintro e; rw [e] at h0; simp at h0
  have hhead : (L.map (·.1)).head? = some 0 := by
    revert h0 a1
    generalize L.map (·.1) = M
    intro a1 h0
    cases M with
    | nil => simp at h0
    | cons m M =>
      simp only [List.pairwise_cons] at a1
      rcases List.mem_cons.mp h0 with e | m'
      · rw [← e]; rfl
      · have := a1.1 0 m'; omega
  have hback : (L.getLastD (0, 0)).1 = ⌊(lastDelay idx : F) * c⌋.toNat := by
    obtain ⟨M, z, e⟩ := (List.eq_nil_or_concat L).resolve_left hne
    rw [e] at hlast hmax a1 ⊢
    simp only [List.concat_eq_append, List.map_append, List.map_cons, List.map_nil] at hlast hmax a1 ⊢
    simp only [List.getLastD_concat]
    rcases List.mem_append.mp hlast with m | m
    · have := (List.pairwise_append.mp a1).2.2 _ m z.1 (by simp)
      have h2 := hmax z.1 (by simp)
      omega
    · simpa using (List.mem_singleton.mp m).symm
  have hsum : (L.map (·.2)).sum = ((profile idx).map fun x => db2pow x.2).sum := by
    rw [a4, List.map_map]; rfl
  have hspos : 0 < (L.map (·.2)).sum := by
    obtain ⟨z, M, e⟩ := List.exists_cons_of_ne_nil hne
    rw [e, List.map_cons, List.sum_cons]
    apply add_pos_of_pos_of_nonneg (a2 z (by rw [e]; simp))
    apply List.sum_nonneg
    intro w hw
    obtain ⟨v, hv, rfl⟩ := List.mem_map.mp hw
    exact le_of_lt (a2 v (by rw [e]; simp [hv]))
  have hdiv : ∀ (l : List (Nat × F)) (s : F), ((l.map fun x => (x.1, x.2 / s)).map (·.2)).sum = (l.map (·.2)).sum / s := by
    intro l s
    induction l with
    | nil => simp
    | cons x l ih => simp only [List.map_cons, List.sum_cons, ih, add_div]
  have hfl : 0 ≤ ⌊(lastDelay idx : F) * c⌋ := Int.floor_nonneg.mpr (mul_nonneg (Nat.cast_nonneg _) hc)
  set N := L.map fun x => (x.1, x.2 / (L.map (·.2)).sum) with hN
  have hN1 : N.map (·.1) = L.map (·.1) := by rw [hN, List.map_map]; rfl
  have hN2 : (N.map (·.2)).sum = 1 := by rw [hN, hdiv, div_self (ne_of_gt hspos)]
  have hNe : N.isEmpty = false := by
    rw [List.isEmpty_eq_false_iff]; intro e; apply hne; rw [hN, List.map_eq_nil_iff] at e; exact e
  have hNh : (N.headD ((1 : Nat), 0)).1 = 0 := by
    rw [← hN1] at hhead
    cases hNN : N with
    | nil => rw [hNN] at hNe; simp at hNe
    | cons z M => rw [hNN] at hhead; simpa using hhead
  have hNl : (N.getLastD (0, 0)).1 = ⌊(lastDelay idx : F) * c⌋.toNat := by
    rw [← hback]
    obtain ⟨M, z, e⟩ := (List.eq_nil_or_concat L).resolve_left hne
    rw [hN, e]; simp
  have hnorm : normalize spp L = if ⌊(lastDelay idx : F) * c⌋.toNat < spp then .ok N else .abort := by
    unfold normalize
    simp only
    rw [← hN, hNe, decide_eq_true hNh, hN2, decide_eq_true (by norm_num : (999 / 1000 : F) < 1), decide_eq_true (by norm_num : (1 : F) < 10001 / 10000), hNl]
    simp only [Bool.not_false, Res.assert_true, Res.ok_bind]
    by_cases hb : ⌊(lastDelay idx : F) * c⌋.toNat < spp
    · rw [if_pos hb, decide_eq_true hb]; rfl
    · rw [if_neg hb, decide_eq_false hb]; rfl
  split_ifs with hcase
  · have hb : ⌊(lastDelay idx : F) * c⌋.toNat < spp := by omega
    refine ⟨N, by rw [hset, hnorm, if_pos hb], by rw [hN1]; exact a1, by rw [hN1]; exact hhead, ?_, hN2, ?_⟩
    · intro p hp
      have h1 : p.1 ∈ L.map (·.1) := by rw [← hN1]; exact List.mem_map.mpr ⟨p, hp, rfl⟩
      refine ⟨lt_of_le_of_lt (hmax _ h1) hb, ?_⟩
      obtain ⟨q, hq, rfl⟩ := List.mem_map.mp (hN ▸ hp)
      exact div_pos (a2 q hq) hspos
    · intro n
      have e1 : N.filter (fun p => p.1 = n) = (L.filter fun p => p.1 = n).map fun x => (x.1, x.2 / (L.map (·.2)).sum) := by
        rw [hN, List.filter_map]; rfl
      rw [e1, hdiv, a3, hsum, List.filter_map, List.map_map]
      congr 3
      apply List.filter_congr
      intro x _
      simp only [hf, Function.comp_apply]
      have : 0 ≤ ⌊(x.1 : F) * c⌋ := Int.floor_nonneg.mpr (mul_nonneg (Nat.cast_nonneg _) hc)
      congr 1
      apply propext
      omega
  · have hb : ¬ ⌊(lastDelay idx : F) * c⌋.toNat < spp := by
      intro hb; apply hcase; exact ⟨hi, by omega⟩
    rw [hset, hnorm, if_neg hb]

omit [FloorRing F] in
/-- The channel neither amplifies nor attenuates: at all times the powers of all sinusoids of all taps add up to 1. This is the mean power of the
output for uncorrelated phases and an input of power 1. -/
theorem C74_energy (sqrt : F → F) (hq : Root sqrt) (cis : F → Cx F) (hcis : ∀ a, (cis a).sq = 1) (tp : F) (taps : List (Tap F)) (t : F)
    (hp : ∀ p ∈ taps, 0 ≤ p.power ∧ p.sines.length = 40) (hs : (taps.map (·.power)).sum = 1) :
    (taps.map fun p => (p.sines.map fun s => (gain sqrt cis tp { p with sines := [s] } t).sq).sum).sum = 1 := by
  have : (taps.map fun p => (p.sines.map fun s => (gain sqrt cis tp { p with sines := [s] } t).sq).sum) = taps.map (·.power) := by
    apply List.map_congr_left
    intro p hm
    have h40 : sqrt 40 * sqrt 40 = 40 := hq 40 (by norm_num)
    have hh := hq p.power (hp p hm).1
    have one : ∀ s : Sine F, (gain sqrt cis tp { p with sines := [s] } t).sq = p.power / 40 := by
      intro s
      have hc := hcis (s.phase + tp * t / (s.period : F))
      have hd : sqrt p.power / sqrt 40 * (sqrt p.power / sqrt 40) = p.power / 40 := by rw [div_mul_div_comm, hh, h40]
      simp only [gain, real, List.map_cons, List.map_nil, List.sum_cons, List.sum_nil, add_zero, Cx.sq] at hc ⊢
      rw [← hd]
      linear_combination (sqrt p.power / sqrt 40 * (sqrt p.power / sqrt 40)) * hc
    simp only [one, List.map_const', List.sum_replicate, (hp p hm).2, nsmul_eq_mul]
    push_cast
    ring
  rw [this, hs]

omit [IsStrictOrderedRing F] in
theorem trunc_pos {x : F} (h : 0 ≤ x) : trunc x = ⌊x⌋ := by unfold trunc; rw [if_pos h]

/-- Sinusoids have a period: for Doppler frequencies up to 2000 Hz and sample rates above, no division by zero. The period is that of the
frequency, rounded towards zero to samples; below 0.01 Hz it is the largest number. -/
theorem C74_period (rate : Nat) (hr : 2000 < rate) (f : F) (hf : |f| ≤ 2000) :
    periodOf rate f ≠ 0 ∧ (|f| < 1 / 100 → periodOf rate f = 9223372036854775807) ∧
      (1 / 100 ≤ |f| → |(rate : F) / f - periodOf rate f| < 1 ∧ 0 < (periodOf rate f : F) * f) := by
  have hrF : (2000 : F) < rate := by exact_mod_cast hr
  unfold periodOf
  by_cases hd : -(1 / 100) < f ∧ f < 1 / 100
  · rw [if_pos hd]
    refine ⟨by norm_num, fun _ => rfl, fun h => ?_⟩
    exact absurd (abs_lt.mpr hd) (not_lt.mpr h)
  · rw [if_neg hd]
    have hd' : ¬ |f| < 1 / 100 := fun h => hd (abs_lt.mp h)
    rcases lt_trichotomy f 0 with hn | h0 | hp
    · have hq : (rate : F) / f ≤ -1 := by
        rw [div_le_iff_of_neg hn]
        have := (abs_le.mp hf).1
        linarith
      have hlt : ¬ 0 ≤ (rate : F) / f := by linarith
      have ht : trunc ((rate : F) / f) = ⌈(rate : F) / f⌉ := by unfold trunc; rw [if_neg hlt]
      rw [ht]
      have hc : ⌈(rate : F) / f⌉ ≤ -1 := Int.ceil_le.mpr (by simpa using hq)
      refine ⟨by omega, fun h => absurd h hd', fun _ => ⟨?_, ?_⟩⟩
      · have h1 := Int.le_ceil ((rate : F) / f)
        have h2 := Int.ceil_lt_add_one ((rate : F) / f)
        rw [abs_lt]; constructor <;> linarith
      · apply mul_pos_of_neg_of_neg _ hn
        have : (⌈(rate : F) / f⌉ : F) ≤ -1 := by exact_mod_cast hc
        linarith
    · rw [h0] at hd'; norm_num at hd'
    · have hq : 1 ≤ (rate : F) / f := by
        rw [le_div_iff₀ hp]
        have := (abs_le.mp hf).2
        linarith
      rw [trunc_pos (by linarith)]
      have hc : 1 ≤ ⌊(rate : F) / f⌋ := Int.le_floor.mpr (by simpa using hq)
      refine ⟨by omega, fun h => absurd h hd', fun _ => ⟨?_, ?_⟩⟩
      · have h1 := Int.floor_le ((rate : F) / f)
        have h2 := Int.lt_floor_add_one ((rate : F) / f)
        rw [abs_lt]; constructor <;> linarith
      · apply mul_pos _ hp
        have : (1 : F) ≤ (⌊(rate : F) / f⌋ : F) := by exact_mod_cast hc
        linarith

end

/-- Sine, cosine and square root meet the hypotheses -/
theorem C74_real_example : Turn (fun a : ℝ => (⟨Real.cos a, Real.sin a⟩ : Cx ℝ)) (2 * Real.pi) ∧ Root Real.sqrt ∧
    ∀ a : ℝ, (⟨Real.cos a, Real.sin a⟩ : Cx ℝ).sq = 1 := by
  refine ⟨⟨fun a b => ?_, ?_⟩, fun x hx => Real.mul_self_sqrt hx, fun a => ?_⟩
  · ext
    · simp [Real.cos_add]
    · simp [Real.sin_add]; ring
  · simp
  · have := Real.sin_sq_add_cos_sq a
    simp only [Cx.sq]; nlinarith

/-- Real numbers as samples -/
def samples (l : List ℚ) : List (Cx ℚ) := l.map fun x => ⟨x, 0⟩

/-- A link with echo: taps at delay 0 and 1 and no Doppler. The last sample of the first chunk is heard in the second one, the use of the other
direction in between is not. -/
theorem C74_link_example :
    outputs (fun _ => 1) (fun _ => ⟨1, 0⟩) 1 2 ⟨[⟨0, 1, [⟨5, 0⟩]⟩, ⟨1, 1, [⟨-7, 0⟩]⟩], samples [0, 0], samples [0, 0]⟩
      [⟨samples [1, 2], true, 0⟩, ⟨samples [10, 20], false, 0⟩, ⟨samples [3, 4], true, 2⟩] =
      .ok [samples [1, 3], samples [10, 30], samples [5, 7]] ∧
    Turn (fun _ : ℚ => (⟨1, 0⟩ : Cx ℚ)) 1 := by
  refine ⟨by decide +kernel, fun a b => ?_, rfl⟩
  ext <;> simp

/-- Two devices with two antennas each and four different coefficients: the path from antenna 0 of device 0 to antenna 1 of device 1 has gain 2,
the opposite one has gain 3 -/
theorem C74_reciprocal_example :
    (superimpose (fun _ => 1) (fun _ => ⟨1, 0⟩) 1 1 0 1 2 2 0 (fun _ _ => 1) [samples [1], samples [0]] (0, 1) (.flat (samples [1, 2, 3, 4]))
        [samples [0], samples [0]] = .ok (.flat (samples [1, 2, 3, 4]), [samples [1], samples [2]])) ∧
    (superimpose (fun _ => 1) (fun _ => ⟨1, 0⟩) 1 1 1 0 2 2 0 (fun _ _ => 1) [samples [0], samples [1]] (0, 1) (.flat (samples [1, 2, 3, 4]))
        [samples [0], samples [0]] = .ok (.flat (samples [1, 2, 3, 4]), [samples [3], samples [4]])) := by
  constructor <;> decide +kernel

/-- 72 ns per sample: the delays 0, 30 and 70 ns fall on one sample, 90 and 110 ns on the next one -/
theorem C74_profile_example : setPdp (fun _ => (1 : ℚ)) (1 / 72) 6 0 = .ok [(0, 3 / 7), (1, 2 / 7), (2, 1 / 7), (5, 1 / 7)] ∧
    setPdp (fun _ => (1 : ℚ)) (1 / 72) 5 0 = .abort := by
  constructor <;> decide +kernel

/-- 10 Hz at 27.648 MHz -/
theorem C74_period_example : periodOf 27648000 (10 : ℚ) = 2764800 ∧ periodOf 27648000 (-1 / 3 : ℚ) = -82944000 ∧
    periodOf 27648000 (1 / 200 : ℚ) = 9223372036854775807 := by
  refine ⟨?_, ?_, ?_⟩ <;> decide +kernel

end Verif.Sim.Wireless
