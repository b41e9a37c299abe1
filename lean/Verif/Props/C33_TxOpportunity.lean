import Verif.Lemma.AllocationSearch
import Verif.Spec.Allocation

/-!
# C33: TX opportunity is the earliest allocated resource in the window

The theorems speak about every sufficiently large fuel: the loop of the C++ code, which has no bound, comes to an end with
this result. -/

namespace Verif.Props.C33

open Verif.Mac.Allocation Verif.Spec.Allocation
open Verif.Sp3.Duration (i64 multipleLeq)

set_option linter.unusedSimpArgs false

/-- The loop of the search comes to an end with this result. -/
def Returns (a : Alloc) (d : Dir) (now earliest : Int) (r : Res Opportunity) : Prop :=
  ∃ F, ∀ fuel, F ≤ fuel → getTxOpportunity fuel a d now earliest = some r

/-- Start of the permitted window: not before the earliest time, and not before the hardware can transmit -/
def lo (a : Alloc) (now earliest : Int) : Int := max (now + a.turnaround) earliest

/-- End of the permitted window: uplink, as long as the allocation is valid; downlink, one period after the beacon -/
def hi (a : Alloc) (d : Dir) (now : Int) : Int :=
  if d = .ul then min (a.beacon + a.validBeacon) (now + a.validNow) else a.beacon + a.period

/-- Offsets of the resources of a direction -/
def offs (a : Alloc) (d : Dir) : List Nat := (a.vec d).map fun r => r.off

/-- Times of up to 2^60 samples, durations of less than 2^31 samples -/
structure Ranges (a : Alloc) (now earliest : Int) : Prop where
  period : a.period < 2147483648
  validBeacon : a.validBeacon < 2147483648
  validNow : a.validNow < 2147483648
  turnaround : -1152921504606846976 ≤ a.turnaround ∧ a.turnaround ≤ 1152921504606846976
  beacon : -1152921504606846976 ≤ a.beacon ∧ a.beacon ≤ 1152921504606846976
  now : -1152921504606846976 ≤ now ∧ now ≤ 1152921504606846976
  earliest : -1152921504606846976 ≤ earliest ∧ earliest ≤ 1152921504606846976

theorem window_ok (a : Alloc) (d : Dir) (now earliest : Int) (hr : Ranges a now earliest) (hd : d ≠ .both)
    (hb : d = .ul → a.beacon ≤ now) : window a d now earliest = .ok (lo a now earliest, hi a d now) := by
  obtain ⟨h1, h2, h3, h4, h5, h6, h7⟩ := hr
  have e1 : earliestLocal a now earliest = .ok (lo a now earliest) := by
    unfold earliestLocal lo
    rw [i64_ok (by omega) (by omega)]
    rfl
  unfold window
  rw [e1, Res.ok_bind]
  cases d with
  | both => exact absurd rfl hd
  | ul =>
    have : latestUl a now = .ok (hi a .ul now) := by
      unfold latestUl hi
      rw [i64_ok (x := a.beacon + a.validBeacon) (by omega) (by omega),
        i64_ok (x := now + a.validNow) (by omega) (by omega)]
      simp [hb rfl]
    show (latestUl a now >>= _) = _
    rw [this]
    rfl
  | dl =>
    have : latestDl a = .ok (hi a .dl now) := by
      unfold latestDl hi
      rw [i64_ok (by omega) (by omega)]
      simp
    show (latestDl a >>= _) = _
    rw [this]
    rfl

theorem base_ok (a : Alloc) (e : Int) (hp : 1 ≤ a.period) (hp' : a.period < 2147483648)
    (hb : -1152921504606846976 ≤ a.beacon ∧ a.beacon ≤ 1152921504606846976)
    (he : -2305843009213693952 ≤ e ∧ e ≤ 2305843009213693952) :
    ∃ c : Nat, baseTime a e = .ok (a.beacon + (c * a.period : Nat)) ∧
      (a.beacon + (c * a.period : Nat) ≤ e ∧ e < a.beacon + (c * a.period : Nat) + a.period ∨ c = 0 ∧ e ≤ a.beacon) := by
  unfold baseTime
  by_cases h : e > a.beacon
  · rw [if_pos h]
    obtain ⟨B, hB⟩ : ∃ B : Nat, e = a.beacon + B := ⟨(e - a.beacon).toNat, by omega⟩
    refine ⟨B / a.period, ?_, ?_⟩
    · rw [i64_ok (x := e - a.beacon) (by omega) (by omega), Res.ok_bind]
      have hdiv : (e - a.beacon).tdiv a.period * a.period = ((B / a.period * a.period : Nat) : Int) := by
        rw [show e - a.beacon = (B : Int) by omega, Int.tdiv_eq_ediv_of_nonneg (by omega)]
        push_cast
        rfl
      have hle : B / a.period * a.period ≤ B := Nat.div_mul_le_self _ _
      have hm : multipleLeq (e - a.beacon) a.period = .ok ((B / a.period * a.period : Nat) : Int) := by
        unfold multipleLeq
        rw [hdiv, i64_ok (by omega) (by omega)]
        have : decide ((1 : Int) ≤ a.period) = true := by simp; omega
        rw [this]
        rfl
      rw [hm, Res.ok_bind, i64_ok (by omega) (by omega), Res.ok_bind]
      have : decide (a.beacon + ((B / a.period * a.period : Nat) : Int) ≤ e) = true := by
        rw [decide_eq_true_eq]; omega
      rw [this]
      rfl
    · left
      have h1 : B / a.period * a.period ≤ B := Nat.div_mul_le_self _ _
      have h2 : B < B / a.period * a.period + a.period := by
        have := Nat.lt_div_mul_add (a := B) (b := a.period) (by omega)
        omega
      omega
  · rw [if_neg h]
    exact ⟨0, by simp, Or.inr ⟨rfl, by omega⟩⟩

/-- The result of the search, for resources in any order (second part of each case only if they are in order of time) -/
theorem returns_spec (a : Alloc) (d : Dir) (now earliest : Int) (hr : Ranges a now earliest) (hd : d ≠ .both)
    (hb : d = .ul → a.beacon ≤ now) (hv : ∀ r ∈ a.vec d, 1 ≤ r.len ∧ r.off + r.len ≤ a.period) :
    ∃ o, Returns a d now earliest (.ok o) ∧
      ((o = ⟨-1, -1⟩ ∧ (Sorted (a.vec d) → ∀ t, Start a.beacon a.period (offs a d) t → lo a now earliest ≤ t → hi a d now ≤ t)) ∨
       (∃ r ∈ a.vec d, o.n = r.len ∧ Start a.beacon a.period [r.off] o.time ∧
          lo a now earliest ≤ o.time ∧ o.time < hi a d now ∧
          (Sorted (a.vec d) → ∀ t, Start a.beacon a.period (offs a d) t → lo a now earliest ≤ t → o.time ≤ t))) := by
  have hw := window_ok a d now earliest hr hd hb
  have hget : ∀ fuel, getTxOpportunity fuel a d now earliest = generic fuel a (lo a now earliest) (hi a d now) (a.vec d) := by
    intro fuel
    unfold getTxOpportunity
    rw [hw]
  by_cases he : a.vec d = []
  · refine ⟨⟨-1, -1⟩, ⟨0, fun fuel _ => ?_⟩, Or.inl ⟨rfl, fun _ t ht _ => ?_⟩⟩
    · rw [hget, generic, if_pos he]
    · obtain ⟨k, o, ho, -⟩ := ht
      rw [offs, he] at ho
      exact absurd ho (by simp)
  obtain ⟨r0, hr0⟩ := List.exists_mem_of_ne_nil _ he
  have hp : 1 ≤ a.period := by have := hv r0 hr0; omega
  by_cases hle : lo a now earliest > hi a d now
  · refine ⟨⟨-1, -1⟩, ⟨0, fun fuel _ => ?_⟩, Or.inl ⟨rfl, fun _ t ht h => by omega⟩⟩
    rw [hget, generic, if_neg he, if_pos hle]
  obtain ⟨h1, h2, h3, h4, h5, h6, h7⟩ := hr
  have hlo : -2305843009213693952 ≤ lo a now earliest ∧ lo a now earliest ≤ 2305843009213693952 := by
    unfold lo; omega
  have hhi : hi a d now < 4611686018427387904 := by
    unfold hi; split <;> omega
  obtain ⟨c, hc, hcc⟩ := base_ok a (lo a now earliest) hp h1 h5 hlo
  have hin : ∀ r ∈ a.vec d, r.off < a.period := fun r h => by have := hv r h; omega
  have hcp : a.beacon + ((c * a.period : Nat) : Int) < 4611686018427387904 + 2147483648 := by
    rcases hcc with h | ⟨rfl, h⟩
    · omega
    · simp only [Nat.zero_mul]; omega
  obtain ⟨o, F, hF, ho⟩ := search_spec a (a.vec d) (lo a now earliest) (hi a d now) hp h1 hin hhi _
    ⟨a.beacon + (c * a.period : Nat), 0⟩ (List.length_pos_of_ne_nil he) (by show _ ≤ a.beacon + _; omega)
    hcp rfl
  -- every start in the window is visited
  have hall : ∀ t, Start a.beacon a.period (offs a d) t → lo a now earliest ≤ t →
      ∃ r, After (a.vec d) a.period ⟨a.beacon + (c * a.period : Nat), 0⟩ r t := by
    rintro t ⟨k, off, hoff, rfl⟩ hlt
    obtain ⟨r, hrm, rfl⟩ := List.mem_map.1 hoff
    obtain ⟨j, hj, hjr⟩ := List.getElem_of_mem hrm
    have ho := hin r hrm
    have hkp : (k : Int) * (a.period : Int) = ((k * a.period : Nat) : Int) := by push_cast; rfl
    rw [hkp] at hlt
    have hck : c ≤ k := by
      rcases hcc with hcc | ⟨h, -⟩
      · by_contra hlt'
        have : (k + 1) * a.period ≤ c * a.period := Nat.mul_le_mul_right _ (by omega)
        rw [Nat.succ_mul] at this
        omega
      · omega
    refine ⟨r, k - c, j, hj, hjr.symm, ?_, fun _ => Nat.zero_le _⟩
    rw [hjr, hkp]
    have : k * a.period = c * a.period + (k - c) * a.period := by rw [← Nat.add_mul]; congr 1; omega
    show a.beacon + ((k * a.period : Nat) : Int) + _ = a.beacon + _ + _ + _
    rw [this]
    push_cast
    ring
  refine ⟨o, ⟨F, fun fuel hf => ?_⟩, ?_⟩
  · rw [hget, generic, if_neg he, if_neg hle, hc]
    exact hF fuel hf
  · rcases ho with ⟨rfl, hno⟩ | ⟨r, ⟨k, j, hj, hjr, ht, -⟩, hlen, hearl, hlat, hmin⟩
    · refine Or.inl ⟨rfl, fun hs t hst het => ?_⟩
      obtain ⟨r, hra⟩ := hall t hst het
      exact hno hs r t hra het
    · refine Or.inr ⟨r, hjr ▸ List.getElem_mem hj, hlen, ⟨c + k, r.off, by simp, ?_⟩, hearl, hlat, fun hs t hst het => ?_⟩
      · rw [ht, hjr]
        push_cast
        ring
      · obtain ⟨r', hra⟩ := hall t hst het
        exact hmin hs r' t hra het

/-- Resources in any order: the search comes to an end. An opportunity starts at a resource of the direction, in a beacon
period from the last known beacon on, has the length of the resource, and starts within the window. -/
theorem C33_opportunity_is_resource (a : Alloc) (d : Dir) (now earliest : Int) (hr : Ranges a now earliest) (hd : d ≠ .both)
    (hb : d = .ul → a.beacon ≤ now) (hv : ∀ r ∈ a.vec d, 1 ≤ r.len ∧ r.off + r.len ≤ a.period) :
    ∃ o, Returns a d now earliest (.ok o) ∧ (o = ⟨-1, -1⟩ ∨
      ∃ r ∈ a.vec d, o.n = r.len ∧ Start a.beacon a.period [r.off] o.time ∧ lo a now earliest ≤ o.time ∧ o.time < hi a d now) := by
  obtain ⟨o, h, h'⟩ := returns_spec a d now earliest hr hd hb hv
  refine ⟨o, h, ?_⟩
  rcases h' with ⟨h1, -⟩ | ⟨r, h1, h2, h3, h4, h5, -⟩
  · exact Or.inl h1
  · exact Or.inr ⟨r, h1, h2, h3, h4, h5⟩

/-- C33 for resources that were added in order of time. The search comes to an end. Either there is no opportunity, and
no resource starts within the window. Or the opportunity is a resource that starts within the window, and no resource
starts earlier in the window.
Missing: resources that were added in any other order, for which the claim is false (`C33_negation_not_earliest`,
`C33_negation_missed`). -/
theorem C33_tx_opportunity_partial (a : Alloc) (d : Dir) (now earliest : Int) (hr : Ranges a now earliest) (hd : d ≠ .both)
    (hb : d = .ul → a.beacon ≤ now) (hv : ∀ r ∈ a.vec d, 1 ≤ r.len ∧ r.off + r.len ≤ a.period)
    (hs : (a.vec d).Pairwise fun r s => r.off < s.off) :
    ∃ o, Returns a d now earliest (.ok o) ∧
      ((o = ⟨-1, -1⟩ ∧ ∀ t, Start a.beacon a.period (offs a d) t → ¬ (lo a now earliest ≤ t ∧ t < hi a d now)) ∨
       (∃ r ∈ a.vec d, o.n = r.len ∧ Start a.beacon a.period [r.off] o.time ∧
          lo a now earliest ≤ o.time ∧ o.time < hi a d now ∧
          ∀ t, Start a.beacon a.period (offs a d) t → lo a now earliest ≤ t → o.time ≤ t)) := by
  obtain ⟨o, h, h'⟩ := returns_spec a d now earliest hr hd hb hv
  refine ⟨o, h, ?_⟩
  rcases h' with ⟨h1, h2⟩ | ⟨r, h1, h2, h3, h4, h5, h6⟩
  · exact Or.inl ⟨h1, fun t ht hw => by have := h2 hs t ht hw.1; omega⟩
  · exact Or.inr ⟨r, h1, h2, h3, h4, h5, h6 hs⟩

/-- A search in both directions, or an uplink search before the last known beacon, is rejected. -/
theorem C33_rejected (a : Alloc) (d : Dir) (now earliest : Int) (hr : Ranges a now earliest)
    (h : d = .both ∨ d = .ul ∧ now < a.beacon) : Returns a d now earliest .abort := by
  refine ⟨0, fun fuel _ => ?_⟩
  obtain ⟨h1, h2, h3, h4, h5, h6, h7⟩ := hr
  have e1 : earliestLocal a now earliest = .ok (lo a now earliest) := by
    unfold earliestLocal lo
    rw [i64_ok (by omega) (by omega)]
    rfl
  have hw : window a d now earliest = .abort := by
    unfold window
    rw [e1, Res.ok_bind]
    rcases h with rfl | ⟨rfl, h⟩
    · rfl
    · have : latestUl a now = .abort := by
        unfold latestUl
        have : decide (a.beacon ≤ now) = false := by rw [decide_eq_false_iff_not]; omega
        rw [this]
        rfl
      show (latestUl a now >>= _) = _
      rw [this]
      rfl
  unfold getTxOpportunity
  rw [hw]

/-- Finding: with resources that were not added in order of time the opportunity is not the earliest one. Both resources
of the beacon period lie within the window. -/
theorem C33_negation_not_earliest :
    let a : Alloc := ⟨240000, 384000, 264000, 0, 1000000, [⟨100000, 20000⟩, ⟨40000, 20000⟩], []⟩
    getTxOpportunity 10 a .ul 1000000 1000000 = some (.ok ⟨1100000, 20000⟩) ∧
      Start a.beacon a.period (offs a .ul) 1040000 ∧ lo a 1000000 1000000 ≤ 1040000 ∧ (1040000 : Int) < 1100000 := by
  refine ⟨by decide +kernel, ⟨0, 40000, by simp [offs, Alloc.vec], by norm_num⟩, by simp [lo], by norm_num⟩

/-- Finding: with resources that were not added in order of time no opportunity is returned although there is one. -/
theorem C33_negation_missed :
    let a : Alloc := ⟨240000, 90000, 264000, 0, 1000000, [⟨100000, 20000⟩, ⟨40000, 20000⟩], []⟩
    getTxOpportunity 10 a .ul 1000000 1000000 = some (.ok ⟨-1, -1⟩) ∧
      Start a.beacon a.period (offs a .ul) 1040000 ∧ lo a 1000000 1000000 ≤ 1040000 ∧ (1040000 : Int) < hi a .ul 1000000 := by
  refine ⟨by decide +kernel, ⟨0, 40000, by simp [offs, Alloc.vec], by norm_num⟩, by simp [lo], by simp [hi]⟩

/-- The closest uplink resource: the loop keeps the smallest difference. -/
theorem closest_loop (a : Alloc) (ref : Int) (hb : -1152921504606846976 ≤ a.beacon ∧ a.beacon ≤ 1152921504606846976)
    (hr : -1152921504606846976 ≤ ref ∧ ref ≤ 1152921504606846976) (l : List Resource) (hl : ∀ r ∈ l, r.off < 2147483648) :
    ∀ ret, ∃ d, closestLoop a ref l ret = .ok d ∧ (d = ret ∨ ∃ r ∈ l, d = ref - (a.beacon + r.off)) ∧
      d.natAbs ≤ ret.natAbs ∧ ∀ r ∈ l, d.natAbs ≤ (ref - (a.beacon + r.off)).natAbs := by
  induction l with
  | nil => intro ret; exact ⟨ret, rfl, Or.inl rfl, Nat.le_refl _, by simp⟩
  | cons x l ih =>
    intro ret
    have hx := hl x (by simp)
    have ih := ih (fun r h => hl r (List.mem_cons_of_mem _ h))
    have hstep : closestLoop a ref (x :: l) ret = closestLoop a ref l
        (if (ref - (a.beacon + x.off)).natAbs < ret.natAbs then ref - (a.beacon + x.off) else ret) := by
      rw [closestLoop, i64_ok (x := a.beacon + x.off) (by omega) (by omega), Res.ok_bind,
        i64_ok (x := ref - (a.beacon + x.off)) (by omega) (by omega), Res.ok_bind]
    rw [hstep]
    split
    · next h =>
      obtain ⟨d, h1, h2, h3, h4⟩ := ih (ref - (a.beacon + x.off))
      refine ⟨d, h1, Or.inr ?_, by omega, fun r hr => ?_⟩
      · rcases h2 with rfl | ⟨r, hr, h⟩
        · exact ⟨x, by simp, rfl⟩
        · exact ⟨r, List.mem_cons_of_mem _ hr, h⟩
      · rcases List.mem_cons.1 hr with rfl | h
        · exact h3
        · exact h4 r h
    · next h =>
      obtain ⟨d, h1, h2, h3, h4⟩ := ih ret
      refine ⟨d, h1, ?_, h3, fun r hr => ?_⟩
      · rcases h2 with rfl | ⟨r, hr, h⟩
        · exact Or.inl rfl
        · exact Or.inr ⟨r, List.mem_cons_of_mem _ hr, h⟩
      · rcases List.mem_cons.1 hr with rfl | h
        · omega
        · exact h4 r h

/-- The distance of a received uplink packet to the uplink resource that starts closest to it: `std::abs` of the result is
the smallest of the distances to the uplink resources of this beacon period. -/
theorem C33_closest (a : Alloc) (ref : Int) (hp : a.period < 2147483648)
    (hb : -1152921504606846976 < a.beacon ∧ a.beacon ≤ 576460752303423488)
    (h : a.beacon < ref ∧ ref < a.beacon + a.period) (hv : ∀ r ∈ a.ul, r.off < a.period) (hne : a.ul ≠ []) :
    ∃ d, ulTimeClosest a ref = .ok d ∧ (∃ r ∈ a.ul, d = ref - (a.beacon + r.off)) ∧
      ∀ r ∈ a.ul, d.natAbs ≤ (ref - (a.beacon + r.off)).natAbs := by
  obtain ⟨d, h1, h2, h3, h4⟩ := closest_loop a ref (by omega) (by omega) a.ul
    (fun r hr => by have := hv r hr; omega) (-1152921504606846976)
  refine ⟨d, ?_, ?_, h4⟩
  · unfold ulTimeClosest
    rw [if_neg (by omega), i64_ok (by omega) (by omega), Res.ok_bind]
    have : decide (a.beacon < ref ∧ ref < a.beacon + a.period) = true := by rw [decide_eq_true_eq]; exact h
    rw [this]
    exact h1
  · rcases h2 with rfl | h2
    · obtain ⟨r, hr⟩ := List.exists_mem_of_ne_nil _ hne
      have := h4 r hr
      have := hv r hr
      exfalso
      omega
    · exact h2

/-- Non-vacuity: the window starts in the first beacon period after the last known beacon; the opportunity is the first
resource of the next one. -/
theorem C33_example :
    let a : Alloc := ⟨240000, 384000, 264000, 1000, 1000000, [⟨40000, 20000⟩, ⟨100000, 20000⟩], [⟨60000, 20000⟩]⟩
    Ranges a 1100000 0 ∧ (∀ r ∈ a.vec .ul, 1 ≤ r.len ∧ r.off + r.len ≤ a.period) ∧
      (a.vec .ul).Pairwise (fun r s => r.off < s.off) ∧
      getTxOpportunity 10 a .ul 1100000 0 = some (.ok ⟨1280000, 20000⟩) ∧
      getTxOpportunity 10 a .ul 1300000 0 = some (.ok ⟨1340000, 20000⟩) ∧
      getTxOpportunity 10 a .ul 1350000 0 = some (.ok ⟨-1, -1⟩) ∧
      ulTimeClosest a 1069000 = .ok 29000 := by
  refine ⟨⟨by norm_num, by norm_num, by norm_num, by norm_num, by norm_num, by norm_num, by norm_num⟩, by simp [Alloc.vec],
    by simp [Alloc.vec], by decide +kernel, by decide +kernel, by decide +kernel, by decide +kernel⟩

end Verif.Props.C33
