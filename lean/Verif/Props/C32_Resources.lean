import Verif.Model.Allocation
import Verif.Spec.Allocation
import Mathlib.Data.List.Basic

/-!
# C32: Allocated resources never overlap -/

namespace Verif.Props.C32

open Verif.Mac.Allocation Verif.Spec.Allocation

set_option linter.unusedSimpArgs false

theorem last_eq {r : Resource} (ho : r.off < 2147483648) (hl : r.len < 2147483648) (h1 : 1 ≤ r.len) :
    r.last + 1 = r.off + r.len := by
  unfold Resource.last; omega

section
attribute [local irreducible] Resource.last

theorem disjoint_iff {o l o' l' : Nat} (h : 1 ≤ l) (h' : 1 ≤ l') :
    Apart o l o' l' ↔ o + l ≤ o' ∨ o' + l' ≤ o := by
  unfold Apart Covers
  constructor
  · intro hd
    have := hd (max o o')
    rcases Nat.le_total o o' with hle | hle
    · rw [Nat.max_eq_right hle] at this; omega
    · rw [Nat.max_eq_left hle] at this; omega
  · intro hd s; omega

/-- Durations have at most 2147483647 samples (C31) -/
def Fits (r : Resource) : Prop := r.off < 2147483648 ∧ r.len < 2147483648 ∧ 1 ≤ r.len

theorem orthogonal_iff {e r : Resource} (he : Fits e) (hr : Fits r) :
    e.orthogonal r = true ↔ Apart e.off e.len r.off r.len := by
  rw [disjoint_iff he.2.2 hr.2.2]
  have a := last_eq he.1 he.2.1 he.2.2
  have b := last_eq hr.1 hr.2.1 hr.2.2
  unfold Resource.orthogonal Resource.orthEarlier Resource.orthLater Resource.first
  simp only [Bool.or_eq_true, decide_eq_true_eq]
  constructor
  · rintro (h | h)
    · right; omega
    · left; omega
  · rintro (h | h)
    · right; omega
    · left; omega

/-- The condition for accepting a resource -/
def Accept (a : Alloc) (d : Dir) (off len : Nat) : Prop :=
  d ≠ .both ∧ 1 ≤ len ∧ off + len ≤ a.period ∧ (∀ e ∈ a.vec d, Apart e.off e.len off len) ∧ (a.vec d).length < 8

/-- The allocation with one more resource -/
def plus (a : Alloc) (d : Dir) (off len : Nat) : Alloc :=
  { a with ul := if d = .ul then a.ul ++ [⟨off, len⟩] else a.ul, dl := if d = .dl then a.dl ++ [⟨off, len⟩] else a.dl }

/-- A resource is accepted exactly if it has at least one sample, lies within the beacon period, has no sample in common
with a resource of the same direction, and there are less than eight of them; then it is appended and nothing else
changes. In every other case the addition is rejected. -/
theorem C32_add (a : Alloc) (d : Dir) (off len : Nat) (ho : off < 2147483648) (hl : len < 2147483648)
    (ha : ∀ d, ∀ e ∈ a.vec d, Fits e) :
    (Accept a d off len → a.add d off len = .ok (plus a d off len)) ∧
      (¬ Accept a d off len → a.add d off len = .abort) := by
  by_cases h1 : 1 ≤ len
  swap
  · have : a.add d off len = .abort := by
      unfold Alloc.add Resource.make Resource.wellDefined
      simp only [h1, decide_false, Bool.false_and, Res.assert_false, Res.abort_bind]
    exact ⟨fun h => absurd h.2.1 h1, fun _ => this⟩
  have hf : Fits ⟨off, len⟩ := ⟨ho, hl, h1⟩
  obtain ⟨x, hx⟩ : ∃ x, x = Resource.last ⟨off, len⟩ := ⟨_, rfl⟩
  have hlast : x + 1 = off + len := by rw [hx]; exact last_eq (r := ⟨off, len⟩) ho hl h1
  have hw : Resource.wellDefined ⟨off, len⟩ = true := by
    unfold Resource.wellDefined Resource.first
    rw [← hx]
    simp only [Bool.and_eq_true, decide_eq_true_eq]
    exact ⟨h1, by omega⟩
  have hwi : a.within ⟨off, len⟩ = decide (off + len ≤ a.period) := by
    unfold Alloc.within
    rw [← hx]
    exact decide_eq_decide.2 (by omega)
  have hmake : Resource.make off len = .ok ⟨off, len⟩ := by unfold Resource.make; rw [hw]; rfl
  have hall : ∀ v : List Resource, (∀ e ∈ v, Fits e) →
      ((v.all fun e => e.orthogonal ⟨off, len⟩) = true ↔ ∀ e ∈ v, Apart e.off e.len off len) := by
    intro v hv
    rw [List.all_eq_true]
    exact ⟨fun h e he => (orthogonal_iff (hv e he) hf).1 (h e he),
      fun h e he => (orthogonal_iff (hv e he) hf).2 (h e he)⟩
  have hadd : a.add d off len = (do
      Res.assert (decide (off + len ≤ a.period))
      let o ← a.orthogonal d ⟨off, len⟩
      Res.assert o
      a.push d ⟨off, len⟩) := by
    unfold Alloc.add
    rw [hmake, Res.ok_bind, hwi]
  rw [hadd]
  by_cases h2 : off + len ≤ a.period
  swap
  · exact ⟨fun h => absurd h.2.2.1 h2, fun _ => by simp [h2]⟩
  simp only [h2, decide_true, Res.assert_true, Res.ok_bind]
  cases d with
  | both => exact ⟨fun h => absurd rfl h.1, fun _ => rfl⟩
  | ul =>
    have hd := hall a.ul (ha .ul)
    by_cases h3 : (∀ e ∈ a.ul, Apart e.off e.len off len)
    · have e3 := hd.2 h3
      by_cases h4 : a.ul.length < 8
      · refine ⟨fun _ => ?_, fun h => absurd ⟨by simp, h1, h2, h3, h4⟩ h⟩
        have : decide ((a.ul ++ [(⟨off, len⟩ : Resource)]).length ≤ 8) = true := by simp; omega
        simp only [Alloc.orthogonal, e3, Res.ok_bind, Res.assert_true, Alloc.push, Alloc.pushUl, this]
        simp [plus]
      · refine ⟨fun h => absurd h.2.2.2.2 h4, fun _ => ?_⟩
        have : decide ((a.ul ++ [(⟨off, len⟩ : Resource)]).length ≤ 8) = false := by simp; omega
        simp only [Alloc.orthogonal, e3, Res.ok_bind, Res.assert_true, Alloc.push, Alloc.pushUl, this, Res.assert_false,
          Res.abort_bind]
    · refine ⟨fun h => absurd h.2.2.2.1 h3, fun _ => ?_⟩
      have e3 : (a.ul.all fun e => e.orthogonal ⟨off, len⟩) = false := by
        rw [← Bool.not_eq_true]; exact fun h => h3 (hd.1 h)
      simp only [Alloc.orthogonal, e3, Res.ok_bind, Res.assert_false, Res.abort_bind]
  | dl =>
    have hd := hall a.dl (ha .dl)
    by_cases h3 : (∀ e ∈ a.dl, Apart e.off e.len off len)
    · have e3 := hd.2 h3
      by_cases h4 : a.dl.length < 8
      · refine ⟨fun _ => ?_, fun h => absurd ⟨by simp, h1, h2, h3, h4⟩ h⟩
        have : decide ((a.dl ++ [(⟨off, len⟩ : Resource)]).length ≤ 8) = true := by simp; omega
        simp only [Alloc.orthogonal, e3, Res.ok_bind, Res.assert_true, Alloc.push, Alloc.pushDl, this]
        simp [plus]
      · refine ⟨fun h => absurd h.2.2.2.2 h4, fun _ => ?_⟩
        have : decide ((a.dl ++ [(⟨off, len⟩ : Resource)]).length ≤ 8) = false := by simp; omega
        simp only [Alloc.orthogonal, e3, Res.ok_bind, Res.assert_true, Alloc.push, Alloc.pushDl, this, Res.assert_false,
          Res.abort_bind]
    · refine ⟨fun h => absurd h.2.2.2.1 h3, fun _ => ?_⟩
      have e3 : (a.dl.all fun e => e.orthogonal ⟨off, len⟩) = false := by
        rw [← Bool.not_eq_true]; exact fun h => h3 (hd.1 h)
      simp only [Alloc.orthogonal, e3, Res.ok_bind, Res.assert_false, Res.abort_bind]

/-- An addition: direction, and number of samples of offset and length -/
structure Addition where
  d : Dir
  off : Nat
  len : Nat

/-- A sequence of additions -/
def addAll : Alloc → List Addition → Res Alloc
  | a, [] => .ok a
  | a, x :: l => do
    let a' ← a.add x.d x.off x.len
    addAll a' l

/-- What holds for the resources of one direction -/
structure Good (period : Nat) (v : List Resource) : Prop where
  fits : ∀ e ∈ v, Fits e
  inside : ∀ e ∈ v, e.off + e.len ≤ period
  disj : v.Pairwise fun r s => Apart r.off r.len s.off s.len
  count : v.length ≤ 8

theorem good_snoc {p : Nat} {v : List Resource} {off len : Nat} (hg : Good p v) (hf : Fits ⟨off, len⟩) (hi : off + len ≤ p)
    (hd : ∀ e ∈ v, Apart e.off e.len off len) (hc : v.length < 8) : Good p (v ++ [⟨off, len⟩]) where
  fits := by
    intro e he
    rcases List.mem_append.1 he with h | h
    · exact hg.fits e h
    · rw [List.mem_singleton.1 h]; exact hf
  inside := by
    intro e he
    rcases List.mem_append.1 he with h | h
    · exact hg.inside e h
    · rw [List.mem_singleton.1 h]; exact hi
  disj := by
    rw [List.pairwise_append]
    refine ⟨hg.disj, List.pairwise_singleton _ _, ?_⟩
    intro x hx y hy
    rw [List.mem_singleton.1 hy]
    exact hd x hx
  count := by simp; omega

theorem vec_plus (a : Alloc) (d d' : Dir) (off len : Nat) (hb : d ≠ .both) :
    (plus a d off len).vec d' = if d = d' then a.vec d' ++ [⟨off, len⟩] else a.vec d' := by
  cases d <;> cases d' <;> simp_all [plus, Alloc.vec]

theorem addAll_good (l : List Addition) (hl : ∀ x ∈ l, x.off < 2147483648 ∧ x.len < 2147483648) :
    ∀ (a a' : Alloc), (∀ d, Good a.period (a.vec d)) → addAll a l = .ok a' →
      a'.period = a.period ∧ (∀ d, Good a.period (a'.vec d)) ∧
        ∀ d, a'.vec d = a.vec d ++ ((l.filter fun x => x.d = d).map fun x => ⟨x.off, x.len⟩) := by
  induction l with
  | nil =>
    intro a a' hg h
    obtain rfl : a = a' := by injection h
    exact ⟨rfl, hg, fun d => by simp⟩
  | cons x l ih =>
    intro a a' hg h
    obtain ⟨b, hb, h⟩ := Res.bind_eq_ok.1 h
    have hx := hl x (by simp)
    have hc := C32_add a x.d x.off x.len hx.1 hx.2 fun d => (hg d).fits
    by_cases hacc : Accept a x.d x.off x.len
    swap
    · rw [hc.2 hacc] at hb; exact Res.noConfusion rfl (heq_of_eq hb)
    rw [hc.1 hacc] at hb
    obtain rfl : plus a x.d x.off x.len = b := by injection hb
    have hv := fun d' => vec_plus a x.d d' x.off x.len hacc.1
    have hg' : ∀ d, Good (plus a x.d x.off x.len).period ((plus a x.d x.off x.len).vec d) := by
      intro d
      show Good a.period _
      rw [hv d]
      split
      · next hd =>
        subst hd
        exact good_snoc (hg _) ⟨hx.1, hx.2, hacc.2.1⟩ hacc.2.2.1 hacc.2.2.2.1 hacc.2.2.2.2
      · exact hg d
    obtain ⟨r1, r2, r3⟩ := ih (fun y hy => hl y (List.mem_cons_of_mem _ hy)) _ _ hg' h
    refine ⟨r1, r2, fun d => ?_⟩
    rw [r3 d, hv d]
    by_cases hd : x.d = d
    · simp [hd]
    · simp [hd]

/-- C32. After every sequence of additions that are all accepted, starting with a new allocation, the resources of a
direction are those added, in the order of the additions; each lies within the beacon period; any two of them have no
sample in common. An addition that would overlap or leave the period is rejected: `C32_add`. -/
theorem C32_resources (period validBeacon validNow : Nat) (turnaround : Int) (l : List Addition)
    (hl : ∀ x ∈ l, x.off < 2147483648 ∧ x.len < 2147483648) (a : Alloc)
    (h : addAll (Alloc.make period validBeacon validNow turnaround) l = .ok a) (d : Dir) :
    a.vec d = ((l.filter fun x => x.d = d).map fun x => ⟨x.off, x.len⟩) ∧
      (∀ e ∈ a.vec d, 1 ≤ e.len ∧ ∀ s, Covers e.off e.len s → s < period) ∧
      (a.vec d).Pairwise (fun r s => Apart r.off r.len s.off s.len) := by
  have h0 : ∀ d, Good (Alloc.make period validBeacon validNow turnaround).period
      ((Alloc.make period validBeacon validNow turnaround).vec d) := by
    intro d
    have : (Alloc.make period validBeacon validNow turnaround).vec d = [] := by cases d <;> rfl
    rw [this]
    exact ⟨by simp, by simp, List.Pairwise.nil, by simp⟩
  obtain ⟨-, h2, h3⟩ := addAll_good l hl _ _ h0 h
  refine ⟨?_, ?_, (h2 d).disj⟩
  · rw [h3 d]; cases d <;> rfl
  · intro e he
    refine ⟨((h2 d).fits e he).2.2, fun s hs => ?_⟩
    have : e.off + e.len ≤ period := (h2 d).inside e he
    have := hs.2
    omega

end

/-- Resources of different directions may have samples in common: both additions are accepted. -/
theorem C32_negation_directions : ∃ a, addAll (Alloc.make 240000 384000 264000 1000) [⟨.ul, 20000, 20000⟩, ⟨.dl, 30000, 20000⟩] = .ok a ∧
    ∃ r ∈ a.ul, ∃ s ∈ a.dl, ¬ Apart r.off r.len s.off s.len := by
  refine ⟨⟨240000, 384000, 264000, 1000, -1152921504606846976, [⟨20000, 20000⟩], [⟨30000, 20000⟩]⟩, by decide +kernel,
    ⟨20000, 20000⟩, by simp, ⟨30000, 20000⟩, by simp, ?_⟩
  intro h
  exact h 30000 (by simp [Covers])

/-- Non-vacuity: four additions that are accepted; a fifth one that overlaps is rejected, one that leaves the period too. -/
theorem C32_example :
    addAll (Alloc.make 240000 384000 264000 1000) [⟨.ul, 20000, 20000⟩, ⟨.dl, 40000, 20000⟩, ⟨.ul, 220000, 20000⟩, ⟨.ul, 0, 20000⟩] =
        .ok ⟨240000, 384000, 264000, 1000, -1152921504606846976, [⟨20000, 20000⟩, ⟨220000, 20000⟩, ⟨0, 20000⟩], [⟨40000, 20000⟩]⟩ ∧
      addAll (Alloc.make 240000 384000 264000 1000) [⟨.ul, 20000, 20000⟩, ⟨.ul, 39999, 1⟩] = .abort ∧
      addAll (Alloc.make 240000 384000 264000 1000) [⟨.ul, 220000, 20001⟩] = .abort := by
  decide +kernel

end Verif.Props.C32
