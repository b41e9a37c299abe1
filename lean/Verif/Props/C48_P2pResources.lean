import Verif.Model.P2p
import Verif.Model.Identity
import Verif.Props.C32_Resources
import Verif.Lemma.AllocationSearch

/-!
# C48: Terminals of the point-to-point firmware never share a resource -/

namespace Verif.Props.C48

open Verif.Mac.Allocation Verif.Spec.Allocation Verif.Sp3.Duration Verif.P2p Verif.Props.C32

set_option linter.unusedSimpArgs false

/-- Sample rates: the hardware rates are multiples of 1728000 Hz, of type `uint32_t`. -/
structure RateOk (rate : Nat) : Prop where
  pos : 0 < rate
  u32 : rate < 4294967296
  mult : rate % 12000 = 0

/-- Samples of a slot -/
def slot (rate : Nat) : Nat := rate / 2400

theorem samples_slot {rate m : Nat} (hr : RateOk rate) :
    samples rate .slot001 m = if 0 < m ∧ slot rate * m ≤ 2147483647 then .ok (slot rate * m) else .abort := by
  obtain ⟨h1, h2, h3⟩ := hr
  have e1 : rate % 2400 = 0 := by omega
  have e2 : 0 < rate / 2400 := by omega
  unfold samples slot
  simp only [Kind.divisor, h1, e1, e2, decide_true, Res.assert_true, Res.ok_bind]
  by_cases hm : 0 < m
  · simp only [hm, decide_true, Res.assert_true, Res.ok_bind, true_and]
    by_cases h : rate / 2400 * m ≤ 2147483647
    · simp [h]
    · simp [h]
  · simp [hm]

theorem samples_ms {rate m : Nat} (hr : RateOk rate) (hm : 0 < m) (hm' : m ≤ 16) :
    samples rate .ms001 m = .ok (rate / 1000 * m) := by
  obtain ⟨h1, h2, h3⟩ := hr
  have e1 : rate % 1000 = 0 := by omega
  have e2 : 0 < rate / 1000 := by omega
  have e3 : rate / 1000 * m ≤ 2147483647 := by
    have : rate / 1000 * m ≤ 4294967 * 16 := Nat.mul_le_mul (by omega) hm'
    omega
  unfold samples
  simp only [Kind.divisor, h1, e1, e2, hm, decide_true, Res.assert_true, Res.ok_bind]
  simp [e3]

/-- Resources number `i`, ..., `i + n - 1` of a regular series, in slots -/
def series (S offset length stride i n : Nat) : List Resource :=
  (List.range' i n).map fun k => ⟨S * (offset + stride * k), S * length⟩

theorem series_succ (S offset length stride i n : Nat) :
    series S offset length stride i (n + 1) =
      ⟨S * (offset + stride * i), S * length⟩ :: series S offset length stride (i + 1) n := by
  simp [series, List.range'_succ]

/-- The allocation with a series of resources -/
def plusAll (a : Alloc) (d : Dir) (l : List Resource) : Alloc :=
  { a with ul := if d = .ul then a.ul ++ l else a.ul, dl := if d = .dl then a.dl ++ l else a.dl }

theorem plusAll_cons (a : Alloc) (d : Dir) (off len : Nat) (l : List Resource) :
    plusAll (plus a d off len) d l = plusAll a d (⟨off, len⟩ :: l) := by
  unfold plusAll plus
  cases d <;> simp

theorem plusAll_nil (a : Alloc) (d : Dir) : plusAll a d [] = a := by
  unfold plusAll
  cases d <;> simp

theorem vec_plus (a : Alloc) (d : Dir) (hd : d ≠ .both) (off len : Nat) :
    (plus a d off len).vec d = a.vec d ++ [⟨off, len⟩] := by
  cases d with
  | both => exact absurd rfl hd
  | ul => simp [plus, Alloc.vec]
  | dl => simp [plus, Alloc.vec]

theorem fits_plus {a : Alloc} {d : Dir} {off len : Nat} (ha : ∀ d, ∀ e ∈ a.vec d, Fits e) (hf : Fits ⟨off, len⟩) :
    ∀ d', ∀ e ∈ (plus a d off len).vec d', Fits e := by
  intro d' e he
  have key : e ∈ a.vec d' ∨ e = ⟨off, len⟩ := by
    cases d' <;> cases d <;> simp [plus, Alloc.vec] at he ⊢ <;> tauto
  rcases key with h | rfl
  · exact ha d' e h
  · exact hf

/-- A series of resources is added as a whole exactly if each of them is within the period and there is room for them;
otherwise the program stops. `S` samples per slot, all earlier resources of the direction end before the series. -/
theorem addRegular_cases {rate : Nat} (hr : RateOk rate) (d : Dir) (hd : d ≠ .both) (offset length stride : Nat)
    (ho : 0 < offset) (hl : 0 < length) (hst : length ≤ stride) :
    ∀ n i (a : Alloc), (∀ d, ∀ e ∈ a.vec d, Fits e) → a.period ≤ 2147483647 →
      (∀ e ∈ a.vec d, e.off + e.len ≤ slot rate * (offset + stride * i)) → offset + stride * (i + n) < 4294967296 →
      ((n = 0 ∨ (a.vec d).length + n ≤ 8 ∧ slot rate * (offset + stride * (i + n - 1) + length) ≤ a.period) →
        Alloc.addRegular rate d offset length stride .slot001 n i a =
          .ok (plusAll a d (series (slot rate) offset length stride i n))) ∧
      (¬ (n = 0 ∨ (a.vec d).length + n ≤ 8 ∧ slot rate * (offset + stride * (i + n - 1) + length) ≤ a.period) →
        Alloc.addRegular rate d offset length stride .slot001 n i a = .abort) := by
  have hS : 0 < slot rate := by obtain ⟨h1, h2, h3⟩ := hr; unfold slot; omega
  intro n
  induction n with
  | zero =>
    intro i a _ _ _ _
    refine ⟨fun _ => ?_, fun h => absurd (Or.inl rfl) h⟩
    simp [Alloc.addRegular, series, plusAll_nil]
  | succ n ih =>
    intro i a ha hp hv hw
    have hsi : stride * i ≤ stride * (i + (n + 1)) := Nat.mul_le_mul_left _ (by omega)
    have hmod : (offset + stride * i) % 4294967296 = offset + stride * i := Nat.mod_eq_of_lt (by omega)
    have hlast : slot rate * (offset + stride * i + length) ≤ slot rate * (offset + stride * (i + (n + 1) - 1) + length) := by
      have := Nat.mul_le_mul_left stride (show i ≤ i + (n + 1) - 1 by omega)
      exact Nat.mul_le_mul_left _ (by omega)
    have hsplit : slot rate * (offset + stride * i + length) = slot rate * (offset + stride * i) + slot rate * length := by
      rw [Nat.mul_add]
    have hmulpos : 0 < slot rate * length := Nat.mul_pos hS hl
    by_cases hfit : slot rate * (offset + stride * i + length) ≤ a.period
    swap
    · refine ⟨fun h => ?_, fun _ => ?_⟩
      · rcases h with h | ⟨-, h⟩ <;> omega
      · rw [Alloc.addRegular, samples_slot hr, samples_slot hr, hmod]
        split
        · rename_i h1
          split
          · rename_i h2
            simp only [Res.ok_bind]
            have := (C32_add a d (slot rate * (offset + stride * i)) (slot rate * length) (by omega) (by omega) ha).2
              (fun h => by have := h.2.2.1; omega)
            rw [this]; rfl
          · rfl
        · rfl
    have e1 : samples rate .slot001 ((offset + stride * i) % 4294967296) = .ok (slot rate * (offset + stride * i)) := by
      rw [samples_slot hr, hmod, if_pos ⟨by omega, by omega⟩]
    have e2 : samples rate .slot001 length = .ok (slot rate * length) := by
      rw [samples_slot hr, if_pos ⟨hl, by omega⟩]
    have hadd := C32_add a d (slot rate * (offset + stride * i)) (slot rate * length) (by omega) (by omega) ha
    rw [Alloc.addRegular, e1, e2]
    simp only [Res.ok_bind]
    by_cases hlen : (a.vec d).length < 8
    swap
    · rw [hadd.2 (fun h => hlen h.2.2.2.2)]
      refine ⟨fun h => ?_, fun _ => rfl⟩
      rcases h with h | ⟨h, -⟩ <;> omega
    have hacc : Accept a d (slot rate * (offset + stride * i)) (slot rate * length) := by
      refine ⟨hd, hmulpos, by omega, ?_, hlen⟩
      intro e he
      rw [disjoint_iff ((ha d e he).2.2) hmulpos]
      exact Or.inl (hv e he)
    rw [hadd.1 hacc, Res.ok_bind]
    have hf : Fits ⟨slot rate * (offset + stride * i), slot rate * length⟩ := ⟨by dsimp only; omega, by dsimp only; omega, hmulpos⟩
    have hnext : slot rate * (offset + stride * i) + slot rate * length ≤ slot rate * (offset + stride * (i + 1)) := by
      rw [← Nat.mul_add]
      refine Nat.mul_le_mul_left _ ?_
      rw [Nat.mul_add stride]
      omega
    have := ih (i + 1) (plus a d (slot rate * (offset + stride * i)) (slot rate * length)) (fits_plus ha hf) hp
      (by
        intro e he
        rw [vec_plus a d hd] at he
        rcases List.mem_append.1 he with h | h
        · have := hv e h; omega
        · rw [List.mem_singleton.1 h]; exact hnext)
      (by rw [show i + 1 + n = i + (n + 1) by omega]; exact hw)
    rw [plusAll_cons, ← series_succ, vec_plus a d hd, List.length_append, List.length_singleton,
      show (plus a d (slot rate * (offset + stride * i)) (slot rate * length)).period = a.period from rfl,
      show i + 1 + n - 1 = i + (n + 1) - 1 by omega] at this
    refine ⟨fun h => this.1 ?_, fun h => this.2 fun h' => h ?_⟩
    · rcases h with h | h
      · omega
      · right; exact ⟨by omega, h.2⟩
    · rcases h' with h' | h'
      · subst h'
        right; exact ⟨by omega, by simpa using hfit⟩
      · right; exact ⟨by omega, h'.2⟩

/-- Condition that the resources of terminal `id` fit: at most eight per direction, and the last downlink resource ends
within the 24 slots of a beacon period -/
def Fit (nPt nRes id : Nat) : Prop := nRes = 0 ∨ nRes ≤ 8 ∧ 2 + 4 * id + 4 * nPt * (nRes - 1) + 4 ≤ 24

/-- Two slots uplink followed by two slots downlink, for each terminal in turn, behind two slots for the beacon; and all
of this `nRes` times. -/
def uplink (rate nPt nRes id : Nat) : List Resource :=
  (List.range nRes).map fun k => ⟨slot rate * (2 + 4 * id + 4 * nPt * k), slot rate * 2⟩

def downlink (rate nPt nRes id : Nat) : List Resource :=
  (List.range nRes).map fun k => ⟨slot rate * (4 + 4 * id + 4 * nPt * k), slot rate * 2⟩

/-- The allocation of a terminal, for every sample rate, number of terminals and number of resources: if the resources fit
into the beacon period the constructor succeeds with exactly these resources, otherwise the program stops. Terminals beyond
the number supported get no resource. -/
theorem C48_allocation {rate : Nat} (hr : RateOk rate) (nPt nRes : Nat) (turnaround : Int) (id : Nat)
    (hw : 6 + 4 * id + 4 * nPt * nRes < 4294967296) (hn : 4 * nPt < 4294967296) :
    (nPt ≤ id → initAllocationPt rate nPt nRes turnaround id =
      .ok (Alloc.make (24 * slot rate) (rate / 1000 * 16) (rate / 1000 * 11) turnaround)) ∧
    (id < nPt → Fit nPt nRes id → initAllocationPt rate nPt nRes turnaround id =
      .ok { Alloc.make (24 * slot rate) (rate / 1000 * 16) (rate / 1000 * 11) turnaround with
        ul := uplink rate nPt nRes id, dl := downlink rate nPt nRes id }) ∧
    (id < nPt → ¬ Fit nPt nRes id → initAllocationPt rate nPt nRes turnaround id = .abort) := by
  have hper : rate / 1000 * 10 = 24 * slot rate := by obtain ⟨h1, h2, h3⟩ := hr; unfold slot; omega
  have hsl : 24 * slot rate ≤ 2147483647 := by obtain ⟨h1, h2, h3⟩ := hr; unfold slot; omega
  have hS : 0 < slot rate := by obtain ⟨h1, h2, h3⟩ := hr; unfold slot; omega
  unfold initAllocationPt beaconPeriod
  rw [samples_ms hr (by omega) (by omega), samples_ms hr (by omega) (by omega), samples_ms hr (by omega) (by omega), hper]
  simp only [Res.ok_bind]
  refine ⟨fun h => by rw [if_pos h], ?_⟩
  rw [← imp_and]
  intro hid
  rw [if_neg (by omega)]
  have m1 : (2 + id * 4) % 4294967296 = 2 + 4 * id := by omega
  have m2 : (2 + 4 * id + 2) % 4294967296 = 4 + 4 * id := by omega
  have m3 : 4 * nPt % 4294967296 = 4 * nPt := Nat.mod_eq_of_lt hn
  rw [m1, m2, m3]
  generalize hA : Alloc.make (24 * slot rate) (rate / 1000 * 16) (rate / 1000 * 11) turnaround = A
  have hperA : A.period = 24 * slot rate := by rw [← hA]; rfl
  have hul : A.ul = [] := by rw [← hA]; rfl
  have hdl : A.dl = [] := by rw [← hA]; rfl
  have hfits : ∀ d, ∀ e ∈ A.vec d, Fits e := by
    intro d e he
    cases d <;> simp [Alloc.vec, hul, hdl] at he
  have c1 := addRegular_cases hr .ul (by simp) (2 + 4 * id) 2 (4 * nPt) (by omega) (by omega) (by omega) nRes 0 A hfits
    (by omega) (by simp [Alloc.vec, hul]) (by simp only [Nat.zero_add]; omega)
  have hfitsSeries : ∀ off, 24 * slot rate < slot rate * (off + 4 * nPt * (0 + nRes - 1) + 2) ∨
      ∀ e ∈ series (slot rate) off 2 (4 * nPt) 0 nRes, Fits e := by
    intro off
    rcases Nat.lt_or_ge (24 * slot rate) (slot rate * (off + 4 * nPt * (0 + nRes - 1) + 2)) with h | h
    · exact Or.inl h
    right
    intro e he
    simp only [series, List.mem_map, List.mem_range'_1] at he
    obtain ⟨k, hk, rfl⟩ := he
    have h1 : 4 * nPt * k ≤ 4 * nPt * (0 + nRes - 1) := Nat.mul_le_mul_left _ (by omega)
    have h2 : slot rate * (off + 4 * nPt * k + 2) ≤ slot rate * (off + 4 * nPt * (0 + nRes - 1) + 2) :=
      Nat.mul_le_mul_left _ (by omega)
    rw [Nat.mul_add (slot rate) (off + 4 * nPt * k) 2] at h2
    exact ⟨by dsimp only; omega, by dsimp only; omega, by dsimp only; omega⟩
  have hcmp : ∀ x y : Nat, slot rate * x ≤ 24 * slot rate ↔ x ≤ 24 := by
    intro x _
    rw [Nat.mul_comm 24]
    exact ⟨fun h => Nat.le_of_mul_le_mul_left h hS, fun h => Nat.mul_le_mul_left _ h⟩
  rw [hperA] at c1
  simp only [Alloc.vec, hul, List.length_nil, Nat.zero_add, hcmp _ 0] at c1 hfitsSeries
  by_cases hz : nRes = 0 ∨ nRes ≤ 8 ∧ 2 + 4 * id + 4 * nPt * (nRes - 1) + 2 ≤ 24
  swap
  · rw [c1.2 hz]
    refine ⟨fun h => absurd ?_ hz, fun _ => rfl⟩
    rcases h with h | h
    · exact Or.inl h
    · right; omega
  rw [c1.1 hz, Res.ok_bind]
  have hfits2 : ∀ d, ∀ e ∈ (plusAll A .ul (series (slot rate) (2 + 4 * id) 2 (4 * nPt) 0 nRes)).vec d, Fits e := by
    intro d e he
    rcases hz with hz | hz
    · subst hz
      cases d <;> simp [Alloc.vec, plusAll, hul, hdl, series] at he
    cases d with
    | both => simp [Alloc.vec] at he
    | dl => simp [Alloc.vec, plusAll, hdl] at he
    | ul =>
      simp only [Alloc.vec, plusAll, hul, if_true, List.nil_append] at he
      rcases hfitsSeries (2 + 4 * id) with h | h
      · have := (hcmp (2 + 4 * id + 4 * nPt * (nRes - 1) + 2) 0).2 hz.2
        omega
      · exact h e he
  have c2 := addRegular_cases hr .dl (by simp) (4 + 4 * id) 2 (4 * nPt) (by omega) (by omega) (by omega) nRes 0 _ hfits2
    (by show A.period ≤ _; omega) (by simp [Alloc.vec, plusAll, hdl]) (by simp only [Nat.zero_add]; omega)
  rw [show (plusAll A .ul (series (slot rate) (2 + 4 * id) 2 (4 * nPt) 0 nRes)).period = 24 * slot rate from hperA] at c2
  simp only [Alloc.vec, plusAll, hdl, List.length_nil, Nat.zero_add, hcmp _ 0, if_true, List.nil_append, hul,
    show (Dir.ul = Dir.dl) = False by simp, show (Dir.dl = Dir.ul) = False by simp, if_false] at c2
  have heq : (nRes = 0 ∨ nRes ≤ 8 ∧ 4 + 4 * id + 4 * nPt * (nRes - 1) + 2 ≤ 24) ↔ Fit nPt nRes id := by
    unfold Fit
    constructor <;> (rintro (h | h) <;> [exact Or.inl h; exact Or.inr ⟨h.1, by omega⟩])
  rw [heq] at c2
  refine ⟨fun h => ?_, fun h => ?_⟩
  · have := c2.1 h
    simp only [plusAll, hul, hdl, if_true, List.nil_append, show (Dir.ul = Dir.dl) = False by simp, if_false]
    rw [this]
    simp [uplink, downlink, series, List.range_eq_range']
  · have := c2.2 h
    simp only [plusAll, hul, hdl, if_true, List.nil_append, show (Dir.ul = Dir.dl) = False by simp, if_false]
    exact this

/-- What follows from a constructor that succeeds -/
theorem init_ok {rate : Nat} (hr : RateOk rate) {nPt nRes : Nat} {turnaround : Int} {id : Nat} {a : Alloc}
    (hw : 6 + 4 * id + 4 * nPt * nRes < 4294967296) (hn : 4 * nPt < 4294967296)
    (h : initAllocationPt rate nPt nRes turnaround id = .ok a) (d : Dir) (r : Resource) (hm : r ∈ a.vec d) :
    id < nPt ∧ Fit nPt nRes id ∧ a.period = 24 * slot rate ∧ d ≠ .both ∧ ∃ k < nRes,
      r = ⟨slot rate * ((if d = .ul then 2 else 4) + 4 * id + 4 * nPt * k), slot rate * 2⟩ := by
  obtain ⟨c1, c2, c3⟩ := C48_allocation hr nPt nRes turnaround id hw hn
  rcases Nat.lt_or_ge id nPt with hid | hid
  swap
  · rw [c1 hid] at h
    rw [← Res.ok.inj h] at hm
    cases d <;> simp [Alloc.vec, Alloc.make] at hm
  by_cases hf : Fit nPt nRes id
  swap
  · rw [c3 hid hf] at h
    exact absurd h (by simp)
  rw [c2 hid hf] at h
  have h := Res.ok.inj h
  subst h
  refine ⟨hid, hf, rfl, ?_, ?_⟩
  · rintro rfl
    simp [Alloc.vec] at hm
  · cases d with
    | both => simp [Alloc.vec] at hm
    | ul =>
      simp only [Alloc.vec, uplink, List.mem_map, List.mem_range] at hm
      obtain ⟨k, hk, rfl⟩ := hm
      exact ⟨k, hk, by simp⟩
    | dl =>
      simp only [Alloc.vec, downlink, List.mem_map, List.mem_range] at hm
      obtain ⟨k, hk, rfl⟩ := hm
      exact ⟨k, hk, by simp⟩

theorem covers_slot {S o s : Nat} (hS : 0 < S) : Covers (S * o) (S * 2) s ↔ o ≤ s / S ∧ s / S < o + 2 := by
  unfold Covers
  rw [← Nat.mul_add, Nat.le_div_iff_mul_le hS, Nat.div_lt_iff_lt_mul hS, Nat.mul_comm o, Nat.mul_comm (o + 2)]

/-- No sample of a beacon period is given away twice: if two terminals (or the same one) have resources, uplink or
downlink, that both contain a sample, then it is the same resource of the same direction of the same terminal. No
resource touches the two slots of the beacon, and none crosses the end of the beacon period. -/
theorem C48_exclusive {rate : Nat} (hr : RateOk rate) {nPt nRes : Nat} (turnaround turnaround' : Int) {id id' : Nat}
    {a a' : Alloc} (hw : 6 + 4 * nPt + 4 * nPt * nRes < 4294967296)
    (h : initAllocationPt rate nPt nRes turnaround id = .ok a)
    (h' : initAllocationPt rate nPt nRes turnaround' id' = .ok a')
    (hi : id < nPt) (hi' : id' < nPt) {d d' : Dir} {r r' : Resource} (hm : r ∈ a.vec d) (hm' : r' ∈ a'.vec d') :
    (∀ s, Covers r.off r.len s → Covers r'.off r'.len s → id = id' ∧ d = d' ∧ r = r') ∧
    (∀ s, Covers r.off r.len s → 2 * slot rate ≤ s ∧ s < a.period) := by
  have hS : 0 < slot rate := by obtain ⟨h1, h2, h3⟩ := hr; unfold slot; omega
  obtain ⟨-, hf, hp, hd, k, hk, rfl⟩ := init_ok hr (by omega) (by omega) h d r hm
  obtain ⟨-, -, -, hd', k', hk', rfl⟩ := init_ok hr (by omega) (by omega) h' d' r' hm'
  simp only [covers_slot hS]
  constructor
  · intro s h1 h2
    generalize hx : s / slot rate = x at h1 h2
    -- slot number modulo and divided by the stride
    have hdir : ∀ d : Dir, (if d = .ul then 2 else 4) = 2 ∨ (if d = .ul then 2 else 4) = 4 := by
      intro d; cases d <;> simp
    generalize ho : (if d = .ul then 2 else 4 : Nat) = o at h1
    generalize ho' : (if d' = .ul then 2 else 4 : Nat) = o' at h2
    have q1 : (x - 2) / (4 * nPt) = k := by
      refine Nat.div_eq_of_lt_le ?_ ?_
      · rw [Nat.mul_comm]; rcases hdir d with hh | hh <;> omega
      · rw [Nat.mul_comm, Nat.mul_add]; rcases hdir d with hh | hh <;> omega
    have q2 : (x - 2) / (4 * nPt) = k' := by
      refine Nat.div_eq_of_lt_le ?_ ?_
      · rw [Nat.mul_comm]; rcases hdir d' with hh | hh <;> omega
      · rw [Nat.mul_comm, Nat.mul_add]; rcases hdir d' with hh | hh <;> omega
    have hkk : k = k' := by omega
    subst hkk
    generalize 4 * nPt * k = y at *
    have hid : id = id' := by rcases hdir d with hh | hh <;> rcases hdir d' with hh' | hh' <;> omega
    subst hid
    have hoo : o = o' := by rcases hdir d with hh | hh <;> rcases hdir d' with hh' | hh' <;> omega
    have hdd : d = d' := by
      cases d <;> cases d' <;> simp at ho ho' hd hd' ⊢ <;> omega
    subst hdd
    exact ⟨rfl, rfl, by rw [hoo]⟩
  · intro s ⟨h1, h2⟩
    have hdir : (if d = .ul then 2 else 4) = 2 ∨ (if d = .ul then 2 else 4) = 4 := by cases d <;> simp
    have hks : 4 * nPt * k ≤ 4 * nPt * (nRes - 1) := Nat.mul_le_mul_left _ (by omega)
    have h24 : s / slot rate < 24 := by
      rcases hf with hf | ⟨-, hf⟩
      · omega
      · rcases hdir with hh | hh <;> omega
    have h2' : 2 ≤ s / slot rate := by rcases hdir with hh | hh <;> omega
    rw [hp]
    exact ⟨by rw [Nat.mul_comm]; exact (Nat.le_div_iff_mul_le hS).1 h2' |>.trans' (by rw [Nat.mul_comm]),
      (Nat.div_lt_iff_lt_mul hS).1 h24⟩

/-- The resources of a terminal are in order of time, so that the search of C33 finds the earliest one. -/
theorem C48_sorted {rate : Nat} (hr : RateOk rate) {nPt nRes : Nat} {turnaround : Int} {id : Nat} {a : Alloc}
    (hw : 6 + 4 * id + 4 * nPt * nRes < 4294967296) (hn : 4 * nPt < 4294967296)
    (h : initAllocationPt rate nPt nRes turnaround id = .ok a) (d : Dir) :
    Sorted (a.vec d) ∧ ∀ r ∈ a.vec d, 1 ≤ r.len ∧ r.off + r.len ≤ a.period := by
  have hS : 0 < slot rate := by obtain ⟨h1, h2, h3⟩ := hr; unfold slot; omega
  obtain ⟨c1, c2, c3⟩ := C48_allocation hr nPt nRes turnaround id hw hn
  have hsort : id < nPt → ∀ o, Sorted ((List.range nRes).map fun k =>
      (⟨slot rate * (o + 4 * id + 4 * nPt * k), slot rate * 2⟩ : Resource)) := by
    intro hid o
    unfold Sorted
    rw [List.pairwise_map]
    refine List.Pairwise.imp (fun {i j} hij => ?_) List.pairwise_lt_range
    refine Nat.mul_lt_mul_of_pos_left ?_ hS
    have := Nat.mul_lt_mul_of_pos_left hij (show 0 < 4 * nPt by omega)
    omega
  constructor
  · rcases Nat.lt_or_ge id nPt with hid | hid
    swap
    · rw [c1 hid] at h
      rw [← Res.ok.inj h]
      cases d <;> simp [Alloc.vec, Alloc.make, Sorted]
    by_cases hf : Fit nPt nRes id
    swap
    · rw [c3 hid hf] at h
      exact absurd h (by simp)
    rw [c2 hid hf] at h
    rw [← Res.ok.inj h]
    cases d with
    | both => simp [Alloc.vec, Sorted]
    | ul => exact hsort hid 2
    | dl => exact hsort hid 4
  · intro r hm
    obtain ⟨hid, hf, hp, hd, k, hk, rfl⟩ := init_ok hr hw hn h d r hm
    refine ⟨by dsimp only; omega, ?_⟩
    dsimp only
    rw [hp, ← Nat.mul_add, Nat.mul_comm 24]
    refine Nat.mul_le_mul_left _ ?_
    have hks : 4 * nPt * k ≤ 4 * nPt * (nRes - 1) := Nat.mul_le_mul_left _ (by omega)
    rcases hf with hf | ⟨-, hf⟩
    · omega
    · cases d <;> simp <;> omega

/-- Identities of the terminals are valid, differ from each other and from those of the fixed point. -/
theorem C48_identities (id id' : Nat) (h : id < 64534) (h' : id' < 64534) :
    Identity.validLongRdId (initIdentityPt id).1 = true ∧ Identity.validShortRdId (initIdentityPt id).2 = true ∧
    (initIdentityPt id).2 ≠ 0xFFFF ∧ (initIdentityPt id).1 ≠ 10000000 ∧ (initIdentityPt id).2 ≠ 1000 ∧
    (id ≠ id' → (initIdentityPt id).1 ≠ (initIdentityPt id').1 ∧ (initIdentityPt id).2 ≠ (initIdentityPt id').2) := by
  have hm : bitmaskLsb 16 = 65535 := by decide
  unfold initIdentityPt Identity.validLongRdId Identity.validShortRdId
  rw [hm]
  dsimp only
  refine ⟨?_, ?_, ?_, ?_, ?_, ?_⟩
  · simp; omega
  · simp; omega
  · omega
  · omega
  · omega
  · intro hne; omega

/-- The two configurations of the firmware (rd.hpp:80-86): one terminal with four resources, two terminals with two. Both
fit for every sample rate. -/
theorem C48_configurations {rate : Nat} (hr : RateOk rate) (turnaround : Int) :
    (initAllocationPt rate 1 4 turnaround 0).isOk = true ∧
    (∀ id < 2, (initAllocationPt rate 2 2 turnaround id).isOk = true) ∧
    initAllocationPt rate 3 2 turnaround 2 = .abort := by
  refine ⟨?_, ?_, ?_⟩
  · rw [(C48_allocation hr 1 4 turnaround 0 (by omega) (by omega)).2.1 (by omega) (by unfold Fit; omega)]; rfl
  · intro id hid
    rw [(C48_allocation hr 2 2 turnaround id (by omega) (by omega)).2.1 (by omega) (by unfold Fit; omega)]; rfl
  · exact (C48_allocation hr 3 2 turnaround 2 (by omega) (by omega)).2.2 (by omega) (by unfold Fit; omega)

/-- Two terminals at 1.92 MS/s: 800 samples per slot. -/
theorem C48_example :
    initAllocationPt 1920000 2 2 100 1 = .ok ⟨19200, 30720, 21120, 100, -1152921504606846976,
      [⟨4800, 1600⟩, ⟨11200, 1600⟩], [⟨6400, 1600⟩, ⟨12800, 1600⟩]⟩ ∧ RateOk 1920000 := by
  refine ⟨by decide +kernel, ⟨by omega, by omega, by omega⟩⟩

end Verif.Props.C48
