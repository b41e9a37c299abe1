import Verif.Props.C49_FtSchedule

/-!
# C50: A portable point transmits only in its own uplink resources relative to a beacon it received, and collides with nobody

Times of different devices are compared as if they had the same clock and no propagation delay. -/

namespace Verif.Props.C50

open Verif.Mac.Allocation Verif.Spec.Allocation Verif.P2p Verif.Props.C33 Verif.Props.C49

set_option linter.unusedSimpArgs false

/-- An allocation that a portable point can work with -/
structure Usable (a : Alloc) : Prop where
  period : a.period < 2147483648
  validBeacon : a.validBeacon < 2147483648
  validNow : a.validNow < 2147483648
  turnaround : 0 ≤ a.turnaround ∧ a.turnaround ≤ 1152921504606846976
  ul : ∀ r ∈ a.ul, 1 ≤ r.len ∧ r.off + r.len ≤ a.period

/-- Times of the beacons received -/
def received : List PtEvent → List Int
  | [] => []
  | .beacon t :: es => t :: received es
  | .attempt _ :: es => received es

/-- Times read from the clock, or at which a beacon is received -/
def Clock : PtEvent → Prop
  | .beacon t => 0 ≤ t ∧ t ≤ 576460752303423488
  | .attempt e => 0 ≤ e.now ∧ e.now ≤ 576460752303423488

/-- The beacon was received before it is used: `t` is the time of the last one before these events. -/
def Causal : Int → List PtEvent → Prop
  | _, [] => True
  | _, .beacon t :: es => Causal t es
  | t, .attempt e :: es => t ≤ e.now ∧ Causal t es

/-- `x` is a packet in an uplink resource relative to the beacon at time `t`, which is recent, and decided early enough for
the hardware. -/
structure Follows (a : Alloc) (t : Int) (x : Tx) : Prop where
  resource : ∃ r ∈ a.ul, x.len = r.len ∧ ∃ k : Nat, x.time = t + (k * a.period : Nat) + r.off
  recent : x.time < t + a.validBeacon ∧ x.time < x.now + a.validNow
  early : x.now + a.turnaround ≤ x.time

/-- State after reception of the beacons `rs` -/
structure Inv (a : Alloc) (rs : List Int) (s : PtSys) : Prop where
  alloc : s.alloc = a.setBeacon s.alloc.beacon
  beacon : (rs = [] ∧ s.alloc.beacon = -1152921504606846976) ∨
    (s.alloc.beacon ∈ rs ∧ 0 ≤ s.alloc.beacon ∧ s.alloc.beacon ≤ 576460752303423488)
  order : s.order = s.log.length ∧ ∀ (i : Nat) (x : Tx), s.log[i]? = some x → x.order = i
  earliest : -1152921504606846976 ≤ s.earliest ∧ s.earliest ≤ 576460756598390784
  ends : ∀ x ∈ s.log, x.time + x.len ≤ s.earliest
  sorted : s.log.Pairwise Before
  follows : ∀ x ∈ s.log, ∃ t ∈ rs, Follows a t x

variable {a : Alloc}

theorem attempt_inv (ha : Usable a) {rs : List Int} {s : PtSys} (h : Inv a rs s) (e : Env)
    (he : 0 ≤ e.now ∧ e.now ≤ 576460752303423488) :
    (s.alloc.beacon ≤ e.now → ∃ s', s.event (.attempt e) = .ok s' ∧ Inv a rs s' ∧ s'.alloc.beacon = s.alloc.beacon) ∧
    (¬ s.alloc.beacon ≤ e.now → s.event (.attempt e) = .abort) := by
  obtain ⟨hal, hbe, ho, hea, hen, hso, hfo⟩ := h
  generalize hb : s.alloc.beacon = t at *
  obtain ⟨g1, g2, g3, g4, g5⟩ := ha
  have hr : Ranges s.alloc e.now s.earliest := by
    rw [hal]
    refine ⟨g1, g2, g3, ⟨?_, g4.2⟩, ⟨?_, ?_⟩, ⟨?_, ?_⟩, ⟨?_, ?_⟩⟩
    · show _ ≤ a.turnaround
      omega
    · show _ ≤ t
      omega
    · show t ≤ _
      omega
    all_goals omega
  constructor
  swap
  · intro hlt
    have := C33_rejected s.alloc .ul e.now s.earliest hr (Or.inr ⟨rfl, by rw [hb]; omega⟩)
    rw [PtSys.event, opportunity_eq this]
    rfl
  intro hle
  obtain ⟨o, hopp, hspec⟩ := opportunity_spec s.alloc .ul e.now s.earliest hr (by simp) (by rw [hb]; exact fun _ => hle)
    (by rw [hal]; exact g5)
  have hinv : Inv a rs s := ⟨by rw [hb]; exact hal, by rw [hb]; exact hbe, ho, hea, hen, hso, hfo⟩
  rw [PtSys.event, hopp, Res.ok_bind]
  rcases hspec with ⟨rfl, -⟩ | ⟨r, hrm, hlen, ⟨k, o', ho', htime⟩, hlo, hhi⟩
  · exact ⟨s, by rw [if_pos (by decide)], hinv, hb⟩
  rw [List.mem_singleton] at ho'
  subst ho'
  rw [hal] at hrm htime hlo hhi
  have hrm : r ∈ a.ul := hrm
  have htime : o.time = t + (k * a.period : Nat) + r.off := by
    have : o.time = t + k * (a.period : Int) + r.off := htime
    rw [this]; push_cast; rfl
  have hlo : max (e.now + a.turnaround) s.earliest ≤ o.time := hlo
  have hhi : o.time < min (t + a.validBeacon) (e.now + a.validNow) := hhi
  have hrs := g5 r hrm
  rw [if_neg (by omega)]
  cases hs : e.sent with
  | false => exact ⟨s, by simp, hinv, hb⟩
  | true =>
    have h64 : Sp3.Duration.i64 (o.time + o.n) = .ok (o.time + o.n) := i64_ok (by omega) (by omega)
    simp only [if_true, h64, Res.ok_bind]
    refine ⟨_, rfl, ⟨by dsimp only; rw [hb]; exact hal, by dsimp only; rw [hb]; exact hbe, ?_, ?_, ?_, ?_, ?_⟩, hb⟩
    · exact ⟨by simp [ho.1], append_order ho.2 ho.1⟩
    · dsimp only; omega
    · intro x hx
      dsimp only at hx ⊢
      rcases List.mem_append.1 hx with hx | hx
      · have := hen x hx
        omega
      · rw [List.mem_singleton.1 hx]
    · dsimp only
      rw [List.pairwise_append]
      refine ⟨hso, List.pairwise_singleton _ _, ?_⟩
      intro x hx y hy
      rw [List.mem_singleton.1 hy]
      have := hen x hx
      show x.time + x.len ≤ o.time
      omega
    · intro x hx
      dsimp only at hx
      rcases List.mem_append.1 hx with hx | hx
      · exact hfo x hx
      · rw [List.mem_singleton.1 hx]
        rcases hbe with ⟨-, hbe⟩ | ⟨hbe, -, -⟩
        · exfalso
          omega
        · exact ⟨t, hbe, ⟨r, hrm, hlen, k, htime⟩, by dsimp only; omega, by dsimp only; omega⟩

theorem beacon_inv {rs : List Int} {s : PtSys} (h : Inv a rs s) {t : Int} (ht : 0 ≤ t ∧ t ≤ 576460752303423488) :
    ∃ s', s.event (.beacon t) = .ok s' ∧ Inv a (rs ++ [t]) s' ∧ s'.alloc.beacon = t := by
  refine ⟨_, rfl, ⟨?_, Or.inr ⟨by simp [Alloc.setBeacon], ht⟩, h.order, h.earliest, h.ends, h.sorted, ?_⟩, rfl⟩
  · dsimp only
    rw [h.alloc]
    rfl
  · intro x hx
    obtain ⟨t', h1, h2⟩ := h.follows x hx
    exact ⟨t', by simp [h1], h2⟩

theorem run_inv (ha : Usable a) : ∀ (es : List PtEvent) (rs : List Int) (s : PtSys), Inv a rs s → (∀ e ∈ es, Clock e) →
    (Causal s.alloc.beacon es → ∃ s', s.run es = .ok s' ∧ Inv a (rs ++ received es) s') ∧
    (¬ Causal s.alloc.beacon es → s.run es = .abort) := by
  intro es
  induction es with
  | nil => exact fun rs s h _ => ⟨fun _ => ⟨s, rfl, by simpa [received] using h⟩, fun h => absurd trivial h⟩
  | cons e es ih =>
    intro rs s h hc
    have hc' : ∀ e ∈ es, Clock e := fun e he => hc e (by simp [he])
    cases e with
    | beacon t =>
      obtain ⟨s', h1, h2, h3⟩ := beacon_inv h (hc (.beacon t) (by simp))
      have := ih (rs ++ [t]) s' h2 hc'
      rw [h3] at this
      rw [PtSys.run, h1, Res.ok_bind]
      rw [List.append_assoc] at this
      exact this
    | attempt e =>
      obtain ⟨c1, c2⟩ := attempt_inv ha h e (hc (.attempt e) (by simp))
      by_cases hle : s.alloc.beacon ≤ e.now
      · obtain ⟨s', h1, h2, h3⟩ := c1 hle
        have := ih rs s' h2 hc'
        rw [h3] at this
        rw [PtSys.run, h1, Res.ok_bind]
        exact ⟨fun h => this.1 h.2, fun h => this.2 fun h' => h ⟨hle, h'⟩⟩
      · refine ⟨fun h => absurd h.1 hle, fun _ => ?_⟩
        rw [PtSys.run, c2 hle]
        rfl

/-- For every allocation that fits into the period, every sequence of beacons received and attempts to transmit, and all
answers of application, HARQ processes and clock: if no beacon is used before it was received, the program does not stop, all
transmissions are numbered in the order in which they are decided, each one is over when the next one starts, and each one is
in an uplink resource relative to a beacon received, at most the validity after this beacon and after the decision, and
decided early enough for the hardware. In particular nothing is transmitted unless a beacon was received. If a beacon from
the future is used, the program stops. -/
theorem C50_schedule (ha : Usable a) (hb : a.beacon = -1152921504606846976) (es : List PtEvent) (hc : ∀ e ∈ es, Clock e) :
    (Causal a.beacon es → ∃ s, (PtSys.start a).run es = .ok s ∧
        (∀ (i : Nat) (x : Tx), s.log[i]? = some x → x.order = i) ∧
        s.log.Pairwise (fun x y => x.time + x.len ≤ y.time) ∧
        ∀ x ∈ s.log, ∃ t ∈ received es, Follows a t x) ∧
    (¬ Causal a.beacon es → (PtSys.start a).run es = .abort) := by
  have h0 : Inv a [] (PtSys.start a) := by
    refine ⟨rfl, Or.inl ⟨rfl, hb⟩, ⟨rfl, by simp [PtSys.start]⟩, by simp [PtSys.start], by simp [PtSys.start], by simp [PtSys.start],
      by simp [PtSys.start]⟩
  obtain ⟨h1, h2⟩ := run_inv ha es [] (PtSys.start a) h0 hc
  refine ⟨fun h => ?_, h2⟩
  obtain ⟨s, h3, h4⟩ := h1 h
  exact ⟨s, h3, h4.order.2, h4.sorted, by simpa using h4.follows⟩

/-- Silent until a beacon is received -/
theorem C50_silent (ha : Usable a) (hb : a.beacon = -1152921504606846976) (es : List PtEvent) (hc : ∀ e ∈ es, Clock e)
    (hr : received es = []) : ∃ s, (PtSys.start a).run es = .ok s ∧ s.log = [] := by
  have hcau : ∀ (es : List PtEvent), (∀ e ∈ es, Clock e) → received es = [] → Causal a.beacon es := by
    intro es
    induction es with
    | nil => intro _ _; trivial
    | cons e es ih =>
      intro hc hr
      cases e with
      | beacon t => simp [received] at hr
      | attempt e =>
        have := hc (.attempt e) (by simp)
        refine ⟨?_, ih (fun e he => hc e (by simp [he])) hr⟩
        rw [hb]
        have : 0 ≤ e.now ∧ _ := this
        omega
  obtain ⟨s, h1, -, -, h2⟩ := (C50_schedule ha hb es hc).1 (hcau es hc hr)
  refine ⟨s, h1, ?_⟩
  rw [List.eq_nil_iff_forall_not_mem]
  intro x hx
  obtain ⟨t, h3, -⟩ := h2 x hx
  simp [hr] at h3

/-- The allocations of C48 are usable. -/
theorem C50_usable {rate : Nat} (hr : C48.RateOk rate) {nPt nRes : Nat} {turnaround : Int} {id : Nat}
    (ht : 0 ≤ turnaround ∧ turnaround ≤ 1152921504606846976)
    (hw : 6 + 4 * id + 4 * nPt * nRes < 4294967296) (hn : 4 * nPt < 4294967296)
    (h : initAllocationPt rate nPt nRes turnaround id = .ok a) :
    Usable a ∧ a.beacon = -1152921504606846976 ∧ a.period = 24 * C48.slot rate := by
  obtain ⟨c1, c2, c3⟩ := C48.C48_allocation hr nPt nRes turnaround id hw hn
  have hs := (C48.C48_sorted hr hw hn h .ul).2
  have hper : a.period = 24 * C48.slot rate ∧ a.validBeacon = rate / 1000 * 16 ∧ a.validNow = rate / 1000 * 11 ∧
      a.turnaround = turnaround ∧ a.beacon = -1152921504606846976 := by
    rcases Nat.lt_or_ge id nPt with hid | hid
    · by_cases hf : C48.Fit nPt nRes id
      · rw [c2 hid hf] at h
        rw [← Res.ok.inj h]
        exact ⟨rfl, rfl, rfl, rfl, rfl⟩
      · rw [c3 hid hf] at h
        exact absurd h (by simp)
    · rw [c1 hid] at h
      rw [← Res.ok.inj h]
      exact ⟨rfl, rfl, rfl, rfl, rfl⟩
  obtain ⟨p1, p2, p3, p4, p5⟩ := hper
  obtain ⟨r1, r2, r3⟩ := hr
  exact ⟨⟨by rw [p1, C48.slot]; omega, by omega, by omega, by rw [p4]; exact ht, hs⟩, p5, p1⟩

/-- `x` and `y` are not on air at the same time. -/
def Disjoint (x y : Tx) : Prop := x.time + x.len ≤ y.time ∨ y.time + y.len ≤ x.time

/-- Intervals within periods -/
theorem periodic {P : Nat} {B t u : Int} {k k' o l o' l' : Nat} (ht : t = B + (k * P : Nat) + o) (hu : u = B + (k' * P : Nat) + o')
    (h : o + l ≤ P) (h' : o' + l' ≤ P) (hd : o + l ≤ o' ∨ o' + l' ≤ o) : t + l ≤ u ∨ u + l' ≤ t := by
  rcases Nat.lt_trichotomy k k' with hk | hk | hk
  · left
    have : (k + 1) * P ≤ k' * P := Nat.mul_le_mul_right _ (by omega)
    rw [Nat.succ_mul] at this
    omega
  · subst hk
    omega
  · right
    have : (k' + 1) * P ≤ k * P := Nat.mul_le_mul_right _ (by omega)
    rw [Nat.succ_mul] at this
    omega

/-- A portable point whose beacons are those of the fixed point transmits at multiples of the period after the first one. -/
theorem grid {P : Nat} {B t : Int} (hP : a.period = P) {x : Tx} (ht : ∃ k : Nat, t = B + (k * P : Nat)) (h : Follows a t x) :
    ∃ r ∈ a.ul, x.len = r.len ∧ ∃ k : Nat, x.time = B + (k * P : Nat) + r.off := by
  obtain ⟨k, hk⟩ := ht
  obtain ⟨⟨r, h1, h2, k', h3⟩, -, -⟩ := h
  refine ⟨r, h1, h2, k + k', ?_⟩
  rw [h3, hk, hP, Nat.add_mul]
  push_cast
  omega

/-- Disjoint as sets of samples -/
theorem apart {r r' : Resource} (h1 : 1 ≤ r.len) (h1' : 1 ≤ r'.len)
    (h : ∀ s, Covers r.off r.len s → ¬ Covers r'.off r'.len s) : r.off + r.len ≤ r'.off ∨ r'.off + r'.len ≤ r.off := by
  by_contra hcon
  have := h (max r.off r'.off) (by unfold Covers; omega)
  exact this (by unfold Covers; omega)

/-- No collisions, for every sample rate, number of portable points and number of resources per point: if the portable points
receive only beacons of the fixed point, then no packet of a portable point is on air at the same time as a beacon, or a packet
from the fixed point, or a packet from another portable point. -/
theorem C50_no_collision {rate : Nat} (hr : C48.RateOk rate) {nPt nRes : Nat} {turnaround : Int}
    (hw : 6 + 4 * nPt + 4 * nPt * nRes < 4294967296) (ht : 0 ≤ turnaround ∧ turnaround ≤ 1152921504606846976)
    {cs : List Alloc} (hlen : cs.length ≤ nPt)
    (hcs : ∀ (j : Nat) (b : Alloc), cs[j]? = some b → initAllocationPt rate nPt nRes turnaround j = .ok b)
    {B : Int} {n : Nat} {ft : List Tx}
    (hft : ∀ x ∈ ft, Allowed (24 * C48.slot rate) (2 * C48.slot rate) B cs n x)
    {i : Nat} (hi : i < nPt) (ha : initAllocationPt rate nPt nRes turnaround i = .ok a)
    {es : List PtEvent} (hes : ∀ t ∈ received es, ∃ k : Nat, t = B + (k * (24 * C48.slot rate) : Nat)) {pt : List Tx}
    (hpt : ∀ y ∈ pt, ∃ t ∈ received es, Follows a t y) :
    (∀ x ∈ ft, ∀ y ∈ pt, Disjoint x y) ∧
    (∀ (i' : Nat) (a' : Alloc) (es' : List PtEvent) (pt' : List Tx), i' < nPt → i' ≠ i →
      initAllocationPt rate nPt nRes turnaround i' = .ok a' →
      (∀ t ∈ received es', ∃ k : Nat, t = B + (k * (24 * C48.slot rate) : Nat)) →
      (∀ y ∈ pt', ∃ t ∈ received es', Follows a' t y) → ∀ x ∈ pt', ∀ y ∈ pt, Disjoint x y) := by
  have hb : ∀ id, id < nPt → 6 + 4 * id + 4 * nPt * nRes < 4294967296 := fun id h => by omega
  obtain ⟨hua, -, hpa⟩ := C50_usable hr ht (hb i hi) (by omega) ha
  constructor
  · intro x hx y hy
    obtain ⟨t, htr, hty⟩ := hpt y hy
    obtain ⟨r, hrm, hrl, k, hk⟩ := grid hpa (hes t htr) hty
    have hrr := hua.ul r hrm
    rw [hpa] at hrr
    rcases hft x hx with ⟨-, h2, k', -, h3⟩ | ⟨j, b, r', -, h2, h3, h4, -, k', -, h6⟩
    · unfold Disjoint
      rw [h2, hrl]
      refine periodic (P := 24 * C48.slot rate) (k := k') (o := 0) (by rw [h3, Int.natCast_zero, Int.add_zero]) hk (by omega) hrr.2 ?_
      have := (C48.C48_exclusive hr turnaround turnaround hw ha ha hi hi (d := .ul) (d' := .ul) hrm hrm).2 r.off
        (by unfold Covers; omega)
      omega
    · have hj : j < nPt := by
        have := (List.getElem?_eq_some_iff.1 h2).1
        omega
      have hb2 := hcs j b h2
      have hs := (C48.C48_sorted hr (hb j hj) (by omega) hb2 .dl).2 r' h3
      have hpb := (C50_usable hr ht (hb j hj) (by omega) hb2).2.2
      rw [hpb] at hs
      unfold Disjoint
      rw [h4, hrl]
      refine periodic h6 hk hs.2 hrr.2 (apart hs.1 hrr.1 ?_)
      intro s hs1 hs2
      have := (C48.C48_exclusive hr turnaround turnaround hw hb2 ha hj hi (d := .dl) (d' := .ul) h3 hrm).1 s hs1 hs2
      simp at this
  · intro i' a' es' pt' hi' hne ha' hes' hpt' x hx y hy
    obtain ⟨hua', -, hpa'⟩ := C50_usable hr ht (hb i' hi') (by omega) ha'
    obtain ⟨t, htr, hty⟩ := hpt y hy
    obtain ⟨r, hrm, hrl, k, hk⟩ := grid hpa (hes t htr) hty
    have hrr := hua.ul r hrm
    rw [hpa] at hrr
    obtain ⟨t', htr', hty'⟩ := hpt' x hx
    obtain ⟨r', hrm', hrl', k', hk'⟩ := grid hpa' (hes' t' htr') hty'
    have hrr' := hua'.ul r' hrm'
    rw [hpa'] at hrr'
    unfold Disjoint
    rw [hrl, hrl']
    refine periodic hk' hk hrr'.2 hrr.2 (apart hrr'.1 hrr.1 ?_)
    intro s hs1 hs2
    exact hne ((C48.C48_exclusive hr turnaround turnaround hw ha' ha hi' hi (d := .ul) (d' := .ul) hrm' hrm).1 s hs1 hs2).1

/-- The whole network, from the start: a fixed point whose calls are in time, and portable points that receive beacons of
the fixed point. Nobody stops, and no two devices are on air at the same time. -/
theorem C50_network {rate : Nat} (hr : C48.RateOk rate) {nPt nRes : Nat} {turnaround : Int}
    (hw : 6 + 4 * nPt + 4 * nPt * nRes < 4294967296) (ht : 0 ≤ turnaround ∧ turnaround ≤ 1152921504606846976)
    (cs : List Alloc) (hlen : cs.length = nPt)
    (hcs : ∀ (j : Nat) (b : Alloc), cs[j]? = some b → initAllocationPt rate nPt nRes turnaround j = .ok b)
    {B : Int} (hB : 0 ≤ B) (prepare : Nat) (asap delay : Int) (env : Nat → Nat → Env) (es : List FtEvent)
    (hn : B + ((1 + count es) * (24 * C48.slot rate) : Nat) ≤ 1152921504606846976)
    (hc : ∀ e ∈ FtEvent.irregular asap delay env :: es, C49.Clock e)
    (hon : OnTime (24 * C48.slot rate) B 0 (.irregular asap delay env :: es))
    (ps : Nat → List PtEvent) (hps : ∀ i < nPt, (∀ e ∈ ps i, Clock e) ∧ Causal (-1152921504606846976) (ps i) ∧
      ∀ t ∈ received (ps i), ∃ k : Nat, t = B + (k * (24 * C48.slot rate) : Nat)) :
    ∃ s, (FtSys.start (24 * C48.slot rate) prepare cs B).run (2 * C48.slot rate) (.irregular asap delay env :: es) = .ok s ∧
      ∃ p : Nat → PtSys, (∀ (i : Nat) (a : Alloc), cs[i]? = some a → (PtSys.start a).run (ps i) = .ok (p i)) ∧
        (∀ i < nPt, ∀ x ∈ s.log, ∀ y ∈ (p i).log, Disjoint x y) ∧
        (∀ i < nPt, ∀ j < nPt, i ≠ j → ∀ x ∈ (p i).log, ∀ y ∈ (p j).log, Disjoint x y) := by
  have hslot : 24 * C48.slot rate < 2147483648 := by
    obtain ⟨r1, r2, r3⟩ := hr
    unfold C48.slot; omega
  have hall : ∀ i < nPt, ∃ a, cs[i]? = some a ∧ initAllocationPt rate nPt nRes turnaround i = .ok a := by
    intro i hi
    refine ⟨cs[i]'(by omega), by simp, hcs i _ (by simp)⟩
  have hb : ∀ id, id < nPt → 6 + 4 * id + 4 * nPt * nRes < 4294967296 := fun id h => by omega
  have hus : ∀ a ∈ cs, C49.Usable (24 * C48.slot rate) (2 * C48.slot rate) a := by
    intro a ha
    obtain ⟨j, hj, rfl⟩ := List.getElem_of_mem ha
    exact C49_usable hr ht (hb j (by omega)) (by omega) (hcs j _ (by simp))
  obtain ⟨s, h1, -, -, -, h2⟩ := (C49_schedule hslot hB (by omega) hus prepare asap delay env es hn hc).1 hon
  have hrun : ∀ i < nPt, ∃ q : PtSys, (∀ a, cs[i]? = some a → (PtSys.start a).run (ps i) = .ok q) ∧
      ∀ a, cs[i]? = some a → ∀ x ∈ q.log, ∃ t ∈ received (ps i), Follows a t x := by
    intro i hi
    obtain ⟨a, ha, ha'⟩ := hall i hi
    obtain ⟨u1, u2, -⟩ := C50_usable hr ht (hb i hi) (by omega) ha'
    obtain ⟨g1, g2, -⟩ := hps i hi
    obtain ⟨q, h3, -, -, h4⟩ := (C50_schedule u1 u2 (ps i) g1).1 (by rw [u2]; exact g2)
    refine ⟨q, ?_, ?_⟩
    · intro a' e
      rw [ha] at e
      rw [← Option.some.inj e]
      exact h3
    · intro a' e
      rw [ha] at e
      rw [← Option.some.inj e]
      exact h4
  refine ⟨s, h1, fun i => if hi : i < nPt then (hrun i hi).choose else PtSys.start (Alloc.make 0 0 0 0), ?_, ?_, ?_⟩
  · intro i a ha
    have hi : i < nPt := by
      have := (List.getElem?_eq_some_iff.1 ha).1
      omega
    beta_reduce
    rw [dif_pos hi]
    exact (hrun i hi).choose_spec.1 a ha
  · intro i hi
    beta_reduce
    rw [dif_pos hi]
    obtain ⟨a, ha, ha'⟩ := hall i hi
    exact (C50_no_collision hr hw ht (by omega) hcs h2 hi ha' (hps i hi).2.2 ((hrun i hi).choose_spec.2 a ha)).1
  · intro i hi j hj hne
    beta_reduce
    rw [dif_pos hi, dif_pos hj]
    obtain ⟨a, ha, ha'⟩ := hall i hi
    obtain ⟨b, hb1, hb2⟩ := hall j hj
    exact (C50_no_collision hr hw ht (by omega) hcs h2 hj hb2 (hps j hj).2.2 ((hrun j hj).choose_spec.2 b hb1)).2 i a (ps i)
      _ hi hne ha' (hps i hi).2.2 ((hrun i hi).choose_spec.2 a ha)

/-- One terminal at 1.92 MS/s; no transmission before the beacon, one in this period and one in the next period, for which
no beacon is received; then the allocation is no longer valid. -/
theorem C50_example :
    ∃ a, initAllocationPt 1920000 1 4 100 0 = .ok a ∧ Usable a ∧ a.beacon = -1152921504606846976 ∧
      Causal a.beacon [.attempt ⟨3455990100, true⟩, .beacon 3456000000, .attempt ⟨3456002000, true⟩, .attempt ⟨3456015000, true⟩,
        .attempt ⟨3456032000, true⟩] ∧
      ∃ s, (PtSys.start a).run [.attempt ⟨3455990100, true⟩, .beacon 3456000000, .attempt ⟨3456002000, true⟩,
          .attempt ⟨3456015000, true⟩, .attempt ⟨3456032000, true⟩] = .ok s ∧
        s.log.map (fun x => (x.order, x.time, x.len)) = [(0, 3456004800, 1600), (1, 3456020800, 1600)] := by
  refine ⟨⟨19200, 30720, 21120, 100, -1152921504606846976, [⟨1600, 1600⟩, ⟨4800, 1600⟩, ⟨8000, 1600⟩, ⟨11200, 1600⟩],
    [⟨3200, 1600⟩, ⟨6400, 1600⟩, ⟨9600, 1600⟩, ⟨12800, 1600⟩]⟩, by decide +kernel,
    ⟨by norm_num, by norm_num, by norm_num, by norm_num, by simp⟩, rfl, by norm_num [Causal], ?_⟩
  have o1 : opportunity ⟨19200, 30720, 21120, 100, -1152921504606846976, [⟨1600, 1600⟩, ⟨4800, 1600⟩, ⟨8000, 1600⟩, ⟨11200, 1600⟩],
      [⟨3200, 1600⟩, ⟨6400, 1600⟩, ⟨9600, 1600⟩, ⟨12800, 1600⟩]⟩ .ul 3455990100 (-1152921504606846976) = .ok ⟨-1, -1⟩ :=
    opportunity_of_fuel 10 (by decide +kernel)
  have o2 : opportunity ⟨19200, 30720, 21120, 100, 3456000000, [⟨1600, 1600⟩, ⟨4800, 1600⟩, ⟨8000, 1600⟩, ⟨11200, 1600⟩],
      [⟨3200, 1600⟩, ⟨6400, 1600⟩, ⟨9600, 1600⟩, ⟨12800, 1600⟩]⟩ .ul 3456002000 (-1152921504606846976) = .ok ⟨3456004800, 1600⟩ :=
    opportunity_of_fuel 10 (by decide +kernel)
  have o3 : opportunity ⟨19200, 30720, 21120, 100, 3456000000, [⟨1600, 1600⟩, ⟨4800, 1600⟩, ⟨8000, 1600⟩, ⟨11200, 1600⟩],
      [⟨3200, 1600⟩, ⟨6400, 1600⟩, ⟨9600, 1600⟩, ⟨12800, 1600⟩]⟩ .ul 3456015000 3456006400 = .ok ⟨3456020800, 1600⟩ :=
    opportunity_of_fuel 10 (by decide +kernel)
  have o4 : opportunity ⟨19200, 30720, 21120, 100, 3456000000, [⟨1600, 1600⟩, ⟨4800, 1600⟩, ⟨8000, 1600⟩, ⟨11200, 1600⟩],
      [⟨3200, 1600⟩, ⟨6400, 1600⟩, ⟨9600, 1600⟩, ⟨12800, 1600⟩]⟩ .ul 3456032000 3456022400 = .ok ⟨-1, -1⟩ :=
    opportunity_of_fuel 10 (by decide +kernel)
  have i1 : Sp3.Duration.i64 3456006400 = .ok 3456006400 := by decide +kernel
  have i2 : Sp3.Duration.i64 3456022400 = .ok 3456022400 := by decide +kernel
  simp [PtSys.run, PtSys.event, PtSys.start, Alloc.setBeacon, o1, o2, o3, o4, i1, i2]

end Verif.Props.C50
