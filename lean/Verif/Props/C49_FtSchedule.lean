import Verif.Lemma.P2p
import Verif.Props.C48_P2pResources

/-!
# C49: The fixed point transmits in order, without overlap, and only in its own resources -/

namespace Verif.Props.C49

open Verif.Mac.Allocation Verif.Spec.Allocation Verif.P2p Verif.Props.C33

set_option linter.unusedSimpArgs false

/-- An allocation that the fixed point can work with: `P` samples per beacon period, the first `L` of them for the beacon -/
structure Usable (P L : Nat) (a : Alloc) : Prop where
  period : a.period = P
  validBeacon : a.validBeacon < 2147483648
  validNow : a.validNow < 2147483648
  turnaround : 0 ≤ a.turnaround ∧ a.turnaround ≤ 1152921504606846976
  dl : ∀ r ∈ a.dl, 1 ≤ r.len ∧ L ≤ r.off ∧ r.off + r.len ≤ P

theorem Usable.setBeacon {P L : Nat} {a : Alloc} (h : Usable P L a) (t : Int) : Usable P L (a.setBeacon t) :=
  ⟨h.period, h.validBeacon, h.validNow, h.turnaround, h.dl⟩

/-- Transmission `x` is over when `y` starts. -/
def Before (x y : Tx) : Prop := x.time + x.len ≤ y.time

/-- `x` is a beacon at the beginning of a beacon period, or a packet in a downlink resource of the contact it is sent to,
decided early enough for the hardware; `n` periods so far, first beacon at time `B`. -/
def Allowed (P L : Nat) (B : Int) (contacts : List Alloc) (n : Nat) (x : Tx) : Prop :=
  (x.dest = none ∧ x.len = L ∧ ∃ k < n, x.time = B + (k * P : Nat)) ∨
  (∃ j a r, x.dest = some j ∧ contacts[j]? = some a ∧ r ∈ a.dl ∧ x.len = r.len ∧ x.now + a.turnaround ≤ x.time ∧
    ∃ k < n, x.time = B + (k * P : Nat) + r.off)

/-- Times of the beacons -/
def beacons (l : List Tx) : List Int := (l.filter fun x => x.dest = none).map Tx.time

/-- State after `n` beacons. `cs` are the allocations that the contacts were created with. -/
structure Inv (P L : Nat) (B : Int) (cs : List Alloc) (n : Nat) (s : FtSys) : Prop where
  period : s.ft.period = P
  scheduled : s.ft.scheduled = B + (n * P : Nat)
  transmitted : 1 ≤ n ∧ s.ft.transmitted = B + ((n - 1) * P : Nat)
  contacts : s.contacts.length = cs.length ∧ ∀ (j : Nat) (a : Alloc), s.contacts[j]? = some a → ∃ (t : Int) (b : Alloc), cs[j]? = some b ∧ a = b.setBeacon t
  order : s.order = s.log.length ∧ ∀ (i : Nat) (x : Tx), s.log[i]? = some x → x.order = i
  earliest : s.ft.transmitted ≤ s.earliest ∧ s.earliest ≤ s.ft.scheduled
  ends : ∀ x ∈ s.log, x.time + x.len ≤ max (s.ft.transmitted + L) s.earliest
  sorted : s.log.Pairwise Before
  allowed : ∀ x ∈ s.log, Allowed P L B cs n x
  beacons : beacons s.log = (List.range n).map fun (k : Nat) => B + ((k * P : Nat) : Int)

variable {P L : Nat} {B : Int} {cs : List Alloc}

theorem append_order {l : List Tx} {x : Tx} (h : ∀ (i : Nat) (y : Tx), l[i]? = some y → y.order = i) (hx : x.order = l.length) :
    ∀ (i : Nat) (y : Tx), (l ++ [x])[i]? = some y → y.order = i := by
  intro i y hy
  rcases Nat.lt_or_ge i l.length with hi | hi
  · rw [List.getElem?_append_left hi] at hy
    exact h i y hy
  · rw [List.getElem?_append_right hi] at hy
    have : i - l.length = 0 := by
      by_contra hne
      rw [List.getElem?_eq_none (by simp; omega)] at hy
      exact absurd hy (by simp)
    rw [this] at hy
    simp only [List.getElem?_cons_zero, Option.some.injEq] at hy
    rw [← hy, hx]
    omega

theorem Allowed.mono {n m : Nat} {x : Tx} (h : Allowed P L B cs n x) (hnm : n ≤ m) : Allowed P L B cs m x := by
  rcases h with ⟨h1, h2, k, hk, h3⟩ | ⟨j, a, r, h1, h2, h3, h4, h5, k, hk, h6⟩
  · exact Or.inl ⟨h1, h2, k, by omega, h3⟩
  · exact Or.inr ⟨j, a, r, h1, h2, h3, h4, h5, k, by omega, h6⟩

/-- An unicast packet or none -/
theorem attempt_inv (hP : P < 2147483648) (hB : 0 ≤ B) (hcs : ∀ a ∈ cs, Usable P L a) {n : Nat} {s : FtSys}
    (h : Inv P L B cs n s) (hn : B + (n * P : Nat) ≤ 1152921504606846976) (e : Env) (he : 0 ≤ e.now)
    (he' : e.now ≤ 1152921504606846976) (j : Nat) (hj : j < cs.length) :
    ∃ s' b, s.attempt e j = .ok (s', b) ∧ Inv P L B cs n s' := by
  obtain ⟨a, ha⟩ : ∃ a, s.contacts[j]? = some a :=
    ⟨s.contacts[j]'(by have := h.contacts.1; omega), by simp⟩
  obtain ⟨t, b, hb, rfl⟩ := h.contacts.2 j a ha
  have hu := hcs b (List.mem_of_getElem? hb)
  have hsub : ((n - 1) * P : Nat) ≤ n * P := Nat.mul_le_mul_right _ (by omega)
  have hnP : n * P = (n - 1) * P + P := by
    obtain ⟨h1, -⟩ := h.transmitted
    rw [← Nat.succ_mul]; congr 1; omega
  obtain ⟨hn1, htr⟩ := h.transmitted
  have hsch := h.scheduled
  obtain ⟨he1, he2⟩ := h.earliest
  have hr : Ranges ((b.setBeacon t).setBeacon s.ft.transmitted) e.now s.earliest := by
    refine ⟨?_, hu.validBeacon, hu.validNow, ⟨?_, ?_⟩, ⟨?_, ?_⟩, ⟨?_, ?_⟩, ⟨?_, ?_⟩⟩
    · show b.period < _
      rw [hu.period]; exact hP
    · have := hu.turnaround.1
      show _ ≤ b.turnaround
      omega
    · exact hu.turnaround.2
    · show _ ≤ s.ft.transmitted
      omega
    · show s.ft.transmitted ≤ _
      omega
    all_goals omega
  have hset : ∀ (i : Nat) (x : Alloc), (s.contacts.set j ((b.setBeacon t).setBeacon s.ft.transmitted))[i]? = some x →
      ∃ (t : Int) (c : Alloc), cs[i]? = some c ∧ x = c.setBeacon t := by
    intro i x hx
    rw [List.getElem?_set] at hx
    split at hx
    · rename_i hij
      subst hij
      split at hx
      · exact ⟨s.ft.transmitted, b, hb, (Option.some.inj hx).symm⟩
      · exact absurd hx (by simp)
    · exact h.contacts.2 i x hx
  have hinv1 : Inv P L B cs n { s with contacts := s.contacts.set j ((b.setBeacon t).setBeacon s.ft.transmitted) } :=
    ⟨h.period, h.scheduled, h.transmitted, ⟨by simp [h.contacts.1], hset⟩, h.order, h.earliest, h.ends, h.sorted, h.allowed,
      h.beacons⟩
  obtain ⟨o, ho, hspec⟩ := opportunity_spec ((b.setBeacon t).setBeacon s.ft.transmitted) .dl e.now s.earliest hr (by simp)
    (by simp) (fun r hrm => by
      have := hu.dl r hrm
      show _ ∧ _ ≤ b.period
      rw [hu.period]
      exact ⟨this.1, this.2.2⟩)
  unfold FtSys.attempt
  rw [ha]
  show ∃ s' b, (opportunity _ _ _ _ >>= _) = _ ∧ _
  rw [ho, Res.ok_bind]
  rcases hspec with ⟨rfl, -⟩ | ⟨r, hrm, hlen, ⟨k, o', ho', htime⟩, hlo, hhi⟩
  · exact ⟨_, true, by rw [if_pos (by decide)], hinv1⟩
  have hrd := hu.dl r hrm
  rw [List.mem_singleton] at ho'
  subst ho'
  have htime : o.time = s.ft.transmitted + k * (b.period : Int) + r.off := htime
  rw [hu.period] at htime
  have hhi : o.time < s.ft.transmitted + b.period := hhi
  rw [hu.period] at hhi
  have hk : k = 0 := by
    rcases Nat.eq_zero_or_pos k with hk | hk
    · exact hk
    · have : (1 : Int) * P ≤ k * P := Int.mul_le_mul_of_nonneg_right (by omega) (by omega)
      omega
  subst hk
  rw [Int.natCast_zero, Int.zero_mul, Int.add_zero] at htime
  have hlo1 : e.now + b.turnaround ≤ o.time := le_trans (le_max_left _ _) hlo
  have hlo2 : s.earliest ≤ o.time := le_trans (le_max_right _ _) hlo
  rw [if_neg (by omega)]
  cases hs : e.sent with
  | false => exact ⟨_, false, by simp, hinv1⟩
  | true =>
    have h64 : Sp3.Duration.i64 (o.time + o.n) = .ok (o.time + o.n) := i64_ok (by omega) (by omega)
    simp only [if_true, FtSys.unicast, h64, Res.ok_bind]
    refine ⟨_, false, rfl, h.period, h.scheduled, h.transmitted, ⟨by simp [h.contacts.1], hset⟩, ?_, ?_, ?_, ?_, ?_, ?_⟩
    · exact ⟨by simp [h.order.1], append_order h.order.2 h.order.1⟩
    · dsimp only
      omega
    · intro x hx
      dsimp only at hx ⊢
      rcases List.mem_append.1 hx with hx | hx
      · have := h.ends x hx
        omega
      · rw [List.mem_singleton.1 hx]
        dsimp only
        omega
    · dsimp only
      rw [List.pairwise_append]
      refine ⟨h.sorted, List.pairwise_singleton _ _, ?_⟩
      intro x hx y hy
      rw [List.mem_singleton.1 hy]
      have := h.ends x hx
      show x.time + x.len ≤ o.time
      omega
    · intro x hx
      dsimp only at hx
      rcases List.mem_append.1 hx with hx | hx
      · exact h.allowed x hx
      · rw [List.mem_singleton.1 hx]
        refine Or.inr ⟨j, b, r, rfl, hb, hrm, hlen, hlo1, n - 1, by omega, ?_⟩
        dsimp only
        omega
    · have := h.beacons
      unfold Props.C49.beacons at this ⊢
      simpa using this

theorem contactLoop_inv (hP : P < 2147483648) (hB : 0 ≤ B) (hcs : ∀ a ∈ cs, Usable P L a) {n : Nat}
    (hn : B + (n * P : Nat) ≤ 1152921504606846976) (env : Nat → Env)
    (he : ∀ j, 0 ≤ (env j).now ∧ (env j).now ≤ 1152921504606846976) :
    ∀ (k j : Nat) (s : FtSys), Inv P L B cs n s → j + k ≤ cs.length → ∃ s' b, s.contactLoop env k j = .ok (s', b) ∧ Inv P L B cs n s' := by
  intro k
  induction k with
  | zero => exact fun j s h _ => ⟨s, false, rfl, h⟩
  | succ k ih =>
    intro j s h hj
    obtain ⟨s', b, h1, h2⟩ := attempt_inv hP hB hcs h hn (env j) (he j).1 (he j).2 j (by omega)
    rw [FtSys.contactLoop, h1, Res.ok_bind]
    cases b with
    | true => exact ⟨s', true, by simp, h2⟩
    | false => simpa using ih (j + 1) s' h2 (by omega)

theorem packetLoop_inv (hP : P < 2147483648) (hB : 0 ≤ B) (hcs : ∀ a ∈ cs, Usable P L a) {n : Nat}
    (hn : B + (n * P : Nat) ≤ 1152921504606846976) (env : Nat → Nat → Env)
    (he : ∀ i j, 0 ≤ (env i j).now ∧ (env i j).now ≤ 1152921504606846976) :
    ∀ (k : Nat) (s : FtSys), Inv P L B cs n s → ∃ s', s.packetLoop env k = .ok s' ∧ Inv P L B cs n s' := by
  intro k
  induction k with
  | zero => exact fun s h => ⟨s, rfl, h⟩
  | succ k ih =>
    intro s h
    obtain ⟨s', b, h1, h2⟩ := contactLoop_inv hP hB hcs hn (env k) (he k) s.contacts.length 0 s h
      (by have := h.contacts.1; omega)
    rw [FtSys.packetLoop, h1, Res.ok_bind]
    cases b with
    | true => exact ⟨s', by simp, h2⟩
    | false => simpa using ih s' h2

theorem beacon_inv (hP : P < 2147483648) (hB : 0 ≤ B) {n : Nat} {s : FtSys} (hL : L ≤ P)
    (h : Inv P L B cs n s) (hn : B + ((n + 1) * P : Nat) ≤ 1152921504606846976) :
    ∃ s', s.beacon L = .ok s' ∧ Inv P L B cs (n + 1) s' := by
  have hnP : (n + 1) * P = n * P + P := Nat.succ_mul _ _
  have hn1P : n * P = (n - 1) * P + P := by
    obtain ⟨h1, -⟩ := h.transmitted
    rw [← Nat.succ_mul]; congr 1; omega
  obtain ⟨hn1, htr⟩ := h.transmitted
  have hsch := h.scheduled
  obtain ⟨he1, he2⟩ := h.earliest
  have h64 : Sp3.Duration.i64 (s.ft.scheduled + s.ft.period) = .ok (s.ft.scheduled + s.ft.period) :=
    i64_ok (by omega) (by rw [h.period]; omega)
  unfold FtSys.beacon Ft.setNext
  rw [h64]
  simp only [Res.ok_bind]
  refine ⟨_, rfl, h.period, ?_, ⟨by omega, ?_⟩, h.contacts, ?_, ?_, ?_, ?_, ?_, ?_⟩
  · dsimp only
    rw [h.period]; omega
  · dsimp only
    rw [Nat.add_sub_cancel]; exact hsch
  · exact ⟨by simp [h.order.1], append_order h.order.2 h.order.1⟩
  · dsimp only
    omega
  · intro x hx
    dsimp only at hx ⊢
    rcases List.mem_append.1 hx with hx | hx
    · have := h.ends x hx
      omega
    · rw [List.mem_singleton.1 hx]
      dsimp only
      omega
  · dsimp only
    rw [List.pairwise_append]
    refine ⟨h.sorted, List.pairwise_singleton _ _, ?_⟩
    intro x hx y hy
    rw [List.mem_singleton.1 hy]
    have := h.ends x hx
    show x.time + x.len ≤ s.ft.scheduled
    omega
  · intro x hx
    dsimp only at hx
    rcases List.mem_append.1 hx with hx | hx
    · exact (h.allowed x hx).mono (by omega)
    · rw [List.mem_singleton.1 hx]
      exact Or.inl ⟨rfl, rfl, n, by omega, hsch⟩
  · have := h.beacons
    unfold Props.C49.beacons at this ⊢
    rw [List.range_succ, List.filter_append, List.map_append, this, List.map_append]
    simp [hsch]

/-- The first beacon -/
theorem first_inv (hP : P < 2147483648) (hB : 0 ≤ B) (prepare : Nat)
    (hn : B + (P : Nat) ≤ 1152921504606846976) :
    ∃ s', (FtSys.start P prepare cs B).beacon L = .ok s' ∧ Inv P L B cs 1 s' := by
  have h64 : Sp3.Duration.i64 (B + P) = .ok (B + P) := i64_ok (by omega) (by omega)
  unfold FtSys.start FtSys.beacon Ft.setNext Ft.make Ft.setScheduled
  simp only [h64, Res.ok_bind]
  refine ⟨_, rfl, rfl, by simp, ⟨by omega, by simp⟩, ⟨rfl, fun j a h => ⟨a.beacon, a, h, rfl⟩⟩, ?_, ?_, ?_, ?_, ?_, ?_⟩
  · refine ⟨rfl, append_order (l := []) (by simp) rfl⟩
  · dsimp only; omega
  · intro x hx
    simp only [List.nil_append, List.mem_singleton] at hx
    subst hx
    dsimp only; omega
  · simp
  · intro x hx
    simp only [List.nil_append, List.mem_singleton] at hx
    subst hx
    exact Or.inl ⟨rfl, rfl, 0, by omega, by simp⟩
  · simp [Props.C49.beacons]

/-- The calls of `work_irregular` come in time: each one after the preceding beacon is decided and before its own beacon;
`n` beacons so far. -/
def OnTime (P : Nat) (B : Int) : Nat → List FtEvent → Prop
  | _, [] => True
  | n, .irregular asap delay _ :: es => asap < B + (n * P : Nat) ∧ 0 < delay ∧ OnTime P B (n + 1) es
  | n, .application _ :: es => OnTime P B n es

/-- Number of beacons -/
def count : List FtEvent → Nat
  | [] => 0
  | .irregular .. :: es => count es + 1
  | .application _ :: es => count es

/-- Times read from the clock -/
def Clock : FtEvent → Prop
  | .irregular _ _ env => ∀ i j, 0 ≤ (env i j).now ∧ (env i j).now ≤ 1152921504606846976
  | .application env => ∀ i j, 0 ≤ (env i j).now ∧ (env i j).now ≤ 1152921504606846976

theorem run_inv (hP : P < 2147483648) (hB : 0 ≤ B) (hL : L ≤ P) (hcs : ∀ a ∈ cs, Usable P L a) :
    ∀ (es : List FtEvent) (n : Nat) (s : FtSys), Inv P L B cs n s → B + ((n + count es) * P : Nat) ≤ 1152921504606846976 → (∀ e ∈ es, Clock e) →
      (OnTime P B n es → ∃ s', s.run L es = .ok s' ∧ Inv P L B cs (n + count es) s') ∧
      (¬ OnTime P B n es → s.run L es = .abort) := by
  intro es
  induction es with
  | nil => exact fun n s h _ _ => ⟨fun _ => ⟨s, rfl, h⟩, fun h => absurd trivial h⟩
  | cons e es ih =>
    intro n s h hn hc
    cases e with
    | application env =>
      have hmono : n * P ≤ (n + count es) * P := Nat.mul_le_mul_right _ (by omega)
      have hn : B + ((n + count es) * P : Nat) ≤ 1152921504606846976 := hn
      obtain ⟨s', h1, h2⟩ := packetLoop_inv hP hB hcs (by omega) env (hc (.application env) (by simp)) 8 s h
      have := ih n s' h2 hn (fun e he => hc e (by simp [he]))
      have hrun : s.run L (.application env :: es) = s'.run L es := by
        rw [FtSys.run, FtSys.event, FtSys.consecutive, h1, Res.ok_bind]
      rw [hrun]
      exact this
    | irregular asap delay env =>
      have hcount : n + count (.irregular asap delay env :: es) = n + 1 + count es := by
        simp only [count]; omega
      rw [hcount] at hn ⊢
      have hmono : (n + 1) * P ≤ (n + 1 + count es) * P := Nat.mul_le_mul_right _ (by omega)
      by_cases ht : asap < B + (n * P : Nat) ∧ 0 < delay
      swap
      · refine ⟨fun h => absurd ⟨h.1, h.2.1⟩ ht, fun _ => ?_⟩
        rw [FtSys.run, FtSys.event, h.scheduled]
        by_cases h1 : asap < B + (n * P : Nat)
        · have h2 : ¬ 0 < delay := fun h2 => ht ⟨h1, h2⟩
          simp only [h1, h2, decide_true, decide_false, Res.assert_true, Res.assert_false, Res.ok_bind, Res.abort_bind]
        · simp only [h1, decide_false, Res.assert_false, Res.abort_bind]
      obtain ⟨s1, h1, h2⟩ := beacon_inv hP hB hL h (by omega)
      obtain ⟨s2, h3, h4⟩ := packetLoop_inv hP hB hcs (by omega) env (hc (.irregular asap delay env) (by simp)) 8 s1 h2
      have := ih (n + 1) s2 h4 hn (fun e he => hc e (by simp [he]))
      have hrun : s.run L (.irregular asap delay env :: es) = s2.run L es := by
        rw [FtSys.run, FtSys.event, h.scheduled, ht.1 |> decide_eq_true, ht.2 |> decide_eq_true, Res.assert_true]
        simp only [Res.ok_bind]
        rw [h1, Res.ok_bind, FtSys.consecutive, h3, Res.ok_bind]
      rw [hrun]
      refine ⟨fun h => this.1 h.2.2, fun h => this.2 fun h' => h ⟨ht.1, ht.2, h'⟩⟩

/-- For every number of contacts with allocations that respect the beacon, all calls of the firmware beginning with the
first beacon, all answers of application, HARQ processes and clock: if the calls are in time, the program does not stop,
and all transmissions are numbered in the order in which they are decided, each one is over when the next one starts, the
beacons are exactly one period apart, and each packet lies in a downlink resource of the contact it is sent to and is decided
early enough for the hardware. If a call is late the program stops. -/
theorem C49_schedule (hP : P < 2147483648) (hB : 0 ≤ B) (hL : L ≤ P) (hcs : ∀ a ∈ cs, Usable P L a) (prepare : Nat)
    (asap delay : Int) (env : Nat → Nat → Env) (es : List FtEvent)
    (hn : B + ((1 + count es) * P : Nat) ≤ 1152921504606846976) (hc : ∀ e ∈ FtEvent.irregular asap delay env :: es, Clock e) :
    (OnTime P B 0 (.irregular asap delay env :: es) →
      ∃ s, (FtSys.start P prepare cs B).run L (.irregular asap delay env :: es) = .ok s ∧
        (∀ (i : Nat) (x : Tx), s.log[i]? = some x → x.order = i) ∧
        s.log.Pairwise (fun x y => x.time + x.len ≤ y.time) ∧
        beacons s.log = (List.range (1 + count es)).map (fun (k : Nat) => B + ((k * P : Nat) : Int)) ∧
        ∀ x ∈ s.log, Allowed P L B cs (1 + count es) x) ∧
    (¬ OnTime P B 0 (.irregular asap delay env :: es) →
      (FtSys.start P prepare cs B).run L (.irregular asap delay env :: es) = .abort) := by
  have hmono : 1 * P ≤ (1 + count es) * P := Nat.mul_le_mul_right _ (by omega)
  rw [Nat.one_mul] at hmono
  obtain ⟨s1, h1, h2⟩ := first_inv (L := L) (cs := cs) hP hB prepare (by omega)
  obtain ⟨s2, h3, h4⟩ := packetLoop_inv hP hB hcs (by rw [Nat.one_mul]; omega) env (hc (.irregular asap delay env) (by simp)) 8 s1 h2
  have hsched : (FtSys.start P prepare cs B).ft.scheduled = B := rfl
  by_cases ht : asap < B ∧ 0 < delay
  swap
  · refine ⟨fun h => absurd ⟨by simpa using h.1, h.2.1⟩ ht, fun _ => ?_⟩
    rw [FtSys.run, FtSys.event, hsched]
    by_cases ha : asap < B
    · have : ¬ 0 < delay := fun h => ht ⟨ha, h⟩
      simp only [ha, this, decide_true, decide_false, Res.assert_true, Res.assert_false, Res.ok_bind, Res.abort_bind]
    · simp only [ha, decide_false, Res.assert_false, Res.abort_bind]
  have hrun : (FtSys.start P prepare cs B).run L (.irregular asap delay env :: es) = s2.run L es := by
    rw [FtSys.run, FtSys.event, hsched, ht.1 |> decide_eq_true, ht.2 |> decide_eq_true, Res.assert_true]
    simp only [Res.ok_bind]
    rw [h1, Res.ok_bind, FtSys.consecutive, h3, Res.ok_bind]
  have := run_inv hP hB hL hcs es 1 s2 h4 hn (fun e he => hc e (by simp [he]))
  rw [hrun]
  constructor
  · intro h
    obtain ⟨s, h5, h6⟩ := this.1 h.2.2
    exact ⟨s, h5, h6.order.2, h6.sorted, h6.beacons, h6.allowed⟩
  · intro h
    exact this.2 fun h' => h ⟨by simpa using ht.1, ht.2, h'⟩

/-- The allocations of C48 are usable: two slots for the beacon. -/
theorem C49_usable {rate : Nat} (hr : C48.RateOk rate) {nPt nRes : Nat} {turnaround : Int} {id : Nat} {a : Alloc}
    (ht : 0 ≤ turnaround ∧ turnaround ≤ 1152921504606846976)
    (hw : 6 + 4 * id + 4 * nPt * nRes < 4294967296) (hn : 4 * nPt < 4294967296)
    (h : initAllocationPt rate nPt nRes turnaround id = .ok a) :
    Usable (24 * C48.slot rate) (2 * C48.slot rate) a := by
  obtain ⟨c1, c2, c3⟩ := C48.C48_allocation hr nPt nRes turnaround id hw hn
  have hs := (C48.C48_sorted hr hw hn h .dl).2
  have hper : a.period = 24 * C48.slot rate ∧ a.validBeacon = rate / 1000 * 16 ∧ a.validNow = rate / 1000 * 11 ∧
      a.turnaround = turnaround := by
    rcases Nat.lt_or_ge id nPt with hid | hid
    · by_cases hf : C48.Fit nPt nRes id
      · rw [c2 hid hf] at h
        rw [← Res.ok.inj h]
        exact ⟨rfl, rfl, rfl, rfl⟩
      · rw [c3 hid hf] at h
        exact absurd h (by simp)
    · rw [c1 hid] at h
      rw [← Res.ok.inj h]
      exact ⟨rfl, rfl, rfl, rfl⟩
  obtain ⟨p1, p2, p3, p4⟩ := hper
  obtain ⟨r1, r2, r3⟩ := hr
  refine ⟨p1, by omega, by omega, by rw [p4]; exact ht, ?_⟩
  intro r hm
  have := hs r hm
  obtain ⟨-, -, -, -, k, -, rfl⟩ := C48.init_ok ⟨r1, r2, r3⟩ hw hn h .dl r hm
  refine ⟨this.1, ?_, by rw [← p1]; exact this.2⟩
  dsimp only
  rw [Nat.mul_comm 2]
  refine Nat.mul_le_mul_left _ ?_
  simp only [reduceCtorEq, if_false]
  omega

/-- Finding: an event of the application before the first beacon lets a signed addition overflow. The time of the last
beacon is INT64_MAX until then; the application server is started by the constructor, the first beacon is sent one to two
seconds after `entry`. -/
theorem C49_finding_first (prepare : Nat) (env : Nat → Nat → Env) (a : Alloc) (cs : List Alloc) (hp : 1 ≤ a.period)
    (ht : 0 ≤ a.turnaround ∧ a.turnaround ≤ 1152921504606846976) (he : ∀ i j, 0 ≤ (env i j).now ∧ (env i j).now ≤ 1152921504606846976) :
    (FtSys.start P prepare (a :: cs) B).run L [.application env] = .ub := by
  have hopp : opportunity (a.setBeacon 9223372036854775807) .dl (env 7 0).now (-1152921504606846976) = .ub := by
    refine opportunity_of_fuel 0 ?_
    have h1 : earliestLocal (a.setBeacon 9223372036854775807) (env 7 0).now (-1152921504606846976) =
        .ok (max ((env 7 0).now + a.turnaround) (-1152921504606846976)) := by
      unfold earliestLocal
      have := he 7 0
      rw [i64_ok (by show _ ≤ (env 7 0).now + a.turnaround; omega) (by show (env 7 0).now + a.turnaround < _; omega)]
      rfl
    have h2 : latestDl (a.setBeacon 9223372036854775807) = .ub := by
      unfold latestDl Sp3.Duration.i64
      have e : (a.setBeacon 9223372036854775807).beacon + (a.setBeacon 9223372036854775807).period =
        9223372036854775807 + a.period := rfl
      rw [e, if_neg (by omega)]
    unfold getTxOpportunity window
    rw [h1, Res.ok_bind, h2]
    rfl
  rw [FtSys.run, FtSys.event, FtSys.consecutive, FtSys.packetLoop]
  have h1 : (FtSys.start P prepare (a :: cs) B).contactLoop (env 7) (a :: cs).length 0 = .ub := by
    rw [List.length_cons, FtSys.contactLoop, FtSys.attempt]
    show ((opportunity (a.setBeacon 9223372036854775807) .dl (env 7 0).now (-1152921504606846976) >>= _) >>= _) = _
    rw [hopp]
    rfl
  show (((FtSys.start P prepare (a :: cs) B).contactLoop (env 7) (a :: cs).length 0 >>= _) >>= _) = _
  rw [h1]
  rfl

/-- Finding: no other contact is served if there is no opportunity for the first one. -/
theorem C49_finding_starved (s : FtSys) (a : Alloc) (rest : List Alloc) (env : Nat → Nat → Env) (hc : s.contacts = a :: rest)
    (h : opportunity (a.setBeacon s.ft.transmitted) .dl (env 7 0).now s.earliest = .ok ⟨-1, -1⟩) :
    ∃ s', s.consecutive env = .ok s' ∧ s'.log = s.log := by
  refine ⟨{ s with contacts := s.contacts.set 0 (a.setBeacon s.ft.transmitted) }, ?_, rfl⟩
  rw [FtSys.consecutive, FtSys.packetLoop, hc, List.length_cons, FtSys.contactLoop, FtSys.attempt]
  simp [hc, h]

/-- Two terminals at 1.92 MS/s, slots of 800 samples. Half an hour after the start the clock is at slot 13 of the period.
The second terminal could be sent a packet at slot 16, but the search for the first one finds nothing any more. -/
theorem C49_finding_starved_example :
    ∃ a b, initAllocationPt 1920000 2 2 100 0 = .ok a ∧ initAllocationPt 1920000 2 2 100 1 = .ok b ∧
      opportunity (a.setBeacon 3456000000) .dl 3456010400 3456000000 = .ok ⟨-1, -1⟩ ∧
      opportunity (b.setBeacon 3456000000) .dl 3456010400 3456000000 = .ok ⟨3456012800, 1600⟩ := by
  refine ⟨⟨19200, 30720, 21120, 100, -1152921504606846976, [⟨1600, 1600⟩, ⟨8000, 1600⟩], [⟨3200, 1600⟩, ⟨9600, 1600⟩]⟩,
    ⟨19200, 30720, 21120, 100, -1152921504606846976, [⟨4800, 1600⟩, ⟨11200, 1600⟩], [⟨6400, 1600⟩, ⟨12800, 1600⟩]⟩,
    by decide +kernel, by decide +kernel, opportunity_of_fuel 10 (by decide +kernel), opportunity_of_fuel 10 (by decide +kernel)⟩

/-- One terminal at 1.92 MS/s. Three beacons, and one event of the application in between; the first pass after each
beacon finds data. -/
theorem C49_example :
    ∃ a, initAllocationPt 1920000 1 4 100 0 = .ok a ∧ Usable 19200 1600 a ∧
      OnTime 19200 3456000000 0 [.irregular 3455990000 100 (fun i _ => ⟨3455990100, i = 7⟩), .application (fun i _ => ⟨3456004000, i = 7⟩),
        .irregular 3456009000 100 (fun i _ => ⟨3456009100, i = 7⟩)] ∧
      ∃ s, (FtSys.start 19200 7680 [a] 3456000000).run 1600
          [.irregular 3455990000 100 (fun i _ => ⟨3455990100, i = 7⟩), .application (fun i _ => ⟨3456004000, i = 7⟩),
           .irregular 3456009000 100 (fun i _ => ⟨3456009100, i = 7⟩)] = .ok s ∧
        s.log.map (fun x => (x.order, x.time, x.len, x.dest)) =
          [(0, 3456000000, 1600, none), (1, 3456003200, 1600, some 0), (2, 3456006400, 1600, some 0),
           (3, 3456019200, 1600, none), (4, 3456022400, 1600, some 0)] := by
  refine ⟨⟨19200, 30720, 21120, 100, -1152921504606846976, [⟨1600, 1600⟩, ⟨4800, 1600⟩, ⟨8000, 1600⟩, ⟨11200, 1600⟩],
    [⟨3200, 1600⟩, ⟨6400, 1600⟩, ⟨9600, 1600⟩, ⟨12800, 1600⟩]⟩, by decide +kernel,
    ⟨rfl, by norm_num, by norm_num, by norm_num, by simp⟩, by norm_num [OnTime], ?_⟩
  have o1 : opportunity ⟨19200, 30720, 21120, 100, 3456000000, [⟨1600, 1600⟩, ⟨4800, 1600⟩, ⟨8000, 1600⟩, ⟨11200, 1600⟩],
      [⟨3200, 1600⟩, ⟨6400, 1600⟩, ⟨9600, 1600⟩, ⟨12800, 1600⟩]⟩ .dl 3455990100 3456000000 = .ok ⟨3456003200, 1600⟩ :=
    opportunity_of_fuel 10 (by decide +kernel)
  have o2 : opportunity ⟨19200, 30720, 21120, 100, 3456000000, [⟨1600, 1600⟩, ⟨4800, 1600⟩, ⟨8000, 1600⟩, ⟨11200, 1600⟩],
      [⟨3200, 1600⟩, ⟨6400, 1600⟩, ⟨9600, 1600⟩, ⟨12800, 1600⟩]⟩ .dl 3455990100 3456004800 = .ok ⟨3456006400, 1600⟩ :=
    opportunity_of_fuel 10 (by decide +kernel)
  have o3 : opportunity ⟨19200, 30720, 21120, 100, 3456000000, [⟨1600, 1600⟩, ⟨4800, 1600⟩, ⟨8000, 1600⟩, ⟨11200, 1600⟩],
      [⟨3200, 1600⟩, ⟨6400, 1600⟩, ⟨9600, 1600⟩, ⟨12800, 1600⟩]⟩ .dl 3456004000 3456004800 = .ok ⟨3456006400, 1600⟩ :=
    opportunity_of_fuel 10 (by decide +kernel)
  have o4 : opportunity ⟨19200, 30720, 21120, 100, 3456000000, [⟨1600, 1600⟩, ⟨4800, 1600⟩, ⟨8000, 1600⟩, ⟨11200, 1600⟩],
      [⟨3200, 1600⟩, ⟨6400, 1600⟩, ⟨9600, 1600⟩, ⟨12800, 1600⟩]⟩ .dl 3456004000 3456008000 = .ok ⟨3456009600, 1600⟩ :=
    opportunity_of_fuel 10 (by decide +kernel)
  have o5 : opportunity ⟨19200, 30720, 21120, 100, 3456019200, [⟨1600, 1600⟩, ⟨4800, 1600⟩, ⟨8000, 1600⟩, ⟨11200, 1600⟩],
      [⟨3200, 1600⟩, ⟨6400, 1600⟩, ⟨9600, 1600⟩, ⟨12800, 1600⟩]⟩ .dl 3456009100 3456019200 = .ok ⟨3456022400, 1600⟩ :=
    opportunity_of_fuel 10 (by decide +kernel)
  have o6 : opportunity ⟨19200, 30720, 21120, 100, 3456019200, [⟨1600, 1600⟩, ⟨4800, 1600⟩, ⟨8000, 1600⟩, ⟨11200, 1600⟩],
      [⟨3200, 1600⟩, ⟨6400, 1600⟩, ⟨9600, 1600⟩, ⟨12800, 1600⟩]⟩ .dl 3456009100 3456024000 = .ok ⟨3456025600, 1600⟩ :=
    opportunity_of_fuel 10 (by decide +kernel)
  have i1 : Sp3.Duration.i64 3456019200 = .ok 3456019200 := by decide +kernel
  have i2 : Sp3.Duration.i64 3456038400 = .ok 3456038400 := by decide +kernel
  have i3 : Sp3.Duration.i64 3456004800 = .ok 3456004800 := by decide +kernel
  have i4 : Sp3.Duration.i64 3456008000 = .ok 3456008000 := by decide +kernel
  have i5 : Sp3.Duration.i64 3456024000 = .ok 3456024000 := by decide +kernel
  simp [FtSys.run, FtSys.event, FtSys.start, Ft.make, Ft.setScheduled, FtSys.beacon, Ft.setNext, FtSys.consecutive, FtSys.packetLoop,
    FtSys.contactLoop, FtSys.attempt, Alloc.setBeacon, FtSys.unicast, o1, o2, o3, o4, o5, o6, i1, i2, i3, i4, i5]

end Verif.Props.C49
