import Verif.Lemma.BufferTxData
import Verif.Lemma.BufferTxWake

/-!
# C21: TX buffers are never shared and a transmittable packet is never overlooked
-/

namespace Verif.Radio.BufferTx

theorem linv_of_reach {n : Nat} {s : Sys} (h : Reach n s) : LInv s := by
  induction h with
  | init => exact linv_init
  | step _ hs ih => exact linv_step ih hs

theorem dinv_of_reach {n : Nat} {s : Sys} (h : Reach n s) : DInv s := by
  induction h with
  | init => exact dinv_init
  | step hr hs ih => exact dinv_step (linv_of_reach hr) ih hs

theorem cinv_of_reach {n : Nat} {s : Sys} (h : Reach n s) : CInv s := by
  induction h with
  | init => exact cinv_init
  | step hr hs ih => exact cinv_step (linv_of_reach hr) ih hs

theorem winv_of_reach {n : Nat} {s : Sys} (h : Reach n s) : WInv n s := by
  induction h with
  | init => exact winv_init n
  | step hr hs ih => exact winv_step (linv_of_reach hr) ih hs

/-- A buffer is filled by at most one producer. -/
theorem C21_exclusive {n : Nat} {s : Sys} (h : Reach n s) {t u i : Nat} (ht : owns (s.pc t) = some i)
    (hu : owns (s.pc u) = some i) : t = u :=
  (linv_of_reach h).uniq t u i ht hu

/-- The TX thread does not touch a buffer before the producer has handed it over, and does not give it back before
the producer has written the last sample. -/
theorem C21_tx_exclusive {n : Nat} {s : Sys} (h : Reach n s) {t i : Nat} :
    (phaseA (s.pc t) = some i → txAt s.tx ≠ some i) ∧ (txRel s.tx = some i → owns (s.pc t) ≠ some i) :=
  ⟨(linv_of_reach h).aTx t i, (linv_of_reach h).relNoOwner t i⟩

/-- No lock assertion fails. -/
theorem C21_no_abort {n : Nat} {s : Sys} (h : Reach n s) : s.aborted = false := (linv_of_reach h).ok

/-- What was transmitted under an order number is exactly the packet submitted with that number, all samples in
order, although the TX thread may start before the producer has finished. -/
theorem C21_packet_intact {n : Nat} {s : Sys} (h : Reach n s) {e e' : Int} {l : List Nat} (hx : (e, e', l) ∈ s.sent) :
    ∃ p ∈ s.submitted, p.order = e ∧ e' = nextOrder e p.next ∧ l = (List.range p.len).map p.sample :=
  (dinv_of_reach h).sent _ hx

/-- Every packet transmitted is the one announced by the packet before it; the first one has number 0. -/
theorem C21_order {n : Nat} {s : Sys} (h : Reach n s) : Linked 0 s.sent := (dinv_of_reach h).linked

theorem linked_get {l : List (Int × Int × List Nat)} : ∀ {e : Int}, Linked e l → (∀ x ∈ l, x.2.1 = x.1 + 1) →
    ∀ k (hk : k < l.length), l[k].1 = e + k := by
  induction l with
  | nil => intro e _ _ k hk; exact absurd hk (by simp)
  | cons y ys ih =>
    intro e h1 h2 k hk
    cases k with
    | zero => simpa using h1.1
    | succ k =>
      have := ih h1.2 (fun x hx => h2 x (List.mem_cons_of_mem _ hx)) k (by simpa using hk)
      have e1 := h2 y List.mem_cons_self
      have e2 := h1.1
      simp only [List.getElem_cons_succ, this, e1, e2]
      push_cast
      omega

/-- If no packet overwrites the order then the k-th packet transmitted has order number k. -/
theorem C21_in_sequence {n : Nat} {s : Sys} (h : Reach n s) (hn : ∀ p ∈ s.submitted, p.next < 0) (k : Nat)
    (hk : k < s.sent.length) : s.sent[k].1 = k := by
  have := linked_get (dinv_of_reach h).linked (fun x hx => by
    obtain ⟨p, hp, _, h2, _⟩ := (dinv_of_reach h).sent x hx
    rw [h2, nextOrder, if_pos (hn p hp)]) k hk
  simpa using this

/-- While the TX thread sleeps and the packet it is waiting for is in a buffer, some producer is about to announce
a packet and thereby wake the TX thread. If the TX thread has already searched once, it is the producer of
that very packet. -/
theorem C21_no_lost_wakeup {n : Nat} {s : Sys} (h : Reach n s) {ref e : Int} {b : Bool} (hw : s.tx = .wait ref b e)
    (hc : s.cnt = ref) {i : Nat} (hi : i < n) (hl : s.inner i = true) (ho : s.order i = e) :
    (∃ t j, pendAt (s.pc t) = some j) ∧ (b = true → ∃ t, pendAt (s.pc t) = some i) := by
  have hW := winv_of_reach h
  have hC := cinv_of_reach h
  have key : b = true → ∃ t, pendAt (s.pc t) = some i := by
    rintro rfl
    rcases hW.seen ref e (Or.inr hw) i hi hl ho with h1 | h1
    · omega
    · exact h1
  refine ⟨?_, key⟩
  cases b with
  | true => obtain ⟨t, ht⟩ := key rfl; exact ⟨t, i, ht⟩
  | false =>
    have h0 := hW.first ref e (Or.inr hw)
    have hb := hC.bal
    rw [hw, hc, h0] at hb
    have hm : 0 < s.lockedB.length := List.length_pos_of_mem ((hC.lockMem i).2 hl)
    have hp : 0 < s.pending.length := by simp only [owed] at hb; omega
    obtain ⟨t, ht⟩ := List.exists_mem_of_length_pos hp
    obtain ⟨j, hj⟩ := Option.isSome_iff_exists.1 ((hC.pendMem t).1 ht)
    exact ⟨t, j, hj⟩

/-- A TX thread which is not waiting for an outdated value of the counter does not go back to sleep: once the
announcement has been made, the counter differs from the reference value (after a first search). -/
theorem C21_announced_is_found {n : Nat} {s : Sys} (h : Reach n s) {ref e : Int}
    (hw : s.tx = .loop ref true e ∨ s.tx = .wait ref true e) {i : Nat} (hi : i < n) (hl : s.inner i = true)
    (ho : s.order i = e) (hp : ∀ t, pendAt (s.pc t) ≠ some i) : ref < s.cnt := by
  rcases (winv_of_reach h).seen ref e hw i hi hl ho with h1 | ⟨t, h1⟩
  · exact h1
  · exact absurd h1 (hp t)

/-- When no producer is inside `set_transmittable` and the TX thread is not releasing a buffer, the counter is the
number of buffers ready for transmission. -/
theorem C21_counter {n : Nat} {s : Sys} (h : Reach n s) (hp : ∀ t, pendAt (s.pc t) = none) (ht : owed s.tx = 0) :
    ∃ l : List Nat, l.Nodup ∧ (∀ i, i ∈ l ↔ s.inner i = true) ∧ s.cnt = l.length := by
  have hC := cinv_of_reach h
  refine ⟨s.lockedB, hC.lockNodup, hC.lockMem, ?_⟩
  have h0 : s.pending = [] := by
    rw [List.eq_nil_iff_forall_not_mem]
    intro t h1
    have := (hC.pendMem t).1 h1
    rw [hp t] at this
    cases this
  have := hC.bal
  rw [h0, ht] at this
  simpa using this

/-! ## Runs -/

def pktA : Pkt := ⟨0, -1, 2, fun j => 10 + j⟩
def pktB : Pkt := ⟨1, 7, 1, fun j => 20 + j⟩

/-- Producer 0 has locked buffer 0 with packet 0 but not announced it, the TX thread has found and transmitted it. -/
theorem run_first (n : Nat) (hn : 0 < n) : ∃ s, Reach n s ∧ s.tx = .relCnt 0 1 ∧ s.pc 0 = .pend 0 pktA 2 true ∧
    (∀ t, t ≠ 0 → s.pc t = .idle) ∧ s.outer = (fun _ => false) ∧ s.inner = (fun _ => false) ∧ s.cnt = 0 ∧
    s.sent = [(0, 1, [10, 11])] := by
  have h := Reach.init (n := n)
  have h := Reach.step h (.call _ 0 pktA rfl (by decide))
  have h := Reach.step h (.take _ 0 0 pktA rfl hn rfl)
  have h := Reach.step h (.streams _ 0 0 pktA rfl rfl rfl)
  have h := Reach.step h (.write _ 0 0 pktA 0 rfl (by decide))
  have h := Reach.step h (.write _ 0 0 pktA 1 rfl (by decide))
  have h := Reach.step h (.publishAll _ 0 0 pktA rfl)
  have h := Reach.step h (.submit _ 0 0 pktA 2 true rfl rfl rfl)
  have h := Reach.step h (.check _ 0 0 pktA 2 true rfl rfl rfl)
  have h := Reach.step h (.lock _ 0 0 pktA 2 true rfl)
  have h := Reach.step h (.txCall _ 0 rfl)
  have h := Reach.step h (.txFound1 _ 0 0 rfl hn rfl rfl)
  have h := Reach.step h (.txRead _ 0 0 1 [] rfl (by decide) (by decide))
  have h := Reach.step h (.txRead _ 0 0 1 [10] rfl (by decide) (by decide))
  have h := Reach.step h (.txDone _ 0 0 1 [10, 11] rfl rfl (by decide) rfl rfl)
  have h := Reach.step h (.txInner _ 0 1 rfl rfl rfl)
  have h := Reach.step h (.txOuter _ 0 1 rfl rfl rfl)
  refine ⟨_, h, rfl, rfl, ?_, ?_, ?_, rfl, rfl⟩
  · intro t ht
    simp [ht, init]
  · funext i
    simp only [init, Function.update_apply]
    split <;> rfl
  · funext i
    simp only [init, Function.update_apply]
    split <;> rfl

/-- Producer 1 fills and announces packet 1 in buffer 0. -/
theorem run_second {n : Nat} (hn : 0 < n) {s : Sys} (h : Reach n s) (h1 : s.pc 1 = .idle) (ho : s.outer 0 = false)
    (hi : s.inner 0 = false) (hm : hasMutex s.tx = false) : ∃ s', Reach n s' ∧ s'.tx = s.tx ∧ s'.pc 0 = s.pc 0 ∧
    s'.inner 0 = true ∧ s'.order 0 = 1 ∧ s'.next 0 = 7 ∧ s'.cnt = s.cnt + 1 ∧ s'.pc 1 = .idle ∧ (s'.pkt 0) = pktB := by
  have h := Reach.step h (.call _ 1 pktB h1 (by decide))
  have h := Reach.step h (.take _ 1 0 pktB rfl hn ho)
  have h := Reach.step h (.streams _ 1 0 pktB rfl rfl hi)
  have h := Reach.step h (.write _ 1 0 pktB 0 rfl (by decide))
  have h := Reach.step h (.publishAll _ 1 0 pktB rfl)
  have h := Reach.step h (.submit _ 1 0 pktB 1 true rfl rfl hi)
  have h := Reach.step h (.check _ 1 0 pktB 1 true rfl rfl hi)
  have h := Reach.step h (.lock _ 1 0 pktB 1 true rfl)
  have h := Reach.step h (.announce _ 1 0 pktB 1 true rfl hm)
  exact ⟨_, h, rfl, rfl, rfl, rfl, rfl, rfl, rfl, rfl⟩

/-- The hypotheses of the theorems above are met: a packet has been transmitted. -/
theorem C21_example : ∃ s, Reach 2 s ∧ (0, 1, [10, 11]) ∈ s.sent := by
  obtain ⟨s, h, _, _, _, _, _, _, hs⟩ := run_first 2 (by decide)
  exact ⟨s, h, by rw [hs]; exact List.mem_cons_self⟩

/-- Finding: the wake-up of an announced packet can be delayed. Packet 1 is in buffer 0, its producer (thread 1)
has announced it and returned; yet the TX thread, which waits for packet 1, sleeps, because it starts waiting
with the reference value 0 and another producer (thread 0) has not yet incremented the counter for a packet
that was already transmitted. -/
theorem C21_delayed_wakeup : ∃ s, Reach 1 s ∧ s.tx = .wait 0 false 1 ∧ s.cnt = 0 ∧ s.inner 0 = true ∧ s.order 0 = 1 ∧
    s.pc 1 = .idle ∧ s.pc 0 = .pend 0 pktA 2 true := by
  obtain ⟨s, h, ht, h0, hid, ho, hi, hc, _⟩ := run_first 1 (by decide)
  have h := Reach.step h (.txCnt _ 0 1 ht)
  have h := Reach.step h (.txCall _ 1 rfl)
  have h := Reach.step h (.txSkip1 _ 0 1 rfl (by decide) (by simp [hi]))
  obtain ⟨s', h, t1, p0, i0, o0, _, c0, p1, _⟩ := run_second (n := 1) (by decide) h (hid 1 (by decide)) (by rw [ho]) (by rw [hi]) rfl
  have c1 : s'.cnt = 0 := by rw [c0]; show s.cnt - 1 + 1 = 0; omega
  have h := Reach.step h (.txLock _ 1 1 t1 (by decide))
  have h := Reach.step h (.txWait _ 0 false 1 rfl c1)
  exact ⟨_, h, rfl, c1, i0, o0, p1, p0.trans h0⟩

/-- Finding: the simulator reads `tx_order_id_expect_next` from the buffer after it has released it
(hw_simulator.cpp:476-492; the USRP thread reads it before). In this state the TX thread has just released buffer
0 after packet 0, which asked for packet 1 next, but reads the value 7 of the packet of another producer. -/
theorem C21_simulator_reads_released : ∃ s, Reach 1 s ∧ s.tx = .relCnt 0 1 ∧ s.sent = [(0, 1, [10, 11])] ∧ s.next 0 = 7 ∧
    nextOrder 0 (s.next 0) ≠ 1 := by
  obtain ⟨s, h, ht, h0, hid, ho, hi, hc, hs⟩ := run_first 1 (by decide)
  have h := Reach.step h (.call _ 1 pktB (hid 1 (by decide)) (by decide))
  have h := Reach.step h (.take _ 1 0 pktB rfl (by decide) (by rw [ho]))
  have h := Reach.step h (.streams _ 1 0 pktB rfl rfl (by rw [hi]))
  have h := Reach.step h (.write _ 1 0 pktB 0 rfl (by decide))
  have h := Reach.step h (.publishAll _ 1 0 pktB rfl)
  have h := Reach.step h (.submit _ 1 0 pktB 1 true rfl rfl (by rw [hi]))
  exact ⟨_, h, ht, hs, rfl, show nextOrder 0 7 ≠ 1 by decide⟩

end Verif.Radio.BufferTx
