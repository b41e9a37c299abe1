import Verif.Model.JobQueue
import Mathlib.Data.List.Basic

set_option linter.unusedSimpArgs false

/-!
# C16: the job queue delivers jobs FIFO and exactly once with gapless numbering
-/

namespace Verif.Phy

/-- Contents numbered from zero. -/
def numbered {α : Type} (l : List α) : List (Job α) := l.mapIdx fun i c => ⟨c, i⟩

theorem numbered_snoc {α : Type} (l : List α) (c : α) : numbered (l ++ [c]) = numbered l ++ [⟨c, l.length⟩] := by
  simp [numbered, List.mapIdx_append]

theorem mod_two {a n : Nat} (h : a < 2 * n) : a % n = if a < n then a else a - n := by
  split
  · exact Nat.mod_eq_of_lt (by assumption)
  · rw [Nat.mod_eq_sub_mod (by omega), Nat.mod_eq_of_lt (by omega)]

/-- The ring holds the jobs `l`. -/
structure RingHolds {α : Type} (q : NaiveQ α) (l : List (Job α)) : Prop where
  e : q.enq < q.cap
  d : q.deq < q.cap
  pos : (q.deq + l.length) % q.cap = q.enq
  len : l.length < q.cap
  cnt : q.cnt = l.length
  mem : ∀ i (h : i < l.length), q.slots ((q.deq + i) % q.cap) = some l[i]

theorem RingHolds.used {α : Type} {q : NaiveQ α} {l : List (Job α)} (h : RingHolds q l) : q.used = l.length := by
  have h1 := h.e; have h2 := h.d; have h3 := h.pos; have h4 := h.len
  rw [mod_two (by omega)] at h3
  unfold NaiveQ.used
  split at h3 <;> split <;> omega

theorem RingHolds.free {α : Type} {q : NaiveQ α} {l : List (Job α)} (h : RingHolds q l) :
    q.free = q.cap - 1 - l.length := by
  have h1 := h.e; have h2 := h.d; have h3 := h.pos; have h4 := h.len
  rw [mod_two (by omega)] at h3
  unfold NaiveQ.free
  split at h3 <;> split <;> omega

theorem RingHolds.enqueue {α : Type} {q q' : NaiveQ α} {l : List (Job α)} (h : RingHolds q l) {c : α}
    (he : q.enqueue c = .ok q') : RingHolds q' (l ++ [⟨c, q.fifoCnt⟩]) ∧ q'.fifoCnt = q.fifoCnt + 1 ∧ q'.cap = q.cap := by
  unfold NaiveQ.enqueue at he
  split at he
  · exact absurd he (by simp)
  · rename_i hf
    simp only [Res.ok.injEq] at he
    subst he
    rw [h.free] at hf
    have h1 := h.e; have h2 := h.d; have h3 := h.pos; have h4 := h.len
    refine ⟨⟨Nat.mod_lt _ (by omega), h2, ?_, ?_, ?_, ?_⟩, rfl, rfl⟩
    · show (q.deq + (l ++ [_]).length) % q.cap = (q.enq + 1) % q.cap
      rw [← h3, Nat.mod_add_mod]; simp [Nat.add_assoc]
    · show (l ++ [_]).length < q.cap
      simp; omega
    · show q.cnt + 1 = _
      rw [h.cnt]; simp
    · intro i hi
      simp only [List.length_append, List.length_singleton] at hi
      show Function.update q.slots q.enq _ ((q.deq + i) % q.cap) = _
      by_cases hl : i < l.length
      · rw [Function.update_of_ne, h.mem i hl, List.getElem_append_left hl]
        rw [← h3, mod_two (by omega), mod_two (by omega)]
        split <;> split <;> omega
      · have : i = l.length := by omega
        subst this
        rw [h3, Function.update_self]; simp

theorem RingHolds.dequeue {α : Type} {q q' : NaiveQ α} {l : List (Job α)} (h : RingHolds q l) {j : Option (Job α)}
    (he : q.dequeue = (q', true, j)) : ∃ x l', l = x :: l' ∧ j = some x ∧ RingHolds q' l' ∧
      q'.fifoCnt = q.fifoCnt ∧ q'.cap = q.cap := by
  unfold NaiveQ.dequeue at he
  split at he
  · simp at he
  · rename_i hu
    rw [h.used] at hu
    cases l with
    | nil => simp at hu
    | cons x l =>
      simp only [Prod.mk.injEq, true_and] at he
      obtain ⟨rfl, rfl⟩ := he
      have h1 := h.e; have h2 := h.d; have h3 := h.pos; have h4 := h.len
      simp only [List.length_cons] at h3 h4
      refine ⟨x, l, rfl, ?_, ⟨h1, Nat.mod_lt _ (by omega), ?_, by show l.length < q.cap; omega, ?_, ?_⟩, rfl, rfl⟩
      · have := h.mem 0 (by simp)
        rw [Nat.add_zero, Nat.mod_eq_of_lt h2] at this
        simpa using this
      · show ((q.deq + 1) % q.cap + l.length) % q.cap = q.enq
        rw [Nat.mod_add_mod, ← h3]; congr 1; omega
      · show q.cnt - 1 = _
        rw [h.cnt]; simp
      · intro i hi
        have := h.mem (i + 1) (by simpa using hi)
        show q.slots (((q.deq + 1) % q.cap + i) % q.cap) = _
        rw [Nat.mod_add_mod, show q.deq + 1 + i = q.deq + (i + 1) by omega, this]; simp

/-- What is true in every reachable state of the naive queue. -/
def NaiveInv {α : Type} (cap : Nat) (s : NaiveSys α) : Prop :=
  ∃ l, RingHolds s.q l ∧ (numbered s.accepted).map some = s.delivered ++ l.map some ∧
    s.q.fifoCnt = s.accepted.length ∧ s.q.cap = cap

theorem naive_inv {α : Type} {cap : Nat} {s : NaiveSys α} (hc : 1 ≤ cap) (h : NaiveReach cap s) : NaiveInv cap s := by
  induction h with
  | init =>
    exact ⟨[], ⟨by show 0 < cap; omega, by show 0 < cap; omega, by show (0 + 0) % cap = 0; simp,
      by show 0 < cap; omega, rfl, by simp⟩, rfl, rfl, rfl⟩
  | step _ hs ih =>
    obtain ⟨l, h1, h2, h3, h4⟩ := ih
    cases hs with
    | setPermeable b => exact ⟨l, h1, h2, h3, h4⟩
    | refuse => exact ⟨l, h1, h2, h3, h4⟩
    | check c => exact ⟨l, h1, h2, h3, h4⟩
    | enqueue a b c q' hp he =>
      obtain ⟨e1, e2, e3⟩ := h1.enqueue he
      refine ⟨_, e1, ?_, ?_, by rw [← h4]; exact e3⟩
      · rw [numbered_snoc, h3]
        simp only [List.map_append, List.map_cons, List.map_nil]
        rw [h2, List.append_assoc]
      · show q'.fifoCnt = _
        rw [e2, h3]; simp
    | dequeue q' j hn hd =>
      obtain ⟨x, l', rfl, rfl, e1, e2, e3⟩ := h1.dequeue hd
      exact ⟨l', e1, by rw [h2]; simp, by rw [← h3]; exact e2, by rw [← h4]; exact e3⟩

/-- C16 for `job_queue_naive_t`: in every interleaving of producers and consumers, the jobs delivered
are the first jobs enqueued, in order, each once, numbered 0, 1, 2, ... without gap. -/
theorem C16_naive_fifo {α : Type} (cap : Nat) (s : NaiveSys α) (hc : 1 ≤ cap) (h : NaiveReach cap s) :
    s.delivered = ((numbered s.accepted).take s.delivered.length).map some := by
  obtain ⟨l, -, h2, -⟩ := naive_inv hc h
  rw [List.map_take, h2]
  simp

/-- C16 for `job_queue_naive_t`: a consumer gets a job exactly if one is enqueued and not delivered; in
particular `wait_for_new_job_to` never spins with the mutex held (a non-zero counter without a job). -/
theorem C16_naive_available {α : Type} (cap : Nat) (s : NaiveSys α) (hc : 1 ≤ cap) (h : NaiveReach cap s) :
    (s.q.cnt ≠ 0 ↔ s.delivered.length < s.accepted.length) ∧
    (s.q.cnt ≠ 0 → s.q.dequeue.2.1 = true) := by
  obtain ⟨l, h1, h2, -⟩ := naive_inv hc h
  have h3 := congrArg List.length h2
  simp only [numbered, List.length_map, List.length_mapIdx, List.length_append] at h3
  have h4 := h1.cnt
  refine ⟨by omega, fun h5 => ?_⟩
  have h6 := h1.used
  unfold NaiveQ.dequeue
  rw [if_neg (by omega)]

/-- C16 for `job_queue_naive_t`: enqueueing aborts exactly if `cap - 1` jobs are waiting. -/
theorem C16_naive_capacity {α : Type} (cap : Nat) (s : NaiveSys α) (c : α) (hc : 1 ≤ cap) (h : NaiveReach cap s) :
    s.accepted.length - s.delivered.length ≤ cap - 1 ∧
    (s.q.enqueue c = .abort ↔ s.accepted.length - s.delivered.length = cap - 1) := by
  obtain ⟨l, h1, h2, -, h4⟩ := naive_inv hc h
  have h3 := congrArg List.length h2
  simp only [numbered, List.length_map, List.length_mapIdx, List.length_append] at h3
  have h5 := h1.free
  have h6 := h1.len
  unfold NaiveQ.enqueue
  rw [h4] at h5 h6
  refine ⟨by omega, ?_⟩
  split
  · simp; omega
  · simp; omega

/-- C16: while the queue is impermeable nothing enters except jobs whose producers saw it permeable. -/
theorem C16_naive_impermeable {α : Type} (s s' : NaiveSys α) (hs : NaiveStep s s') (hp : s.permeable = false)
    (hq : s.pending = []) : s'.accepted = s.accepted ∧ s'.pending = [] := by
  cases hs with
  | setPermeable b => exact ⟨rfl, hq⟩
  | refuse => exact ⟨rfl, hq⟩
  | check c h => rw [hp] at h; exact absurd h (by simp)
  | enqueue a b c q' h => rw [hq] at h; exact absurd h (by simp)
  | dequeue => exact ⟨rfl, hq⟩

/-- C16 for `job_queue_mc_t`, the one in use: as above, given that the concurrent queue is FIFO for one
producer token. -/
theorem C16_mc_fifo {α : Type} (s : McSys α) (h : McReach s) :
    s.delivered = (numbered s.accepted).take s.delivered.length ∧
    (s.q ≠ [] ↔ s.delivered.length < s.accepted.length) := by
  have inv : numbered s.accepted = s.delivered ++ s.q ∧ s.fifoCnt = s.accepted.length := by
    induction h with
    | init => exact ⟨rfl, rfl⟩
    | step _ hs ih =>
      obtain ⟨h1, h2⟩ := ih
      cases hs with
      | setPermeable b => exact ⟨h1, h2⟩
      | refuse => exact ⟨h1, h2⟩
      | check c => exact ⟨h1, h2⟩
      | enqueue a b c hp => exact ⟨by rw [numbered_snoc, h1, h2]; simp, by rw [h2]; simp⟩
      | dequeue j q' hq => exact ⟨by rw [h1, hq]; simp, h2⟩
  refine ⟨by rw [inv.1]; simp, ?_⟩
  have h3 := congrArg List.length inv.1
  simp only [numbered, List.length_mapIdx, List.length_append] at h3
  rw [← List.length_pos_iff]
  omega

/-- The number of each delivered job is its position in the history. -/
theorem C16_gapless {α : Type} (s : McSys α) (h : McReach s) (i : Nat) (hi : i < s.delivered.length) :
    s.delivered[i].fifo = i ∧ s.accepted[i]? = some s.delivered[i].content := by
  have h1 := (C16_mc_fifo s h).1
  have h2 : s.delivered[i]? = (numbered s.accepted)[i]? := by
    rw [h1]
    simp [List.getElem?_take, hi]
  rw [List.getElem?_eq_getElem hi] at h2
  simp only [numbered, List.getElem?_mapIdx] at h2
  cases h3 : s.accepted[i]? with
  | none => rw [h3] at h2; simp at h2
  | some c =>
    rw [h3] at h2
    simp only [Option.map_some, Option.some.injEq] at h2
    rw [h2]
    exact ⟨rfl, rfl⟩

/-- Two producers, one of them overtaking, and a delivery. -/
example : ∃ s : NaiveSys Char, NaiveReach 3 s ∧ s.accepted = ['b', 'a'] ∧ s.delivered = [some ⟨'b', 0⟩] := by
  refine ⟨_, .step (.step (.step (.step (.step (.step .init (.setPermeable _ true)) (.check _ 'a' rfl)) (.check _ 'b' rfl))
    (.enqueue _ [] ['a'] 'b' _ rfl rfl)) (.enqueue _ [] [] 'a' _ rfl rfl)) (.dequeue _ _ _ (by decide) rfl), rfl, rfl⟩

end Verif.Phy
