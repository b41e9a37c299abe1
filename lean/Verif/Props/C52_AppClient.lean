import Verif.Model.AppClient
import Mathlib.Algebra.BigOperators.Group.Finset.Piecewise
import Mathlib.Algebra.Order.BigOperators.Group.Finset
import Mathlib.Data.Int.Order.Lemmas

/-!
# C52: the application client forwards every datagram once
-/

namespace Verif.App.Client

/-- Datagrams in all queues. -/
def total (n : Nat) (q : Nat → List (List Nat)) : Int := ∑ i ∈ Finset.range n, ((q i).length : Int)

theorem total_update {n i : Nat} (q : Nat → List (List Nat)) (v : List (List Nat)) (hi : i < n) :
    total n (Function.update q i v) = total n q - (q i).length + v.length := by
  have h : (fun j => ((Function.update q i v j).length : Int)) = Function.update (fun j => ((q j).length : Int)) i (v.length : Int) := by
    funext j
    by_cases hj : j = i
    · subst hj; simp
    · simp [hj]
  simp only [total]
  rw [h, Finset.sum_update_of_mem (Finset.mem_range.2 hi), Finset.sum_eq_sum_sdiff_singleton_add (Finset.mem_range.2 hi) (fun j => ((q j).length : Int))]
  omega

/-- Datagrams accepted but not yet counted. -/
def pending : Prod → Nat
  | .writing c => c
  | .want c => c
  | _ => 0

/-- The consumer holds the mutex. -/
def inside : Cons → Bool
  | .check => true
  | .top => true
  | .scan _ _ => true
  | _ => false

structure Inv (n cap : Nat) (s : Sys) : Prop where
  fifo : ∀ i, s.accepted i = s.forwarded i ++ s.queue i
  count : s.ind + pending s.prod = total n s.queue
  small : ∀ i, (s.queue i).length ≤ cap
  mprod : s.mutex = some .prod ↔ s.prod = .locked
  mcons : s.mutex = some .cons ↔ inside s.cons = true
  woken : s.cons = .asleep false → 0 < s.ind → s.prod = .locked ∨ s.prod = .notify

theorem total_le {n cap : Nat} {q : Nat → List (List Nat)} (h : ∀ i, (q i).length ≤ cap) : total n q ≤ n * cap := by
  have : total n q ≤ ∑ _i ∈ Finset.range n, (cap : Int) := Finset.sum_le_sum (fun i _ => by exact_mod_cast h i)
  simpa using this

theorem total_nonneg {n : Nat} {q : Nat → List (List Nat)} : 0 ≤ total n q :=
  Finset.sum_nonneg (fun _ _ => by omega)

theorem inv_init {n cap : Nat} : Inv n cap init := by
  refine ⟨fun i => rfl, by simp [init, pending, total], fun i => by simp [init], by simp [init], by simp [init, inside], by simp [init]⟩

theorem inv_step {n cap : Nat} (hb : n * cap < 2 ^ 31) {a b : Sys} (h : Inv n cap a) (hs : Step n cap a b) : Inv n cap b := by
  obtain ⟨h1, h2, h3, h4, h5, h6⟩ := h
  have hle := total_le (n := n) h3
  have hnn := total_nonneg (n := n) (q := a.queue)
  have hbi : ((n : Int) * cap) < 2 ^ 31 := by exact_mod_cast hb
  cases hs with
  | packet hp => exact ⟨h1, by simpa [hp, pending] using h2, h3, by simp_all, h5, by simp_all⟩
  | write c i d hp hi hq =>
    refine ⟨?_, ?_, ?_, by simp_all, h5, by simp_all⟩
    · intro j
      by_cases hj : j = i
      · subst hj; simp [h1]
      · simp [hj, h1]
    · simp only [total_update _ _ hi, hp, pending] at h2 ⊢
      simp; omega
    · intro j
      by_cases hj : j = i
      · subst hj; simp; omega
      · simp [hj, h3]
  | full => exact ⟨h1, h2, h3, h4, h5, h6⟩
  | trigger c hp => exact ⟨h1, by simpa [hp, pending] using h2, h3, by simp_all, h5, by simp_all⟩
  | increase c hp hm =>
    refine ⟨h1, ?_, h3, by simp, ?_, by simp⟩
    · simp only [hp, pending] at h2 ⊢; omega
    · simp only [hm] at h5; simp [← h5]
  | unlock hp =>
    refine ⟨h1, by simpa [hp, pending] using h2, h3, by simp, ?_, by simp⟩
    rw [h4.2 hp] at h5; simp [← h5]
  | notify hp =>
    refine ⟨h1, by simpa [hp, pending] using h2, h3, by simp_all, ?_, ?_⟩
    · rw [h5]; cases a.cons <;> simp [wakeUp, inside]
    · intro hc; cases hcc : a.cons <;> simp_all [wakeUp]
  | stop => exact ⟨h1, h2, h3, h4, h5, h6⟩
  | leave hc _ => exact ⟨h1, h2, h3, h4, by rw [h5, hc]; simp [inside], by simp⟩
  | enter hc _ hm => exact ⟨h1, h2, h3, by rw [← h4, hm]; simp, by simp [inside], by simp⟩
  | sleep hc hi =>
    have hm := h5.2 (by rw [hc]; rfl)
    exact ⟨h1, h2, h3, by rw [← h4, hm]; simp, by simp [inside], fun _ h => by simp at h; omega⟩
  | forward hc _ => exact ⟨h1, h2, h3, h4, by rw [h5, hc]; simp [inside], by simp⟩
  | done hc hi =>
    have hm := h5.2 (by rw [hc]; rfl)
    refine ⟨h1, h2, h3, by rw [← h4, hm]; simp, by simp [inside], fun _ h => ?_⟩
    simp only [asU32] at hi
    simp only at h
    exfalso
    have : 0 ≤ (pending a.prod : Int) := by omega
    omega
  | again hc _ => exact ⟨h1, h2, h3, h4, by rw [h5, hc]; simp [inside], by simp⟩
  | take i e d q hc hi hq =>
    refine ⟨?_, ?_, ?_, h4, by rw [h5, hc]; simp [inside], by simp⟩
    · intro j
      by_cases hj : j = i
      · subst hj; simp [h1, hq]
      · simp [hj, h1]
    · rw [total_update _ _ hi, hq]; simp only [List.length_cons]; push_cast; omega
    · intro j
      have := h3 i
      by_cases hj : j = i
      · subst hj; rw [hq] at this; simp at this ⊢; omega
      · simp [hj, h3]
  | skip i e hc hi hq => exact ⟨h1, h2, h3, h4, by rw [h5, hc]; simp [inside], by simp⟩
  | assertFail hc => exact ⟨h1, h2, h3, h4, h5, h6⟩
  | assertOk hc => exact ⟨h1, h2, h3, h4, by rw [h5, hc]; simp [inside], by simp⟩
  | wake w hc hm => exact ⟨h1, h2, h3, by rw [← h4, hm]; simp, by simp [inside], by simp⟩
  | timeout w hc hm => exact ⟨h1, h2, h3, h4, by rw [h5, hc]; simp [inside], by simp⟩

theorem inv_reach {n cap : Nat} (hb : n * cap < 2 ^ 31) {s : Sys} (h : Reach n cap s) : Inv n cap s := by
  induction h with
  | init => exact inv_init
  | step _ _ hs ih => exact inv_step hb ih hs

/-- C52, order: on every connection the datagrams forwarded so far, followed by those in the queue, are exactly the
datagrams accepted: none is lost, repeated or overtaken, in any schedule of the two threads. -/
theorem C52_fifo (n cap : Nat) (hb : n * cap < 2 ^ 31) (s : Sys) (h : Reach n cap s) (i : Nat) :
    s.accepted i = s.forwarded i ++ s.queue i := (inv_reach hb h).fifo i

/-- C52, no lost wake-up: if the client sleeps without a notification to wake up, and no packet is being processed, then
every datagram accepted on any connection has been forwarded. -/
theorem C52_no_lost_wakeup (n cap : Nat) (hb : n * cap < 2 ^ 31) (s : Sys) (h : Reach n cap s)
    (hc : s.cons = .asleep false) (hp : s.prod = .idle) (i : Nat) (hi : i < n) : s.forwarded i = s.accepted i := by
  obtain ⟨h1, h2, -, -, -, h6⟩ := inv_reach hb h
  have hind : s.ind ≤ 0 := by
    by_contra hx
    rcases h6 hc (by omega) with h | h <;> simp [hp] at h
  have h0 : total n s.queue ≤ 0 := by rw [← h2, hp]; simp [pending]; exact hind
  have hz : ((s.queue i).length : Int) ≤ total n s.queue :=
    Finset.single_le_sum (f := fun i => ((s.queue i).length : Int)) (fun _ _ => by omega) (Finset.mem_range.2 hi)
  have : s.queue i = [] := List.length_eq_zero_iff.1 (by omega)
  rw [h1, this, List.append_nil]

/-! ## One connection -/

structure Inv1 (s : Sys) : Prop where
  nonneg : 0 ≤ s.ind
  scan0 : ∀ e, s.cons = .scan 0 e → 0 < s.ind
  scan1 : ∀ i e, s.cons = .scan i e → i = 0 ∨ (i = 1 ∧ e = false)
  noabort : s.aborted = false

theorem inv1_step {cap : Nat} (hb : cap < 2 ^ 31) {a b : Sys} (h : Inv 1 cap a) (g : Inv1 a) (hs : Step 1 cap a b) : Inv1 b := by
  obtain ⟨g1, g2, g3, g4⟩ := g
  obtain ⟨h1, h2, h3, h4, h5, h6⟩ := h
  have ht : total 1 a.queue = (a.queue 0).length := by simp [total]
  have hle := h3 0
  cases hs with
  | packet hp => exact ⟨g1, g2, g3, g4⟩
  | write c i d hp hi hq => exact ⟨g1, g2, g3, g4⟩
  | full => exact ⟨g1, g2, g3, g4⟩
  | trigger c hp => exact ⟨g1, g2, g3, g4⟩
  | increase c hp hm => exact ⟨by dsimp only; omega, fun e he => by have := g2 e he; dsimp only; omega, g3, g4⟩
  | unlock hp => exact ⟨g1, g2, g3, g4⟩
  | notify hp =>
    refine ⟨g1, fun e he => ?_, fun i e he => ?_, g4⟩ <;> cases hcc : a.cons <;> simp_all [wakeUp]
  | stop => exact ⟨g1, g2, g3, g4⟩
  | leave hc _ => exact ⟨g1, by simp, by simp, g4⟩
  | enter hc _ hm => exact ⟨g1, by simp, by simp, g4⟩
  | sleep hc hi => exact ⟨g1, by simp, by simp, g4⟩
  | forward hc _ => exact ⟨g1, by simp, by simp, g4⟩
  | done hc hi => exact ⟨g1, by simp, by simp, g4⟩
  | again hc hi =>
    refine ⟨g1, fun e he => ?_, fun i e he => by simp at he; left; omega, g4⟩
    simp only [asU32] at hi
    rcases Int.lt_or_eq_of_le g1 with h | h
    · exact h
    · rw [← h] at hi; simp at hi
  | take i e d q hc hi hq =>
    have hi0 : i = 0 := by omega
    subst hi0
    refine ⟨?_, fun e he => by simp at he, fun i e he => ?_, g4⟩
    · have := g2 e hc; dsimp only; omega
    · simp at he; right; exact ⟨by omega, he.2⟩
  | skip i e hc hi hq =>
    have hi0 : i = 0 := by omega
    subst hi0
    have := g2 e hc
    rw [hq] at ht
    simp at ht
    omega
  | assertFail hc => rcases g3 _ _ hc with h | h <;> simp at h
  | assertOk hc => exact ⟨g1, by simp, by simp, g4⟩
  | wake w hc hm => exact ⟨g1, by simp, by simp, g4⟩
  | timeout w hc hm => exact ⟨g1, by simp, by simp, g4⟩

theorem inv1_reach {cap : Nat} (hb : cap < 2 ^ 31) {s : Sys} (h : Reach 1 cap s) : Inv1 s := by
  induction h with
  | init => exact ⟨by simp [init], by simp [init], by simp [init], rfl⟩
  | step hr _ hs ih => exact inv1_step hb (inv_reach (by omega) hr) ih hs

/-- C52, one connection (the virtual network interface): the client never aborts. -/
theorem C52_never_aborts (cap : Nat) (hb : cap < 2 ^ 31) (s : Sys) (h : Reach 1 cap s) : s.aborted = false :=
  (inv1_reach hb h).noabort

/-- Steps that the client still needs until it releases the mutex. -/
def stepsLeft (s : Sys) : Int :=
  match s.cons with
  | .check => 3 * s.ind + 2
  | .top => 3 * s.ind + 1
  | .scan 0 _ => 3 * s.ind
  | .scan _ _ => 3 * s.ind + 2
  | _ => 0

/-- C52, one connection, progress: while the client holds the mutex, each of its steps brings it closer to releasing it,
and steps of the other thread do not matter. -/
theorem C52_progress (cap : Nat) (hb : cap < 2 ^ 31) (a b : Sys) (h : Reach 1 cap a) (hs : Step 1 cap a b)
    (ha : inside a.cons = true) (hbi : inside b.cons = true) :
    0 ≤ stepsLeft b ∧ (stepsLeft b = stepsLeft a - 1 ∨ (b.cons = a.cons ∧ stepsLeft b = stepsLeft a)) := by
  have hinv := inv_reach (n := 1) (by omega) h
  obtain ⟨g1, g2, g3, g4⟩ := inv1_reach hb h
  have k := inv1_step hb hinv ⟨g1, g2, g3, g4⟩ hs
  have hm := hinv.mcons.2 ha
  have hnn : 0 ≤ stepsLeft b := by
    have := k.nonneg
    unfold stepsLeft; split <;> omega
  refine ⟨hnn, ?_⟩
  cases hs with
  | packet hp => right; exact ⟨rfl, rfl⟩
  | write c i d hp hi hq => right; exact ⟨rfl, rfl⟩
  | full => right; exact ⟨rfl, rfl⟩
  | trigger c hp => right; exact ⟨rfl, rfl⟩
  | increase c hp hm' => rw [hm] at hm'; simp at hm'
  | unlock hp => right; exact ⟨rfl, rfl⟩
  | notify hp => right; cases hc : a.cons <;> simp_all [wakeUp, stepsLeft, inside]
  | stop => right; exact ⟨rfl, rfl⟩
  | leave hc _ => simp [inside] at hbi
  | enter hc _ hm' => rw [hm] at hm'; simp at hm'
  | sleep hc hi => simp [inside] at hbi
  | forward hc _ => left; simp [stepsLeft, hc]; omega
  | done hc hi => simp [inside] at hbi
  | again hc hi => left; simp [stepsLeft, hc]
  | take i e d q hc hi hq =>
    have hi0 : i = 0 := by omega
    subst hi0
    left; simp only [stepsLeft, hc]; omega
  | skip i e hc hi hq =>
    have hi0 : i = 0 := by omega
    subst hi0
    have h0 := g2 e hc
    have h1 := hinv.count
    simp [total, hq] at h1
    omega
  | assertFail hc => right; exact ⟨rfl, rfl⟩
  | assertOk hc => left; simp [stepsLeft, hc]; omega
  | wake w hc hm' => rw [hm] at hm'; simp at hm'
  | timeout w hc hm' => simp [inside] at hbi

/-! ## Stopping -/

inductive Steps (n cap : Nat) : Sys → Sys → Prop
  | refl (s) : Steps n cap s s
  | step {a b d} : Steps n cap a b → b.aborted = false → Step n cap b d → Steps n cap a d

/-- C52, stopping, any number of connections: it is possible at any time and changes nothing else; it is never undone; and a client which
waits for datagrams or is about to look for them, with the mutex free, then ends without forwarding anything more. -/
theorem C52_stop (n cap : Nat) (s : Sys) :
    (∃ s', Step n cap s s' ∧ s' = { s with running := false }) ∧
    (∀ s', s.running = false → Steps n cap s s' → s'.running = false ∧ (s.cons = .stopped → s'.cons = .stopped)) ∧
    (s.running = false → s.aborted = false → s.mutex = none → s.cons = .start ∨ (∃ w, s.cons = .asleep w) →
      Steps n cap s { s with cons := .stopped }) := by
  refine ⟨⟨_, .stop s, rfl⟩, ?_, ?_⟩
  · intro s' hr hs
    induction hs with
    | refl => exact ⟨hr, id⟩
    | step _ _ st ih =>
      obtain ⟨i1, i2⟩ := ih
      constructor
      · cases st <;> first | exact i1 | rfl
      · intro hc
        have := i2 hc
        cases st <;> simp_all [wakeUp]
  · intro hr ha hm hc
    rcases hc with hc | ⟨w, hc⟩
    · exact .step (.refl _) ha (.leave s hc hr)
    · exact .step (.step (.refl _) ha (.timeout s w hc hm)) ha (.leave _ rfl hr)

/-! ## Several connections -/

theorem skip_all {n cap : Nat} (e : Bool) : ∀ (k i : Nat) (s : Sys), i + k = n → Reach n cap s → s.aborted = false →
    s.cons = .scan i e → (∀ j, i ≤ j → s.queue j = []) → Reach n cap { s with cons := .scan n e } := by
  intro k
  induction k with
  | zero =>
    intro i s hk hr _ hc _
    have : i = n := by omega
    subst this
    rw [← hc]; exact hr
  | succ k ih =>
    intro i s hk hr ha hc hq
    exact ih (i + 1) { s with cons := .scan (i + 1) e } (by omega)
      (.step hr ha (.skip s i e hc (by omega) (hq i (Nat.le_refl _)))) ha rfl (fun j hj => hq j (by omega))

/-- Finding: with two or more connections, a datagram accepted on another connection while the client forwards is
forwarded before it is counted. The counter becomes negative, is read as a large unsigned number, and the client aborts
(with assertions disabled it loops holding the mutex). -/
theorem C52_finding_aborts (n cap : Nat) (hn : 2 ≤ n) (hcap : 1 ≤ cap) (d0 d1 : List Nat) :
    ∃ s, Reach n cap s ∧ s.aborted = true ∧ s.accepted 0 = [d0] ∧ s.accepted 1 = [d1] := by
  have r0 : Reach n cap init := .init
  have r1 := Reach.step r0 rfl (.packet _ rfl)
  have r2 := Reach.step r1 rfl (.write _ 0 0 d0 rfl (by omega) (by simp [init]; omega))
  have r3 := Reach.step r2 rfl (.trigger _ 1 rfl)
  have r4 := Reach.step r3 rfl (.increase _ 1 rfl rfl)
  have r5 := Reach.step r4 rfl (.unlock _ rfl)
  have r6 := Reach.step r5 rfl (.notify _ rfl)
  have r7 := Reach.step r6 rfl (.enter _ rfl rfl rfl)
  have r8 := Reach.step r7 rfl (.forward _ rfl (by simp [init, asU32]))
  have r9 := Reach.step r8 rfl (.again _ rfl (by simp [init, asU32]))
  have r10 := Reach.step r9 rfl (.take _ 0 true d0 [] rfl (by omega) (by simp [init]))
  have r11 := Reach.step r10 rfl (.packet _ rfl)
  have r12 := Reach.step r11 rfl (.write _ 0 1 d1 rfl (by omega) (by simp [init]; omega))
  have r13 := Reach.step r12 rfl (.take _ 1 false d1 [] rfl (by omega) (by simp [init]))
  have r14 := skip_all false (n - 2) 2 _ (by omega) r13 rfl rfl (by
    intro j hj
    have h0 : j ≠ 0 := by omega
    have h1 : j ≠ 1 := by omega
    simp [init, h0, h1])
  have r15 := Reach.step r14 rfl (.assertOk _ rfl)
  have r16 := Reach.step r15 rfl (.again _ rfl (by simp [init, asU32]))
  have r17 := skip_all true n 0 _ (by omega) r16 rfl rfl (by
    intro j _
    by_cases h1 : j = 1
    · subst h1; simp [init]
    · by_cases h0 : j = 0
      · subst h0; simp [init]
      · simp [init, h0, h1])
  have r18 := Reach.step r17 rfl (.assertFail _ rfl)
  exact ⟨_, r18, rfl, by simp [init], by simp [init]⟩

/-! ## A case -/

/-- One connection: a datagram is accepted, counted and forwarded; the client sleeps again. -/
theorem C52_example : ∃ s, Reach 1 4 s ∧ s.cons = .asleep false ∧ s.prod = .idle ∧ s.forwarded 0 = [[7, 8]] ∧ s.queue 0 = [] := by
  have r0 : Reach 1 4 init := .init
  have r1 := Reach.step r0 rfl (.enter _ rfl rfl rfl)
  have r2 := Reach.step r1 rfl (.sleep _ rfl (by decide))
  have r3 := Reach.step r2 rfl (.packet _ rfl)
  have r4 := Reach.step r3 rfl (.write _ 0 0 [7, 8] rfl (by omega) (by simp [init]))
  have r5 := Reach.step r4 rfl (.trigger _ 1 rfl)
  have r6 := Reach.step r5 rfl (.increase _ 1 rfl rfl)
  have r7 := Reach.step r6 rfl (.unlock _ rfl)
  have r8 := Reach.step r7 rfl (.notify _ rfl)
  have r9 := Reach.step r8 rfl (.wake _ true rfl rfl)
  have r10 := Reach.step r9 rfl (.forward _ rfl (by decide))
  have r11 := Reach.step r10 rfl (.again _ rfl (by decide))
  have r12 := Reach.step r11 rfl (.take _ 0 true [7, 8] [] rfl (by omega) (by simp [init]))
  have r13 := Reach.step r12 rfl (.assertOk _ rfl)
  have r14 := Reach.step r13 rfl (.done _ rfl (by decide))
  exact ⟨_, r14, rfl, rfl, by simp [init], by simp [init]⟩

end Verif.App.Client
