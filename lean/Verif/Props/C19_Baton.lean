import Verif.Model.Baton
import Mathlib.Data.List.Perm.Subperm
import Mathlib.Data.List.Range
import Mathlib.Tactic.Ring
import Mathlib.Tactic.Linarith

set_option linter.unusedSimpArgs false

/-!
# C19: the synchronization baton rotates and the start time is agreed upon
-/

namespace Verif.Phy.Baton
open Verif.Adt

/-! ## Registration -/

structure RegInv (n : Nat) (v : Nat → Int) (s : RegSys) : Prop where
  cnt : s.cnt = s.registered.length
  nodup : s.registered.Nodup
  lt : ∀ t ∈ s.registered, t < n
  mem : ∀ t, s.pc t ≠ .start ↔ t ∈ s.registered
  ge : ∀ t ∈ s.registered, v t ≤ s.now
  some : s.registered ≠ [] → (∀ u, u < n → undefinedEarly < v u) → ∃ t ∈ s.registered, v t = s.now
  early : s.registered = [] → s.now = undefinedEarly
  done : ∀ t x r, s.pc t = .done x r → x = s.now ∧ s.cnt = n
  one : ∀ t t' x x', s.pc t = .done x true → s.pc t' = .done x' true → t = t'
  last : ∀ t x, s.pc t = .done x true → s.cnt = n

theorem all_registered {n : Nat} {l : List Nat} (h1 : l.Nodup) (h2 : ∀ t ∈ l, t < n) (h3 : l.length = n) :
    ∀ t, t < n → t ∈ l := by
  have hsub : l ⊆ List.range n := fun t ht => by simpa using h2 t ht
  have hp : l.Perm (List.range n) := (h1.subperm hsub).perm_of_length_le (by simp [h3])
  intro t ht
  exact hp.mem_iff.2 (by simpa using ht)

theorem registerNow_ge (a b : Int) : a ≤ registerNow a b ∧ b ≤ registerNow a b := by
  unfold registerNow; split <;> omega

theorem registerNow_or (a b : Int) : (registerNow a b = a ∧ b ≤ a) ∨ registerNow a b = b := by
  unfold registerNow; split
  · exact Or.inr rfl
  · exact Or.inl ⟨rfl, by omega⟩

theorem reg_register {n : Nat} {v : Nat → Int} {s : RegSys} (h : RegInv n v s) {t : Nat} (ht : t < n)
    (hs : s.pc t = .start) {x : RegPc} (hx : x ≠ .start)
    (hdone : ∀ y r, x = .done y r → y = registerNow s.now (v t) ∧ s.cnt + 1 = n)
    (hnd : s.cnt < n) :
    RegInv n v { s with
      cnt := s.cnt + 1, now := registerNow s.now (v t), pc := Function.update s.pc t x,
      registered := s.registered ++ [t] } := by
  have hnm : t ∉ s.registered := fun hm => (h.mem t).2 hm hs
  have hold : ∀ t' y r, s.pc t' ≠ .done y r := by
    intro t' y r e
    have := (h.done t' y r e).2
    omega
  refine ⟨?_, ?_, ?_, ?_, ?_, ?_, ?_, ?_, ?_, ?_⟩
  · simp [h.cnt]
  · rw [List.nodup_append]
    refine ⟨h.nodup, by simp, ?_⟩
    intro a ha b hb
    simp only [List.mem_singleton] at hb
    rintro rfl
    exact hnm (hb ▸ ha)
  · intro u hu
    rw [List.mem_append, List.mem_singleton] at hu
    rcases hu with hu | rfl
    · exact h.lt u hu
    · exact ht
  · intro u
    rw [List.mem_append, List.mem_singleton, ← h.mem]
    show Function.update s.pc t x u ≠ .start ↔ _
    rw [Function.update_apply]
    split
    · rename_i e; simp [e, hx]
    · rename_i e; simp [e]
  · intro u hu
    rw [List.mem_append, List.mem_singleton] at hu
    show v u ≤ registerNow s.now (v t)
    have := registerNow_ge s.now (v t)
    rcases hu with hu | rfl
    · have := h.ge u hu; omega
    · exact this.2
  · intro _ hv
    rcases registerNow_or s.now (v t) with ⟨e, hle⟩ | e
    · by_cases hr : s.registered = []
      · have := h.early hr
        have := hv t ht
        omega
      · obtain ⟨u, hu, e'⟩ := h.some hr hv
        exact ⟨u, List.mem_append_left _ hu, by show v u = registerNow s.now (v t); omega⟩
    · exact ⟨t, by simp, e.symm⟩
  · intro e; simp at e
  · intro t' y r e
    change Function.update s.pc t x t' = _ at e
    rw [Function.update_apply] at e
    split at e
    · exact hdone y r e
    · exact absurd e (hold t' y r)
  · intro t1 t2 y y' e1 e2
    change Function.update s.pc t x t1 = _ at e1
    change Function.update s.pc t x t2 = _ at e2
    rw [Function.update_apply] at e1 e2
    split at e1
    · split at e2
      · rename_i a b; rw [a, b]
      · exact absurd e2 (hold t2 _ _)
    · exact absurd e1 (hold t1 _ _)
  · intro t' y e
    change Function.update s.pc t x t' = _ at e
    rw [Function.update_apply] at e
    split at e
    · exact (hdone y true e).2
    · exact absurd e (hold t' _ _)

theorem reg_inv {n : Nat} {v : Nat → Int} {s : RegSys} (h : RegReach n v s) : RegInv n v s := by
  induction h with
  | init =>
    exact ⟨rfl, by simp [regInit], by simp [regInit], by simp [regInit], by simp [regInit], by simp [regInit],
      fun _ => rfl, by simp [regInit], by simp [regInit], by simp [regInit]⟩
  | step _ hs ih =>
    cases hs with
    | register t ht hp hc => exact reg_register ih ht hp (by simp) (by simp) (by omega)
    | registerLast t ht hp hc =>
      refine reg_register ih ht hp (by simp) ?_ (by omega)
      intro y r e
      simp only [RegPc.done.injEq] at e
      exact ⟨e.1.symm, hc⟩
    | tokenBusy t ht hp hc => exact ⟨ih.cnt, ih.nodup, ih.lt, ih.mem, ih.ge, ih.some, ih.early, ih.done, ih.one, ih.last⟩
    | tooMany t ht hp hc => exact ⟨ih.cnt, ih.nodup, ih.lt, ih.mem, ih.ge, ih.some, ih.early, ih.done, ih.one, ih.last⟩
    | wake t hp hc =>
      rename_i a _
      refine ⟨ih.cnt, ih.nodup, ih.lt, ?_, ih.ge, ih.some, ih.early, ?_, ?_, ?_⟩
      · intro u
        show Function.update a.pc t _ u ≠ _ ↔ _
        rw [Function.update_apply]
        split
        · rename_i e
          subst e
          have := (ih.mem u).1 (by rw [hp]; simp)
          simp [this]
        · exact ih.mem u
      · intro u y r e
        change Function.update a.pc t _ u = _ at e
        rw [Function.update_apply] at e
        split at e
        · simp only [RegPc.done.injEq] at e
          exact ⟨e.1.symm, hc⟩
        · exact ih.done u y r e
      · intro t1 t2 y y' e1 e2
        change Function.update a.pc t _ t1 = _ at e1
        change Function.update a.pc t _ t2 = _ at e2
        rw [Function.update_apply] at e1 e2
        split at e1
        · simp at e1
        · split at e2
          · simp at e2
          · exact ih.one t1 t2 y y' e1 e2
      · intro u y e
        change Function.update a.pc t _ u = _ at e
        rw [Function.update_apply] at e
        split at e
        · simp at e
        · exact ih.last u y e

/-- C19: whatever the order of registration, every thread returns the same time: the largest of all
suggestions. -/
theorem C19_start_time (n : Nat) (v : Nat → Int) (s : RegSys) (h : RegReach n v s) (t : Nat) (x : Int) (r : Bool)
    (ht : s.pc t = .done x r) (hv : ∀ u < n, -2 ^ 63 / 8 < v u) :
    (∀ u < n, v u ≤ x) ∧ ∃ u < n, v u = x := by
  have hi := reg_inv h
  obtain ⟨rfl, hc⟩ := hi.done t x r ht
  have hall := all_registered hi.nodup hi.lt (by rw [← hi.cnt]; exact hc)
  refine ⟨fun u hu => hi.ge u (hall u hu), ?_⟩
  have hne : s.registered ≠ [] := by
    intro e
    have := (hi.mem t).1 (by rw [ht]; simp)
    rw [e] at this; simp at this
  obtain ⟨u, hu, e⟩ := hi.some hne (fun u hu => hv u hu)
  exact ⟨u, hi.lt u hu, e⟩

/-- C19: exactly one thread gets the report of `work_start`; so it is queued once. -/
theorem C19_report_once (n : Nat) (v : Nat → Int) (s : RegSys) (h : RegReach n v s) (t t' : Nat) (x x' : Int)
    (h1 : s.pc t = .done x true) (h2 : s.pc t' = .done x' true) : t = t' :=
  (reg_inv h).one t t' x x' h1 h2

/-- C19: no thread returns before all have registered. -/
theorem C19_waits_for_all (n : Nat) (v : Nat → Int) (s : RegSys) (h : RegReach n v s) (t u : Nat) (x : Int) (r : Bool)
    (ht : s.pc t = .done x r) (hu : u < n) : s.pc u ≠ .start := by
  have hi := reg_inv h
  have hall := all_registered hi.nodup hi.lt (by rw [← hi.cnt]; exact (hi.done t x r ht).2)
  exact (hi.mem u).2 (hall u hu)

/-- The program aborts during registration only if somebody else holds the token when the last thread
registers; in particular there are never too many registrations. -/
theorem C19_registration_bounded (n : Nat) (v : Nat → Int) (s : RegSys) (h : RegReach n v s) (t : Nat) (ht : t < n)
    (hp : s.pc t = .start) : s.cnt + 1 ≤ n := by
  have hi := reg_inv h
  by_cases hc : s.cnt + 1 ≤ n
  · exact hc
  · have hsub : s.registered ⊆ List.range n := fun t ht => by simpa using hi.lt t ht
    have hlen := (hi.nodup.subperm hsub).length_le
    simp only [List.length_range] at hlen
    have := all_registered hi.nodup hi.lt (by have := hi.cnt; omega) t ht
    exact absurd hp ((hi.mem t).2 this)

/-- Finding: the token may be held by a worker of another pool at that moment; then the program aborts. -/
theorem C19_token_busy_aborts : ∃ s, RegReach 2 (fun t => t) s ∧ s.aborted = true :=
  ⟨_, .step (.step .init (.register _ 0 (by decide) rfl (by decide))) (.tokenBusy _ 1 (by decide) rfl rfl), rfl⟩

/-! ## Rotation -/

/-- The thread has the baton. -/
def hasBaton : Pc → Bool
  | .hold | .closing | .pass => true
  | _ => false

/-- Start of the `i`-th chunk. -/
def chunkAt (c : Cfg) (i : Nat) : Int := c.start + (i : Int) * c.len

/-- The threads start at the same time, which is aligned to all their chunks. -/
structure Aligned (c : Cfg) : Prop where
  n : 1 ≤ c.n
  len : 1 ≤ c.len
  start : 0 ≤ c.start
  dvd : ((c.n : Int) * c.len) ∣ c.start
  limit : 0 ≤ c.limit

theorem firstChunk_eq {c : Cfg} (h : Aligned c) {t : Nat} (ht : t < c.n) : c.firstChunk t = chunkAt c t := by
  have h1 : c.start.tmod ((c.n : Int) * c.len) = 0 := Int.tmod_eq_zero_of_dvd h.dvd
  have h2 : 0 ≤ (t : Int) * c.len := Int.mul_nonneg (by omega) (by have := h.len; omega)
  have := h.len
  unfold Cfg.firstChunk chunkAt
  simp only [h1]
  rw [if_neg (by omega)]
  omega

/-- **C19** The first chunk of a thread, for any start time: it is one of the thread's chunks, it does not end before
the start, and it is the first such chunk (the one before starts a stride earlier and ends at or before the start). -/
theorem C19_first_chunk (c : Cfg) (t : Nat) (hn : 1 ≤ c.n) (hl : 1 ≤ c.len) (hs : 0 ≤ c.start) (ht : t < c.n) :
    ((c.n : Int) * c.len) ∣ (c.firstChunk t - t * c.len) ∧ c.start < c.firstChunk t + c.len ∧
      c.firstChunk t - (c.n : Int) * c.len + c.len ≤ c.start := by
  have hS : 1 ≤ (c.n : Int) * c.len := by nlinarith
  have h1 : c.start.tmod ((c.n : Int) * c.len) = c.start % ((c.n : Int) * c.len) := Int.tmod_eq_emod_of_nonneg hs
  have h2 := Int.emod_nonneg c.start (show (c.n : Int) * c.len ≠ 0 by omega)
  have h3 := Int.emod_lt_of_pos c.start (show 0 < (c.n : Int) * c.len by omega)
  have h4 : (t : Int) * c.len + c.len ≤ (c.n : Int) * c.len := by nlinarith
  have h5 : 0 ≤ (t : Int) * c.len := by positivity
  have h6 : ((c.n : Int) * c.len) ∣ (c.start - c.start % ((c.n : Int) * c.len)) := Int.dvd_self_sub_emod
  unfold Cfg.firstChunk
  simp only [h1]
  generalize hr : c.start % ((c.n : Int) * c.len) = r at *
  generalize (c.n : Int) * c.len = S at *
  generalize (t : Int) * c.len = T at *
  split
  · refine ⟨?_, by omega, by omega⟩
    have : c.start - r + T + S - T = (c.start - r) + S := by ring
    rw [this]
    exact Int.dvd_add h6 (Int.dvd_refl S)
  · refine ⟨?_, by omega, by omega⟩
    have : c.start - r + T - T = c.start - r := by ring
    rw [this]
    exact h6

example : (⟨2, 25, 10, 1, 0⟩ : Cfg).firstChunk 0 = 20 ∧ (⟨2, 30, 10, 1, 0⟩ : Cfg).firstChunk 0 = 40 := by decide

theorem chunkStart_eq {c : Cfg} (h : Aligned c) {t : Nat} (ht : t < c.n) (k : Nat) :
    c.chunkStart t k = chunkAt c (k * c.n + t) := by
  unfold Cfg.chunkStart
  rw [firstChunk_eq h ht]
  unfold chunkAt
  push_cast
  ring

structure Inv (c : Cfg) (s : Sys) : Prop where
  lt : ∀ t, s.pc t ≠ .search → t < c.n
  has : ∀ t, hasBaton (s.pc t) = true → s.holder = t
  holder : s.holder = s.passes.length % c.n
  order : s.passes = (List.range s.passes.length).map (· % c.n)
  lo : ∀ t, t < c.n → s.passes.length ≤ s.done t * c.n + t
  hi : ∀ t, t < c.n → s.done t * c.n + t < s.passes.length + c.n
  endOpen : (∀ t, s.pc t ≠ .closing ∧ s.pc t ≠ .pass) →
    s.chunkEnd = if s.passes.length = 0 then int64Max else chunkAt c s.passes.length - 1
  endClosed : ∀ t, s.pc t = .closing ∨ s.pc t = .pass → s.chunkEnd = chunkAt c (s.passes.length + 1) - 1
  acc : s.accepted.Pairwise (fun a b => a + c.limit < b)
  last : ∀ a ∈ s.accepted, a ≤ s.syncLast
  lastMem : s.accepted = [] ∧ s.syncLast = undefinedEarly ∨ s.syncLast ∈ s.accepted
  regLen : s.regCnt = if c.period = 0 then 0 else s.regular.length % c.period
  reg : ∀ i (h : i < s.regular.length), s.regular[i] = decide (c.period ≠ 0 ∧ (i + 1) % c.period = 0)
  ok : s.aborted = false

theorem mul_window {n a b P : Nat} (ht : a = b % n) (x : Nat) (h1 : b ≤ x * n + a) (h2 : x * n + a < b + n) (hP : P = b) :
    x * n + a = P := by
  subst hP
  have hd := Nat.div_add_mod P n
  have hn : 0 < n := by omega
  have hr : P % n < n := Nat.mod_lt _ hn
  rw [← ht] at hd hr
  -- both are congruent to `a` and less than `n` apart
  have : x = P / n := by
    have e1 : P / n * n + a = P := by rw [Nat.mul_comm]; exact hd
    rcases Nat.lt_trichotomy x (P / n) with h | h | h
    · have : (x + 1) * n ≤ P / n * n := Nat.mul_le_mul_right _ h
      rw [Nat.add_mul] at this; omega
    · exact h
    · have : (P / n + 1) * n ≤ x * n := Nat.mul_le_mul_right _ h
      rw [Nat.add_mul] at this; omega
  rw [this, Nat.mul_comm]; exact hd

/-- The thread with the baton is at the chunk that is next. -/
theorem Inv.current {c : Cfg} {s : Sys} (h : Inv c s) (ha : Aligned c) {t : Nat} (ht : hasBaton (s.pc t) = true) :
    t < c.n ∧ s.done t * c.n + t = s.passes.length := by
  have h1 := h.has t ht
  have h2 := h.holder
  rw [h1] at h2
  have hn := ha.n
  have ht' : t < c.n := by rw [h2]; exact Nat.mod_lt _ (by omega)
  exact ⟨ht', mul_window h2 _ (h.lo t ht') (h.hi t ht') rfl⟩

theorem regular_step {period : Nat} {l : List Bool} {cnt : Nat} (h1 : cnt = if period = 0 then 0 else l.length % period)
    (h2 : ∀ i (h : i < l.length), l[i] = decide (period ≠ 0 ∧ (i + 1) % period = 0)) :
    ((regularDue period cnt).1 = if period = 0 then 0 else (l ++ [(regularDue period cnt).2]).length % period) ∧
    ∀ i (h : i < (l ++ [(regularDue period cnt).2]).length),
      (l ++ [(regularDue period cnt).2])[i] = decide (period ≠ 0 ∧ (i + 1) % period = 0) := by
  have key : (regularDue period cnt).1 = (if period = 0 then 0 else (l.length + 1) % period) ∧
      (regularDue period cnt).2 = decide (period ≠ 0 ∧ (l.length + 1) % period = 0) := by
    unfold regularDue
    by_cases hp : period = 0
    · simp [hp, h1]
    · simp only [hp, if_false] at h1 ⊢
      have hlt := Nat.mod_lt l.length (Nat.pos_of_ne_zero hp)
      by_cases hc : cnt + 1 = period
      · have : (l.length + 1) % period = 0 := by
          rw [Nat.add_mod, ← h1]
          by_cases h1p : period = 1
          · subst h1p; simp [Nat.mod_one]
          · rw [Nat.mod_eq_of_lt (a := 1) (by omega), hc, Nat.mod_self]
        simp [hc, this, hp]
      · have : (l.length + 1) % period = cnt + 1 := by
          rw [Nat.add_mod, ← h1]
          have : period ≠ 1 := by omega
          rw [Nat.mod_eq_of_lt (a := 1) (by omega), Nat.mod_eq_of_lt (by omega)]
        simp [hc, this, hp]
  refine ⟨by simpa using key.1, ?_⟩
  intro i hi
  simp only [List.length_append, List.length_singleton] at hi
  by_cases hl : i < l.length
  · rw [List.getElem_append_left hl]; exact h2 i hl
  · have : i = l.length := by omega
    subst this
    simp [key.2]

/-- A thread moves between two positions, neither of which is `closing` or `pass`. -/
theorem inv_move {c : Cfg} {s : Sys} (h : Inv c s) {t : Nat} {x : Pc} (hl : t < c.n)
    (h1 : s.pc t ≠ .closing ∧ s.pc t ≠ .pass) (h2 : x ≠ .closing ∧ x ≠ .pass)
    (hb : hasBaton x = true → s.holder = t) : Inv c { s with pc := Function.update s.pc t x } := by
  refine ⟨?_, ?_, h.holder, h.order, h.lo, h.hi, ?_, ?_, h.acc, h.last, h.lastMem, h.regLen, h.reg, h.ok⟩
  · intro u hu
    change Function.update s.pc t x u ≠ _ at hu
    rw [Function.update_apply] at hu
    split at hu
    · rename_i e; rw [e]; exact hl
    · exact h.lt u hu
  · intro u hu
    change hasBaton (Function.update s.pc t x u) = _ at hu
    rw [Function.update_apply] at hu
    split at hu
    · rename_i e; rw [e]; exact hb hu
    · exact h.has u hu
  · intro hall
    apply h.endOpen
    intro u
    have := hall u
    change Function.update s.pc t x u ≠ _ ∧ Function.update s.pc t x u ≠ _ at this
    rw [Function.update_apply] at this
    split at this
    · rename_i e; rw [e]; exact h1
    · exact this
  · intro u hu
    change Function.update s.pc t x u = _ ∨ Function.update s.pc t x u = _ at hu
    rw [Function.update_apply] at hu
    split at hu
    · rcases hu with hu | hu
      · exact absurd hu h2.1
      · exact absurd hu h2.2
    · exact h.endClosed u hu

theorem Inv.noClosing {c : Cfg} {s : Sys} (h : Inv c s) {t : Nat} (ht : s.pc t = .hold) (u : Nat) :
    s.pc u ≠ .closing ∧ s.pc u ≠ .pass := by
  have h1 := h.has t (by rw [ht]; rfl)
  constructor <;> intro e <;>
  · have h2 := h.has u (by rw [e]; rfl)
    have : u = t := by omega
    rw [this, ht] at e
    simp at e

/-- The check of the chunk times never fails. -/
theorem Inv.contiguous {c : Cfg} {s : Sys} (h : Inv c s) (ha : Aligned c) {t : Nat} (ht : s.pc t = .hold) :
    ¬ (s.chunkEnd < int64Max ∧ c.chunkStart t (s.done t) - s.chunkEnd ≠ 1) := by
  obtain ⟨hl, hk⟩ := h.current ha (t := t) (by rw [ht]; rfl)
  rw [h.endOpen (h.noClosing ht), chunkStart_eq ha hl, hk]
  split
  · omega
  · omega

theorem inv_step {c : Cfg} (ha : Aligned c) {s s' : Sys} (h : Inv c s) (hs : Step c s s') : Inv c s' := by
  cases hs with
  | searched t ht hp => exact inv_move h ht (by simp [hp]) (by simp) (by simp [hasBaton])
  | got t hp hh => exact inv_move h (h.lt t (by simp [hp])) (by simp [hp]) (by simp) (fun _ => hh)
  | accept t cand hp hu =>
    have hu' : c.limit < cand - s.syncLast ∧ (syncTimeUnique c.limit s.syncLast cand).1 = cand := by
      unfold syncTimeUnique at hu ⊢
      split <;> simp_all
    have hge : ∀ a ∈ s.accepted, a + c.limit < cand := by
      intro a hm
      have := h.last a hm
      omega
    refine ⟨h.lt, h.has, h.holder, h.order, h.lo, h.hi, h.endOpen, h.endClosed, ?_, ?_, Or.inr ?_, h.regLen, h.reg, h.ok⟩
    · rw [List.pairwise_append]
      refine ⟨h.acc, by simp, ?_⟩
      intro a hm b hb
      simp only [List.mem_singleton] at hb
      rw [hb]; exact hge a hm
    · intro a hm
      show a ≤ (syncTimeUnique c.limit s.syncLast cand).1
      rw [hu'.2]
      rw [List.mem_append, List.mem_singleton] at hm
      rcases hm with hm | rfl
      · have := hge a hm; have := ha.limit; omega
      · exact le_refl _
    · show (syncTimeUnique c.limit s.syncLast cand).1 ∈ _
      rw [hu'.2]; simp
  | reject t cand hp hu =>
    have hu' : (syncTimeUnique c.limit s.syncLast cand).1 = s.syncLast := by
      unfold syncTimeUnique at hu ⊢
      split <;> simp_all
    rw [hu']
    exact h
  | close t hp hc =>
    obtain ⟨hl, hk⟩ := h.current ha (t := t) (by rw [hp]; rfl)
    have hh := h.has t (by rw [hp]; rfl)
    obtain ⟨hr1, hr2⟩ := regular_step h.regLen h.reg
    refine ⟨?_, ?_, h.holder, h.order, h.lo, h.hi, ?_, ?_, h.acc, h.last, h.lastMem, hr1, hr2, h.ok⟩
    · intro u hu
      change Function.update s.pc t .closing u ≠ _ at hu
      rw [Function.update_apply] at hu
      split at hu
      · rename_i e; rw [e]; exact hl
      · exact h.lt u hu
    · intro u hu
      change hasBaton (Function.update s.pc t .closing u) = _ at hu
      rw [Function.update_apply] at hu
      split at hu
      · rename_i e; rw [e]; exact hh
      · exact h.has u hu
    · intro hall
      have := (hall t).1
      change Function.update s.pc t .closing t ≠ _ at this
      rw [Function.update_self] at this
      exact absurd rfl this
    · intro u _
      show c.chunkEnd t (s.done t) = _
      unfold Cfg.chunkEnd
      rw [chunkStart_eq ha hl, hk]
      unfold chunkAt
      push_cast
      ring
  | closeFail t hp hc => exact absurd hc (h.contiguous ha hp)
  | check t hp hh =>
    have hl := h.lt t (by simp [hp])
    refine ⟨?_, ?_, h.holder, h.order, h.lo, h.hi, ?_, ?_, h.acc, h.last, h.lastMem, h.regLen, h.reg, h.ok⟩
    · intro u hu
      change Function.update s.pc t .pass u ≠ _ at hu
      rw [Function.update_apply] at hu
      split at hu
      · rename_i e; rw [e]; exact hl
      · exact h.lt u hu
    · intro u hu
      change hasBaton (Function.update s.pc t .pass u) = _ at hu
      rw [Function.update_apply] at hu
      split at hu
      · rename_i e; rw [e]; exact hh
      · exact h.has u hu
    · intro hall
      have := (hall t).2
      change Function.update s.pc t .pass t ≠ _ at this
      rw [Function.update_self] at this
      exact absurd rfl this
    · intro u _
      exact h.endClosed t (Or.inl hp)
  | checkFail t hp hc => exact absurd (h.has t (by rw [hp]; rfl)) hc
  | pass t hp =>
    obtain ⟨hl, hk⟩ := h.current ha (t := t) (by rw [hp]; rfl)
    have hh := h.has t (by rw [hp]; rfl)
    have hend := h.endClosed t (Or.inr hp)
    have hother : ∀ u, u ≠ t → hasBaton (s.pc u) ≠ true := by
      intro u hu e
      exact hu (by have := h.has u e; omega)
    have hlen : (s.passes ++ [t]).length = s.passes.length + 1 := by simp
    have htm : t = s.passes.length % c.n := by rw [← hh]; exact h.holder
    refine ⟨?_, ?_, ?_, ?_, ?_, ?_, ?_, ?_, h.acc, h.last, h.lastMem, h.regLen, h.reg, h.ok⟩
    · intro u hu
      change Function.update s.pc t .search u ≠ _ at hu
      rw [Function.update_apply] at hu
      split at hu
      · exact absurd rfl hu
      · exact h.lt u hu
    · intro u hu
      change hasBaton (Function.update s.pc t .search u) = _ at hu
      rw [Function.update_apply] at hu
      split at hu
      · simp [hasBaton] at hu
      · rename_i e; exact absurd hu (hother u e)
    · show (s.holder + 1) % c.n = _
      rw [hlen, h.holder]
      exact Nat.mod_add_mod _ _ _
    · show s.passes ++ [t] = _
      rw [hlen, List.range_succ, List.map_append, ← h.order]
      simp [← htm]
    · intro u hu
      show (s.passes ++ [t]).length ≤ Function.update s.done t (s.done t + 1) u * c.n + u
      rw [hlen, Function.update_apply]
      split
      · rename_i e
        subst e
        rw [Nat.add_mul]; omega
      · rename_i e
        have h1 := h.lo u hu
        have : s.done u * c.n + u ≠ s.passes.length := by
          intro e'
          apply e
          rw [htm, ← e', Nat.mul_add_mod_self_right, Nat.mod_eq_of_lt hu]
        omega
    · intro u hu
      show Function.update s.done t (s.done t + 1) u * c.n + u < (s.passes ++ [t]).length + c.n
      rw [hlen, Function.update_apply]
      split
      · rename_i e
        subst e
        rw [Nat.add_mul]; omega
      · have := h.hi u hu; omega
    · intro _
      show s.chunkEnd = _
      rw [hlen, hend, if_neg (by omega)]
    · intro u hu
      change Function.update s.pc t .search u = _ ∨ Function.update s.pc t .search u = _ at hu
      rw [Function.update_apply] at hu
      split at hu
      · simp at hu
      · rename_i e
        have := hother u e
        rcases hu with hu | hu <;> simp [hu, hasBaton] at this

theorem inv {c : Cfg} (ha : Aligned c) {s : Sys} (h : Reach c s) : Inv c s := by
  induction h with
  | init =>
    refine ⟨by simp [init], by simp [init, hasBaton], by simp [init], by simp [init], by simp [init], ?_, ?_, by simp [init],
      by simp [init], by simp [init], Or.inl ⟨rfl, rfl⟩, by simp [init], by simp [init], rfl⟩
    · intro t ht; simp [init]; exact ht
    · intro _; simp [init]
  | step _ hs ih => exact inv_step ha ih hs

/-- C19: at most one synchronization thread has the baton. -/
theorem C19_exclusive (c : Cfg) (hn : 1 ≤ c.n) (hl : 1 ≤ c.len) (h0 : 0 ≤ c.start) (hd : ((c.n : Int) * c.len) ∣ c.start)
    (hlim : 0 ≤ c.limit) (s : Sys) (h : Reach c s) (t u : Nat)
    (ht : s.pc t = .hold ∨ s.pc t = .closing ∨ s.pc t = .pass)
    (hu : s.pc u = .hold ∨ s.pc u = .closing ∨ s.pc u = .pass) : t = u := by
  have hi := inv ⟨hn, hl, h0, hd, hlim⟩ h
  have h1 := hi.has t (by rcases ht with e | e | e <;> rw [e] <;> rfl)
  have h2 := hi.has u (by rcases hu with e | e | e <;> rw [e] <;> rfl)
  omega

/-- C19: the `i`-th thread to have had the baton is thread `i mod n`. -/
theorem C19_rotation (c : Cfg) (hn : 1 ≤ c.n) (hl : 1 ≤ c.len) (h0 : 0 ≤ c.start) (hd : ((c.n : Int) * c.len) ∣ c.start)
    (hlim : 0 ≤ c.limit) (s : Sys) (h : Reach c s) (i : Nat) (hi : i < s.passes.length) : s.passes[i] = i % c.n := by
  have hinv := inv ⟨hn, hl, h0, hd, hlim⟩ h
  have := hinv.order
  rw [List.getElem_of_eq this hi]
  simp

/-- C19: chunks are handed over in time order: the thread with the baton is at the chunk which follows the
last one handed over, no chunk is left out and none is done twice. -/
theorem C19_chunks_in_order (c : Cfg) (hn : 1 ≤ c.n) (hl : 1 ≤ c.len) (h0 : 0 ≤ c.start)
    (hd : ((c.n : Int) * c.len) ∣ c.start) (hlim : 0 ≤ c.limit) (s : Sys) (h : Reach c s) (t : Nat)
    (ht : s.pc t = .hold ∨ s.pc t = .closing ∨ s.pc t = .pass) :
    c.chunkStart t (s.done t) = c.start + (s.passes.length : Int) * c.len ∧
    c.chunkEnd t (s.done t) = c.start + ((s.passes.length : Int) + 1) * c.len - 1 := by
  have ha : Aligned c := ⟨hn, hl, h0, hd, hlim⟩
  obtain ⟨h1, h2⟩ := (inv ha h).current ha (t := t) (by rcases ht with e | e | e <;> rw [e] <;> rfl)
  have e : c.chunkStart t (s.done t) = c.start + (s.passes.length : Int) * c.len := by
    rw [chunkStart_eq ha h1, h2, chunkAt]
  refine ⟨e, ?_⟩
  rw [Cfg.chunkEnd, e]; ring

/-- C19: neither the check of the holder in `pass_on` nor the check of the chunk times ever fails. -/
theorem C19_no_abort (c : Cfg) (hn : 1 ≤ c.n) (hl : 1 ≤ c.len) (h0 : 0 ≤ c.start) (hd : ((c.n : Int) * c.len) ∣ c.start)
    (hlim : 0 ≤ c.limit) (s : Sys) (h : Reach c s) : s.aborted = false :=
  (inv ⟨hn, hl, h0, hd, hlim⟩ h).ok

/-- C19: sync times are reported in increasing order and more than the limit apart, whichever threads found
them. -/
theorem C19_sync_times (c : Cfg) (hn : 1 ≤ c.n) (hl : 1 ≤ c.len) (h0 : 0 ≤ c.start) (hd : ((c.n : Int) * c.len) ∣ c.start)
    (hlim : 0 ≤ c.limit) (s : Sys) (h : Reach c s) : s.accepted.Pairwise (fun a b => a + c.limit < b) :=
  (inv ⟨hn, hl, h0, hd, hlim⟩ h).acc

/-- C19: a packet is dropped only as a double: there is one reported not more than the limit before it. -/
theorem C19_dropped_only_doubles (c : Cfg) (hn : 1 ≤ c.n) (hl : 1 ≤ c.len) (h0 : 0 ≤ c.start)
    (hd : ((c.n : Int) * c.len) ∣ c.start) (hlim : 0 ≤ c.limit) (hlim2 : c.limit < 2 ^ 60) (s : Sys) (h : Reach c s)
    (cand : Int) (hc : 0 ≤ cand) (hr : (syncTimeUnique c.limit s.syncLast cand).2 = false) :
    ∃ a ∈ s.accepted, cand ≤ a + c.limit := by
  have hi := inv ⟨hn, hl, h0, hd, hlim⟩ h
  have hle : cand - s.syncLast ≤ c.limit := by
    unfold syncTimeUnique at hr
    split at hr
    · simp at hr
    · omega
  rcases hi.lastMem with ⟨_, e⟩ | e
  · rw [e, undefinedEarly] at hle
    omega
  · exact ⟨_, e, by omega⟩

/-- C19: a regular job is due after every `period`-th chunk, counted over all threads; never if the period is
zero. -/
theorem C19_regular (c : Cfg) (hn : 1 ≤ c.n) (hl : 1 ≤ c.len) (h0 : 0 ≤ c.start) (hd : ((c.n : Int) * c.len) ∣ c.start)
    (hlim : 0 ≤ c.limit) (s : Sys) (h : Reach c s) (i : Nat) (hi : i < s.regular.length) :
    s.regular[i] = true ↔ c.period ≠ 0 ∧ c.period ∣ i + 1 := by
  rw [(inv ⟨hn, hl, h0, hd, hlim⟩ h).reg i hi, decide_eq_true_iff, Nat.dvd_iff_mod_eq_zero]

/-- Steps in a row. -/
inductive Steps (c : Cfg) : Sys → Sys → Prop
  | refl (s) : Steps c s s
  | step {a b d} : Step c a b → Steps c b d → Steps c a d

theorem Steps.reach {c : Cfg} {a b : Sys} (h : Steps c a b) (ha : Reach c a) : Reach c b := by
  induction h with
  | refl => exact ha
  | step hs _ ih => exact ih (.step ha hs)

theorem go_pass {c : Cfg} {s : Sys} {t : Nat} (hp : s.pc t = .pass) :
    ∃ s', Steps c s s' ∧ s'.passes = s.passes ++ [t] :=
  ⟨_, .step (.pass s t hp) (.refl _), rfl⟩

theorem go_closing {c : Cfg} {s : Sys} {t : Nat} (hp : s.pc t = .closing) (hh : s.holder = t) :
    ∃ s', Steps c s s' ∧ s'.passes = s.passes ++ [t] := by
  obtain ⟨s', h1, h2⟩ := go_pass (c := c) (s := { s with pc := Function.update s.pc t .pass }) (t := t) (by simp)
  exact ⟨s', .step (.check s t hp hh) h1, h2⟩

theorem go_hold {c : Cfg} (ha : Aligned c) {s : Sys} (h : Reach c s) {t : Nat} (hp : s.pc t = .hold) (hh : s.holder = t) :
    ∃ s', Steps c s s' ∧ s'.passes = s.passes ++ [t] := by
  have st := Step.close (c := c) s t hp ((inv ha h).contiguous ha hp)
  generalize hs : ({ s with
        pc := Function.update s.pc t .closing
        chunkEnd := c.chunkEnd t (s.done t)
        regCnt := (regularDue c.period s.regCnt).1
        regular := s.regular ++ [(regularDue c.period s.regCnt).2] } : Sys) = s1 at st
  obtain ⟨s', h1, h2⟩ := go_closing (c := c) (s := s1) (t := t) (by rw [← hs]; simp) (by rw [← hs]; exact hh)
  refine ⟨s', .step st h1, ?_⟩
  rw [h2, ← hs]

theorem go_wait {c : Cfg} (ha : Aligned c) {s : Sys} (h : Reach c s) {t : Nat} (hp : s.pc t = .wait) (hh : s.holder = t) :
    ∃ s', Steps c s s' ∧ s'.passes = s.passes ++ [t] := by
  have st := Step.got (c := c) s t hp hh
  obtain ⟨s', h1, h2⟩ := go_hold ha (.step h st) (t := t) (by simp) hh
  exact ⟨s', .step st h1, h2⟩

/-- C19: the baton is never lost: from every state it can be handed over again, by the thread whose turn it is
alone. -/
theorem C19_never_lost (c : Cfg) (hn : 1 ≤ c.n) (hl : 1 ≤ c.len) (h0 : 0 ≤ c.start) (hd : ((c.n : Int) * c.len) ∣ c.start)
    (hlim : 0 ≤ c.limit) (s : Sys) (h : Reach c s) :
    ∃ s', Steps c s s' ∧ s'.passes = s.passes ++ [s.passes.length % c.n] := by
  have ha : Aligned c := ⟨hn, hl, h0, hd, hlim⟩
  have hi := inv ha h
  rw [← hi.holder]
  have hlt : s.holder < c.n := by rw [hi.holder]; exact Nat.mod_lt _ (by omega)
  cases hp : s.pc s.holder with
  | pass => exact go_pass hp
  | closing => exact go_closing hp rfl
  | hold => exact go_hold ha h hp rfl
  | wait => exact go_wait ha h hp rfl
  | search =>
    have st := Step.searched (c := c) s s.holder hlt hp
    obtain ⟨s', h1, h2⟩ := go_wait ha (.step h st) (t := s.holder) (by simp) rfl
    exact ⟨s', .step st h1, h2⟩

/-- A case: three threads, chunks of 100 samples, start time 600; a run in which thread 0 and thread 1 have
handed over and thread 1 reported a packet. -/
example : ∃ s, Reach ⟨3, 600, 100, 10, 2⟩ s ∧ s.passes = [0, 1] ∧ s.holder = 2 ∧ s.chunkEnd = 799 ∧ s.accepted = [750] ∧
    s.regular = [false, true] := by
  refine ⟨_, .step (.step (.step (.step (.step (.step (.step (.step (.step (.step (.step .init
    (.searched _ 0 (by decide) rfl)) (.got _ 0 rfl rfl)) (.close _ 0 rfl (by decide))) (.check _ 0 rfl rfl)) (.pass _ 0 rfl))
    (.searched _ 1 (by decide) rfl)) (.got _ 1 rfl rfl)) (.accept _ 1 750 rfl (by decide))) (.close _ 1 rfl (by decide)))
    (.check _ 1 rfl rfl)) (.pass _ 1 rfl), ?_⟩
  decide

/-- A case: three threads register with different times. -/
example : ∃ s, RegReach 3 (fun t => [50, 90, 70].getD t 0) s ∧ s.pc 0 = .done 90 false ∧ s.pc 2 = .done 90 true := by
  refine ⟨_, .step (.step (.step (.step .init (.register _ 1 (by decide) rfl (by decide))) (.register _ 0 (by decide) rfl
    (by decide))) (.registerLast _ 2 (by decide) rfl (by decide))) (.wake _ 0 rfl rfl), ?_⟩
  decide

end Verif.Phy.Baton
