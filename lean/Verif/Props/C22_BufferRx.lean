import Verif.Model.BufferRx
import Mathlib.Data.Nat.ModEq
import Mathlib.Tactic.Linarith

/-!
# C22: The RX ring buffer holds the latest samples at their time index
-/

namespace Verif.Radio.BufferRx

variable {α : Type}

theorem mod_inj {L t u : Nat} (h : t % L = u % L) (h1 : t < u + L) (h2 : u < t + L) : t = u := by
  have e1 := Nat.mod_add_div t L
  have e2 := Nat.mod_add_div u L
  have : t / L = u / L := by
    rcases Nat.lt_trichotomy (t / L) (u / L) with h3 | h3 | h3
    · have : L * (t / L) + L ≤ L * (u / L) := by rw [← Nat.mul_succ]; exact Nat.mul_le_mul_left _ h3
      omega
    · exact h3
    · have : L * (u / L) + L ≤ L * (t / L) := by rw [← Nat.mul_succ]; exact Nat.mul_le_mul_left _ h3
      omega
  rw [this, h] at e1
  omega

/-- Index of time `t + j` -/
theorem idx_add {L t j : Nat} (hj : j < L) : (t + j) % L = if t % L + j < L then t % L + j else t % L + j - L := by
  by_cases hL : L = 0
  · omega
  have h := Nat.mod_lt t (Nat.pos_of_ne_zero hL)
  rw [Nat.add_mod, Nat.mod_eq_of_lt hj]
  split
  · rename_i h1; exact Nat.mod_eq_of_lt h1
  · rw [Nat.mod_eq_sub_mod (by omega)]; exact Nat.mod_eq_of_lt (by omega)

/-- Samples of the times from `a` to before `b` are at their index. -/
def Win (c : Par) (s : Sys α) (a b : Nat) : Prop := ∀ t, s.base ≤ t → a ≤ t + c.L → t < b → s.mem (t % c.L) = s.hist t

/-- Memory -/
structure MInv (c : Par) (s : Sys α) : Prop where
  ptr : s.ptr < c.L
  wr : ∀ j, s.phase = .writing j → s.ptr = s.cnt % c.L ∧ j ≤ c.K ∧ s.base ≤ s.cnt ∧ Win c s (s.cnt + j) s.cnt ∧
    ∀ k < j, s.mem (s.ptr + k) = s.hist (s.cnt + k)
  wp : ∀ n w i, s.phase = .wrapping n w i → n ≤ c.K ∧ i ≤ w ∧ w = s.cnt % c.L + n - c.L ∧
    (s.base ≤ s.cnt ∨ s.base = s.cnt + n) ∧ Win c s (s.cnt + n) s.cnt ∧
    (s.base ≤ s.cnt → ∀ k < n, s.mem (s.cnt % c.L + k) = s.hist (s.cnt + k)) ∧ ∀ k < i, s.mem k = s.mem (c.L + k)
  pb : s.phase = .publishing ∨ s.phase = .notifying → s.ptr = s.cnt % c.L ∧ s.base ≤ s.cnt ∧ Win c s s.cnt s.cnt

/-- Published time -/
structure TInv (c : Par) (s : Sys α) : Prop where
  pre : 0 ≤ s.pre → s.passed = 0
  wr : ∀ j, s.phase = .writing j → s.passed = s.cnt ∨ s.passed = 0
  wp : ∀ n w i, s.phase = .wrapping n w i → n ≤ c.K ∧ (s.base = s.cnt + n ∨ s.passed = s.cnt ∨ s.passed = 0)
  pb : s.phase = .publishing → s.cnt = s.base ∨ s.passed = 0 ∨ (s.passed ≤ s.cnt ∧ s.cnt ≤ s.passed + c.K)
  nt : s.phase = .notifying → s.passed = s.cnt
  le : s.back = false → s.passed ≤ s.cnt

theorem wrapPhase_eq (c : Par) (st n : Nat) : wrapPhase c st n = .wrapping n (st % c.L + n - c.L) 0 := by
  unfold wrapPhase
  split
  · rfl
  · have : st % c.L + n - c.L = 0 := by omega
    rw [this]

theorem minv_init {c : Par} (hc : c.Ok) (z : α) : MInv c (init c z) := by
  obtain ⟨h1, h2⟩ := hc
  constructor
  · show 0 < c.L; omega
  · rintro j ⟨⟩
    exact ⟨(Nat.zero_mod _).symm, Nat.zero_le _, Nat.le_refl _, fun _ _ _ _ => rfl, fun _ _ => rfl⟩
  · rintro n w i ⟨⟩
  · rintro (h | h) <;> cases h

theorem minv_step {c : Par} (hc : c.Ok) {s s' : Sys α} (h : MInv c s) (hs : Step c s s') : MInv c s' := by
  obtain ⟨h0, h8⟩ := hc
  have hL : 0 < c.L := by omega
  cases hs with
  | write j v hp hj =>
    obtain ⟨e1, e2, e3, e4, e5⟩ := h.wr j hp
    have hm := Nat.mod_lt s.cnt hL
    refine ⟨h.ptr, ?_, ?_, ?_⟩
    · rintro j' ⟨⟩
      refine ⟨e1, hj, e3, ?_, ?_⟩
      · intro t ht1 ht2 ht3
        have hne : t % c.L ≠ s.ptr + j := by
          intro he
          have hlt := Nat.mod_lt t hL
          have h1 : (s.cnt + j) % c.L = s.cnt % c.L + j := by
            rw [idx_add (by omega), if_pos (by omega)]
          have h2 : t % c.L = (s.cnt + j) % c.L := by omega
          simp only at ht2 ht3
          have := mod_inj h2 (by omega) (by omega)
          omega
        simp only at ht1 ht2 ht3
        show Function.update s.mem (s.ptr + j) v (t % c.L) = Function.update s.hist (s.cnt + j) v t
        rw [Function.update_of_ne hne, Function.update_of_ne (by omega)]
        exact e4 t ht1 (by omega) ht3
      · intro k hk
        show Function.update s.mem (s.ptr + j) v (s.ptr + k) = Function.update s.hist (s.cnt + j) v (s.cnt + k)
        by_cases hkj : k = j
        · rw [hkj, Function.update_self, Function.update_self]
        · rw [Function.update_of_ne (by omega), Function.update_of_ne (by omega)]
          exact e5 k (by omega)
    · rintro n w i ⟨⟩
    · rintro (h | h) <;> cases h
  | call n t0 hp ht =>
    obtain ⟨e1, e2, e3, e4, e5⟩ := h.wr n hp
    refine ⟨h.ptr, ?_, ?_, ?_⟩
    · intro j hj; simp only [wrapPhase_eq] at hj; cases hj
    · intro n' w i hw
      simp only [wrapPhase_eq] at hw
      cases hw
      exact ⟨e2, Nat.zero_le _, rfl, Or.inl e3, e4, fun _ k hk => by rw [← e1]; exact e5 k hk, fun k hk => absurd hk (Nat.not_lt_zero _)⟩
    · intro hq; simp only [wrapPhase_eq] at hq; rcases hq with hq | hq <;> cases hq
  | jump n t0 hp ht =>
    obtain ⟨e1, e2, e3, e4, e5⟩ := h.wr n hp
    refine ⟨h.ptr, ?_, ?_, ?_⟩
    · intro j hj; simp only [wrapPhase_eq] at hj; cases hj
    · intro n' w i hw
      simp only [wrapPhase_eq] at hw
      cases hw
      refine ⟨e2, Nat.zero_le _, rfl, Or.inr rfl, ?_, ?_, fun k hk => absurd hk (Nat.not_lt_zero _)⟩
      · intro t h1 h2 h3
        simp only at h1 h3
        omega
      · intro hb k hk
        simp only at hb
        omega
    · intro hq; simp only [wrapPhase_eq] at hq; rcases hq with hq | hq <;> cases hq
  | copy n w i hp hi =>
    obtain ⟨e1, e2, e3, e4, e5, e6, e7⟩ := h.wp n w i hp
    have hm := Nat.mod_lt s.cnt hL
    refine ⟨h.ptr, ?_, ?_, ?_⟩
    · rintro j ⟨⟩
    · rintro n' w' i' ⟨⟩
      refine ⟨e1, hi, e3, e4, ?_, ?_, ?_⟩
      · intro t ht1 ht2 ht3
        simp only at ht1 ht2 ht3
        have hne : t % c.L ≠ i := by
          intro he
          have h1 : (s.cnt + (c.L - s.cnt % c.L + i)) % c.L = i := by
            rw [idx_add (by omega), if_neg (by omega)]
            omega
          have := mod_inj (he.trans h1.symm) (by omega) (by omega)
          omega
        show Function.update s.mem i _ (t % c.L) = s.hist t
        rw [Function.update_of_ne hne]
        exact e5 t ht1 ht2 ht3
      · intro hb k hk
        show Function.update s.mem i _ (s.cnt % c.L + k) = _
        rw [Function.update_of_ne (by omega)]
        exact e6 hb k hk
      · intro k hk
        show Function.update s.mem i (s.mem (c.L + i)) k = Function.update s.mem i _ (c.L + k)
        rw [Function.update_of_ne (show c.L + k ≠ i by omega)]
        by_cases hki : k = i
        · rw [hki, Function.update_self]
        · rw [Function.update_of_ne hki]
          exact e7 k (by omega)
    · rintro (h | h) <;> cases h
  | advance n w hp =>
    obtain ⟨e1, e2, e3, e4, e5, e6, e7⟩ := h.wp n w w hp
    have hm := Nat.mod_lt s.cnt hL
    refine ⟨Nat.mod_lt _ hL, ?_, ?_, ?_⟩
    · rintro j ⟨⟩
    · rintro n' w' i' ⟨⟩
    · intro _
      refine ⟨rfl, ?_, ?_⟩
      · show s.base ≤ s.cnt + n; omega
      · intro t ht1 ht2 ht3
        simp only at ht1 ht2 ht3
        show s.mem (t % c.L) = s.hist t
        by_cases hlt : t < s.cnt
        · exact e5 t ht1 ht2 hlt
        · obtain ⟨k, rfl⟩ := Nat.exists_eq_add_of_le (Nat.le_of_not_lt hlt)
          have hk : k < n := by omega
          have := e6 (by omega) k hk
          rw [idx_add (by omega)]
          split
          · exact this
          · rename_i hge
            rw [e7 _ (by omega), ← this]
            congr 1
            omega
  | prestream hp hq =>
    obtain ⟨e1, e2, e3⟩ := h.pb (Or.inl hp)
    refine ⟨h.ptr, ?_, ?_, ?_⟩
    · rintro j ⟨⟩
      exact ⟨e1, Nat.zero_le _, e2, e3, fun k hk => absurd hk (Nat.not_lt_zero _)⟩
    · rintro n' w' i' ⟨⟩
    · rintro (h | h) <;> cases h
  | publish hp hq =>
    obtain ⟨e1, e2, e3⟩ := h.pb (Or.inl hp)
    refine ⟨h.ptr, ?_, ?_, ?_⟩
    · rintro j ⟨⟩
    · rintro n' w' i' ⟨⟩
    · intro _; exact ⟨e1, e2, e3⟩
  | notify hp hq =>
    obtain ⟨e1, e2, e3⟩ := h.pb (Or.inr hp)
    refine ⟨h.ptr, ?_, ?_, ?_⟩
    · rintro j ⟨⟩
      exact ⟨e1, Nat.zero_le _, e2, e3, fun k hk => absurd hk (Nat.not_lt_zero _)⟩
    · rintro n' w' i' ⟨⟩
    · rintro (h | h) <;> cases h
  | quiet hp hq =>
    obtain ⟨e1, e2, e3⟩ := h.pb (Or.inr hp)
    refine ⟨h.ptr, ?_, ?_, ?_⟩
    · rintro j ⟨⟩
      exact ⟨e1, Nat.zero_le _, e2, e3, fun k hk => absurd hk (Nat.not_lt_zero _)⟩
    · rintro n' w' i' ⟨⟩
    · rintro (h | h) <;> cases h

theorem tinv_init (c : Par) (z : α) : TInv c (init c z) := by
  constructor <;> simp [init]

theorem tinv_step {c : Par} {s s' : Sys α} (hm : MInv c s) (h : TInv c s) (hs : Step c s s') : TInv c s' := by
  obtain ⟨pre, wr, wp, pb, nt, le⟩ := h
  have hwr := hm.wr
  cases hs <;> (try simp only [wrapPhase_eq]) <;> constructor <;> grind

theorem minv_of_reach {c : Par} (hc : c.Ok) {z : α} {s : Sys α} (h : Reach c z s) : MInv c s := by
  induction h with
  | init => exact minv_init hc z
  | step _ hs ih => exact minv_step hc ih hs

theorem tinv_of_reach {c : Par} (hc : c.Ok) {z : α} {s : Sys α} (h : Reach c z s) : TInv c s := by
  induction h with
  | init => exact tinv_init c z
  | step hr hs ih => exact tinv_step (minv_of_reach hc hr) ih hs

/-- At any moment, also while the hardware is writing and while samples are being wrapped, every published sample not
older than the ring length minus one block is found at its time modulo the ring length. `s.base` is 0
unless the time reported by the hardware has jumped. -/
theorem C22_window {c : Par} (hc : c.Ok) {z : α} {s : Sys α} (h : Reach c z s) {t : Nat} (h0 : s.base ≤ t)
    (h1 : t < s.passed) (h2 : t < s.cnt) (h3 : s.passed + c.K ≤ t + c.L) : s.mem (t % c.L) = s.hist t := by
  have hM := minv_of_reach hc h
  have hT := tinv_of_reach hc h
  cases hp : s.phase with
  | writing j =>
    obtain ⟨e1, e2, e3, e4, e5⟩ := hM.wr j hp
    have := hT.wr j hp
    exact e4 t h0 (by omega) h2
  | wrapping n w i =>
    obtain ⟨e1, e2, e3, e4, e5, e6, e7⟩ := hM.wp n w i hp
    have := hT.wp n w i hp
    exact e5 t h0 (by omega) h2
  | publishing =>
    obtain ⟨e1, e2, e3⟩ := hM.pb (Or.inl hp)
    have := hT.pb hp
    exact e3 t h0 (by omega) h2
  | notifying =>
    obtain ⟨e1, e2, e3⟩ := hM.pb (Or.inr hp)
    have := hT.nt hp
    exact e3 t h0 (by omega) h2

/-- Without jumps back in time, no time is published before its samples are there. -/
theorem C22_published_not_ahead {c : Par} (hc : c.Ok) {z : α} {s : Sys α} (h : Reach c z s) (hb : s.back = false) :
    s.passed ≤ s.cnt := (tinv_of_reach hc h).le hb

/-- No access leaves the memory of `L + K` samples: neither the writes of the hardware nor the copies when wrapping. -/
theorem C22_in_bounds {c : Par} (hc : c.Ok) {z : α} {s : Sys α} (h : Reach c z s) :
    (∀ j < c.K, s.ptr + j < c.L + c.K) ∧
    (∀ n w i, s.phase = .wrapping n w i → i < w → c.L + i < c.L + c.K ∧ i < c.L) := by
  have hM := minv_of_reach hc h
  obtain ⟨h0, h8⟩ := hc
  refine ⟨fun j hj => by have := hM.ptr; omega, fun n w i hp hi => ?_⟩
  obtain ⟨e1, e2, e3, -⟩ := hM.wp n w i hp
  have := Nat.mod_lt s.cnt (show 0 < c.L by omega)
  omega

/-- The time given to a block differs by at most one sample from the time reported by the hardware; it is the running
sample count unless that is off by more than one. -/
theorem C22_jitter (cnt t0 : Nat) : (start cnt t0 : Int) - t0 ≤ 1 ∧ -1 ≤ (start cnt t0 : Int) - t0 ∧
    (start cnt t0 = cnt ∨ start cnt t0 = t0) ∧ ((start cnt t0 ≠ cnt) ↔ (cnt : Int) - t0 < -1 ∨ 1 < (cnt : Int) - t0) := by
  unfold start
  split
  · refine ⟨by omega, by omega, Or.inr rfl, ?_⟩
    constructor
    · intro _; assumption
    · intro _; omega
  · refine ⟨by omega, by omega, Or.inl rfl, ?_⟩
    constructor
    · intro h; exact absurd rfl h
    · intro h; omega

/-- Waiting threads are notified in time: without jumps back in time, less than one notification period lies between
the last notification and the published time, except in the instant before the notification. -/
theorem C22_notified {c : Par} (hc : c.Ok) {z : α} {s : Sys α} (h : Reach c z s) (hb : s.back = false)
    (hn : s.phase ≠ .notifying) :
    s.notified = s.passed ∨ (s.notified ≤ s.passed ∧ (s.passed : Int) < s.notified + c.period) := by
  have key : (s.back = false → s.notified ≤ s.passed) ∧ (s.notified = 0 ∧ s.next = 0 ∨ s.next = s.notified + c.period) ∧
      (s.phase ≠ .notifying → s.notified = s.passed ∨ (s.passed : Int) < s.notified + c.period) := by
    clear hn hb
    induction h with
    | init => exact ⟨fun _ => Int.le_refl _, Or.inl ⟨rfl, rfl⟩, fun _ => Or.inl rfl⟩
    | step hr hs ih =>
      obtain ⟨i1, i2, i3⟩ := ih
      have i4 := (tinv_of_reach hc hr).nt
      have i5 := (tinv_of_reach hc hr).le
      cases hs <;> (try simp only [wrapPhase_eq] at *) <;> grind
  have h1 := key.1 hb
  have h2 := key.2.2 hn
  omega

/-- `wait_until_nto` returns a published time that is not before the target. -/
theorem C22_wait {target now : Int} {l : List Int} (h : waitUntil target l = some now) : now ∈ l ∧ target ≤ now := by
  cases l with
  | nil => cases h
  | cons x l =>
    simp only [waitUntil] at h
    split at h
    · cases h; exact ⟨List.mem_cons_self, by omega⟩
    · exact ⟨List.mem_cons_of_mem _ (List.mem_of_find?_eq_some h), by simpa using List.find?_some h⟩

/-- `wait_until_nto` returns as soon as it loads a time after the first load that is not before the target. -/
theorem C22_wait_returns {target x : Int} {l : List Int} (hx : target ≤ x) (y : Int) (hl : x ∈ l) :
    ∃ now, waitUntil target (y :: l) = some now := by
  simp only [waitUntil]
  split
  · exact ⟨_, rfl⟩
  · rw [← Option.isSome_iff_exists, List.find?_isSome]
    exact ⟨x, hl, by simpa using hx⟩

/-- Finding: a thread which asks for the time just published waits for the next block although the target time has been
reached (line 101 has `<` where the loop has `>=`). -/
theorem C22_wait_one_more (now : Int) : waitUntil now [now] = none := by
  simp [waitUntil]

/-! ## Runs -/

def par : Par := ⟨16, 2, 0, 3⟩

theorem par_ok : par.Ok := ⟨by decide, by decide⟩

/-- One block of two samples, published. -/
theorem C22_example : ∃ s : Sys Nat, Reach par 0 s ∧ s.passed = 2 ∧ s.cnt = 2 ∧ s.base = 0 ∧ s.hist 1 = 6 ∧ s.mem 1 = 6 := by
  have h := Reach.init (α := Nat) (c := par) (z := 0)
  have h := Reach.step h (.write _ 0 5 rfl (by decide))
  have h := Reach.step h (.write _ 1 6 rfl (by decide))
  have h := Reach.step h (.call _ 2 0 rfl (by decide))
  have h := Reach.step h (.advance _ 2 0 rfl)
  have h := Reach.step h (.publish _ rfl (by decide))
  exact ⟨_, h, rfl, rfl, rfl, rfl, rfl⟩

/-- Finding: when the hardware has skipped samples, the block in which this is noticed is published under its
time but stays where it was written, so readers find other samples at its time index. Here the block [5, 6]
of time 8 and 9 is published as such, but index 8 and 9 hold zeros. -/
theorem C22_jump_misplaced : ∃ s : Sys Nat, Reach par 0 s ∧ s.passed = 10 ∧ s.mem (8 % par.L) = 0 ∧ s.mem (9 % par.L) = 0 ∧
    s.mem 0 = 5 ∧ s.mem 1 = 6 := by
  have h := Reach.init (α := Nat) (c := par) (z := 0)
  have h := Reach.step h (.write _ 0 5 rfl (by decide))
  have h := Reach.step h (.write _ 1 6 rfl (by decide))
  have h := Reach.step h (.jump _ 2 8 rfl (by decide))
  have h := Reach.step h (.advance _ 2 0 rfl)
  have h := Reach.step h (.publish _ rfl (by decide))
  exact ⟨_, h, rfl, rfl, rfl, rfl, rfl⟩

/-- Finding: after a jump back in time no waiting thread is notified until the old time is reached again. Here the
published time is 10 and the next notification is not due before 105, with a notification period of 3. -/
theorem C22_jump_back_silent : ∃ s : Sys Nat, Reach par 0 s ∧ s.passed = 10 ∧ s.phase = .writing 0 ∧ s.notified = 102 ∧
    s.next = 105 := by
  have h := Reach.init (α := Nat) (c := par) (z := 0)
  have h := Reach.step h (.write _ 0 5 rfl (by decide))
  have h := Reach.step h (.write _ 1 6 rfl (by decide))
  have h := Reach.step h (.jump _ 2 100 rfl (by decide))
  have h := Reach.step h (.advance _ 2 0 rfl)
  have h := Reach.step h (.publish _ rfl (by decide))
  have h := Reach.step h (.notify _ rfl (by decide))
  have h := Reach.step h (.write _ 0 5 rfl (by decide))
  have h := Reach.step h (.write _ 1 6 rfl (by decide))
  have h := Reach.step h (.jump _ 2 8 rfl (by decide))
  have h := Reach.step h (.advance _ 2 0 rfl)
  have h := Reach.step h (.publish _ rfl (by decide))
  have h := Reach.step h (.quiet _ rfl (by decide))
  exact ⟨_, h, rfl, rfl, rfl, rfl⟩

end Verif.Radio.BufferRx
