import Verif.Model.Callbacks
import Mathlib.Data.List.Perm.Subperm
import Mathlib.Tactic.Ring
import Mathlib.Tactic.Positivity

set_option linter.unusedSimpArgs false

/-!
# C15: periodic callbacks fire exactly at their due times
-/

namespace Verif.Adt
open Callbacks

theorem minIdx_le (f : Nat → Int) : ∀ n, minIdx f n ≤ n := by
  intro n
  induction n with
  | zero => simp [minIdx]
  | succ n ih => simp only [minIdx]; split <;> omega

theorem minIdx_min (f : Nat → Int) : ∀ n i, i ≤ n → f (minIdx f n) ≤ f i := by
  intro n
  induction n with
  | zero => intro i hi; have : i = 0 := by omega
            subst this; simp [minIdx]
  | succ n ih =>
    intro i hi
    simp only [minIdx]
    by_cases h : i = n + 1
    · subst h; split <;> omega
    · have := ih i (by omega)
      split <;> omega

/-- `it_next` points to a first smallest entry. -/
def Callbacks.Ready (s : Callbacks) : Prop := s.it = some (minIdx (fun i => (s.ents i).next) cbLast)

/-- What an iteration does to its entry. -/
def fired (now : Int) (i : Nat) (e : CbEntry) : CbEntry :=
  match e.cb with
  | none => e
  | some f => { e with
      next := (f now i e.next e.period).1 + (f now i e.next e.period).2
      period := (f now i e.next e.period).2 }

theorem runBody_ok {now : Int} {i : Nat} {s s' : Callbacks} (h : runBody now i s = .ok s') :
    now < (s.ents i).next + (s.ents i).period ∧
      s'.ents = Function.update s.ents i (fired now i (s.ents i)) ∧ s'.Ready ∧
      now < (fired now i (s.ents i)).next ∧ 0 < (fired now i (s.ents i)).period := by
  simp only [runBody, Res.bind_eq_ok, Res.assert_eq_ok, decide_eq_true_eq] at h
  obtain ⟨due, h1, -, h2, h3⟩ := h
  have e1 : due = (s.ents i).next + (s.ents i).period := by
    unfold add64 at h1; split at h1
    · simpa using h1.symm
    · exact absurd h1 (by simp)
  split at h3
  · exact absurd h3 (by simp)
  · rename_i f hf
    simp only [Res.bind_eq_ok, Res.assert_eq_ok, decide_eq_true_eq, Res.pure_eq, Res.ok.injEq] at h3
    obtain ⟨-, h4, -, h5, next, h6, -, h7, rfl⟩ := h3
    have e2 : next = (f now i (s.ents i).next (s.ents i).period).1 + (f now i (s.ents i).next (s.ents i).period).2 := by
      unfold add64 at h6; split at h6
      · simpa using h6.symm
      · exact absurd h6 (by simp)
    subst e2
    refine ⟨by omega, ?_, rfl, ?_, ?_⟩
    · simp [setItNext, fired, hf]
    · simpa [fired, hf] using h7
    · simpa [fired, hf] using h5

/-- What is true in every iteration: `s0` is the state at the start, `log` the calls made so far. -/
structure LoopInv (now : Int) (s0 s : Callbacks) (log : List (Nat × Int)) : Prop where
  ready : s.Ready
  nodup : (log.map Prod.fst).Nodup
  entry : ∀ p ∈ log, p.1 ≤ cbLast ∧ p.2 = (s0.ents p.1).next ∧ p.2 ≤ now ∧
    now < (s0.ents p.1).next + (s0.ents p.1).period ∧ s.ents p.1 = fired now p.1 (s0.ents p.1) ∧
    now < (s.ents p.1).next ∧ 0 < (s.ents p.1).period
  other : ∀ i, i ∉ log.map Prod.fst → s.ents i = s0.ents i
  sorted : log.Pairwise fun a b => a.2 ≤ b.2
  least : ∀ p ∈ log, ∀ i ≤ cbLast, i ∉ log.map Prod.fst → p.2 ≤ (s0.ents i).next

theorem LoopInv.length {now : Int} {s0 s : Callbacks} {log : List (Nat × Int)} (h : LoopInv now s0 s log) :
    log.length ≤ cbLast + 1 := by
  have h1 : log.map Prod.fst ⊆ List.range (cbLast + 1) := by
    intro i hi
    obtain ⟨p, hp, rfl⟩ := List.mem_map.1 hi
    have := (h.entry p hp).1
    simp; omega
  have := (h.nodup.subperm h1).length_le
  simpa using this

theorem loop_step {now : Int} {s0 s s' : Callbacks} {log : List (Nat × Int)} (h : LoopInv now s0 s log) {i : Nat}
    (hi : s.it = some i) (hd : (s.ents i).next ≤ now) (hb : runBody now i s = .ok s') :
    LoopInv now s0 s' (log ++ [(i, (s.ents i).next)]) := by
  have hr := h.ready
  have hil : i = minIdx (fun i => (s.ents i).next) cbLast := by
    have := hi.symm.trans hr
    simpa using this
  have hle : i ≤ cbLast := by rw [hil]; exact minIdx_le _ _
  have hmin : ∀ j ≤ cbLast, (s.ents i).next ≤ (s.ents j).next := by
    intro j hj
    have := minIdx_min (fun i => (s.ents i).next) cbLast j hj
    rw [← hil] at this; exact this
  have hnew : i ∉ log.map Prod.fst := by
    intro hm
    obtain ⟨p, hp, hpi⟩ := List.mem_map.1 hm
    have := (h.entry p hp).2.2.2.2.2.1
    rw [hpi] at this
    omega
  have hsi : s.ents i = s0.ents i := h.other i hnew
  obtain ⟨b1, b2, b3, b4, b5⟩ := runBody_ok hb
  have hmap : (log ++ [(i, (s.ents i).next)]).map Prod.fst = log.map Prod.fst ++ [i] := by simp
  refine ⟨b3, ?_, ?_, ?_, ?_, ?_⟩
  · rw [hmap, List.nodup_append]
    refine ⟨h.nodup, by simp, ?_⟩
    intro a ha b hb'
    simp only [List.mem_singleton] at hb'
    rintro rfl
    exact hnew (hb' ▸ ha)
  · intro p hp
    rw [List.mem_append, List.mem_singleton] at hp
    rcases hp with hp | rfl
    · have hne : p.1 ≠ i := by
        intro e; exact hnew (e ▸ List.mem_map_of_mem hp)
      rw [b2, Function.update_of_ne hne]
      exact h.entry p hp
    · rw [b2]
      simp only [Function.update_self]
      rw [hsi] at b1 b4 b5 hd ⊢
      exact ⟨hle, rfl, hd, b1, rfl, b4, b5⟩
  · intro j hj
    rw [hmap, List.mem_append, List.mem_singleton, not_or] at hj
    rw [b2, Function.update_of_ne hj.2]
    exact h.other j hj.1
  · rw [List.pairwise_append]
    refine ⟨h.sorted, by simp, ?_⟩
    intro a ha b hb'
    simp only [List.mem_singleton] at hb'
    subst hb'
    have := h.least a ha i hle hnew
    rw [hsi]; exact this
  · intro p hp j hj hjn
    rw [hmap, List.mem_append, List.mem_singleton, not_or] at hjn
    rw [List.mem_append, List.mem_singleton] at hp
    rcases hp with hp | rfl
    · exact h.least p hp j hj hjn.1
    · have := hmin j hj
      rw [h.other j hjn.1] at this
      exact this

/-- Enough iterations, and what is true at the end. -/
theorem loop_end {now : Int} {s0 : Callbacks} : ∀ (k : Nat) (s : Callbacks) (log : List (Nat × Int)),
    LoopInv now s0 s log → cbLast + 2 ≤ k + log.length →
    ∀ s' l, runLoop now k s log = .ok (s', l) →
      LoopInv now s0 s' l ∧ ∀ i ≤ cbLast, now < (s'.ents i).next := by
  intro k
  induction k with
  | zero =>
    intro s log h hk
    have := h.length
    omega
  | succ k ih =>
    intro s log h hk s' l hr
    rw [runLoop, h.ready] at hr
    simp only at hr
    split at hr
    · rename_i hd
      rw [Res.bind_eq_ok] at hr
      obtain ⟨s1, hb, hr⟩ := hr
      exact ih s1 _ (loop_step h h.ready hd hb) (by simp; omega) s' l hr
    · rename_i hd
      simp only [Res.ok.injEq, Prod.mk.injEq] at hr
      obtain ⟨rfl, rfl⟩ := hr
      refine ⟨h, fun i hi => ?_⟩
      have := minIdx_min (fun i => (s.ents i).next) cbLast i hi
      omega

theorem loopInv_start {now : Int} {s : Callbacks} (h : s.Ready) : LoopInv now s s [] :=
  ⟨h, by simp, by simp, by simp, by simp, by simp⟩

/-- C15, one call of `run`, for arbitrary callbacks: exactly the entries that are due are called, each
once, none of them a whole period late, in the order of their due times; afterwards no entry is due. -/
theorem C15_run (s s' : Callbacks) (now : Int) (log : List (Nat × Int)) (hs : s.Ready)
    (h : s.run now = .ok (s', log)) :
    (log.map Prod.fst).Nodup ∧ log.Pairwise (fun a b => a.2 ≤ b.2) ∧
    (∀ i d, (i, d) ∈ log ↔ i ≤ cbLast ∧ d = (s.ents i).next ∧ d ≤ now) ∧
    (∀ i d, (i, d) ∈ log → now < d + (s.ents i).period) ∧
    (∀ i ≤ cbLast, now < (s'.ents i).next) ∧
    (∀ i ≤ cbLast, now < (s.ents i).next → s'.ents i = s.ents i) := by
  obtain ⟨h1, h2⟩ := loop_end _ _ _ (loopInv_start (now := now) hs) (by simp) _ _ h
  have hmem : ∀ i ≤ cbLast, i ∉ log.map Prod.fst → now < (s.ents i).next := by
    intro i hi hn
    rw [← h1.other i hn]; exact h2 i hi
  refine ⟨h1.nodup, h1.sorted, ?_, ?_, h2, ?_⟩
  · intro i d
    constructor
    · intro hm
      obtain ⟨e1, e2, e3, -⟩ := h1.entry _ hm
      exact ⟨e1, e2, e3⟩
    · rintro ⟨e1, e2, e3⟩
      by_cases hn : i ∈ log.map Prod.fst
      · obtain ⟨p, hp, rfl⟩ := List.mem_map.1 hn
        have := (h1.entry p hp).2.1
        rw [e2, ← this]; exact hp
      · have := hmem i e1 hn
        omega
  · intro i d hm
    obtain ⟨-, e2, -, e3, -⟩ := h1.entry _ hm
    simp only at e2 e3
    omega
  · intro i hi hd
    apply h1.other
    intro hn
    obtain ⟨p, hp, rfl⟩ := List.mem_map.1 hn
    obtain ⟨-, e2, e3, -⟩ := h1.entry p hp
    omega

/-- A periodic callback does not change its times. -/
def Periodic (e : CbEntry) : Prop := ∃ f, e.cb = some f ∧ ∀ now i n p, f now i n p = (n, p)

/-- Calls of entry `i` in a list of logs. -/
def callsOf (i : Nat) (logs : List (List (Nat × Int))) : List Int :=
  (logs.flatten.filter fun p => p.1 = i).map Prod.snd

/-- The first `n` due times `t`, `t + T`, `t + 2T`, ... -/
def dueTimes (t T : Int) : Nat → List Int
  | 0 => []
  | n + 1 => t :: dueTimes (t + T) T n

theorem ready_after {s s' : Callbacks} {now : Int} {log : List (Nat × Int)} (hs : s.Ready)
    (h : s.run now = .ok (s', log)) : s'.Ready :=
  (loop_end _ _ _ (loopInv_start (now := now) hs) (by simp) _ _ h).1.ready

theorem filter_one {log : List (Nat × Int)} {i : Nat} {d : Int} (hn : (log.map Prod.fst).Nodup)
    (h : (i, d) ∈ log) : log.filter (fun p => decide (p.1 = i)) = [(i, d)] := by
  induction log with
  | nil => simp at h
  | cons p l ih =>
    simp only [List.map_cons, List.nodup_cons, List.mem_map, not_exists, not_and] at hn
    simp only [List.mem_cons] at h
    rcases h with rfl | h
    · rw [List.filter_cons_of_pos (by simp)]
      congr 1
      rw [List.filter_eq_nil_iff]
      intro q hq
      simp only [decide_eq_true_eq]
      exact hn.1 q hq
    · rw [List.filter_cons_of_neg (by
        simp only [decide_eq_true_eq]; intro e; exact hn.1 _ h e.symm)]
      exact ih hn.2 h

/-- One run and one periodic entry: called once if due, at its due time, and due one period later. -/
theorem run_periodic {s s' : Callbacks} {now : Int} {log : List (Nat × Int)} {i : Nat} (hs : s.Ready)
    (h : s.run now = .ok (s', log)) (hi : i ≤ cbLast) (hp : Periodic (s.ents i)) :
    Periodic (s'.ents i) ∧ (s'.ents i).period = (s.ents i).period ∧
    (((s.ents i).next ≤ now ∧ (s'.ents i).next = (s.ents i).next + (s.ents i).period ∧
        log.filter (fun p => decide (p.1 = i)) = [(i, (s.ents i).next)] ∧ 0 < (s.ents i).period) ∨
      (now < (s.ents i).next ∧ s'.ents i = s.ents i ∧ log.filter (fun p => decide (p.1 = i)) = [])) := by
  obtain ⟨h1, h2⟩ := loop_end _ _ _ (loopInv_start (now := now) hs) (by simp) _ _ h
  obtain ⟨c1, -, c3, -, -, c6⟩ := C15_run s s' now log hs h
  by_cases hd : (s.ents i).next ≤ now
  · have hm := (c3 i _).2 ⟨hi, rfl, hd⟩
    obtain ⟨-, -, -, -, e1, -, e2⟩ := h1.entry _ hm
    simp only at e1 e2
    obtain ⟨f, hf1, hf2⟩ := hp
    have e3 : s'.ents i = ⟨some f, (s.ents i).next + (s.ents i).period, (s.ents i).period⟩ := by
      rw [e1]; simp [fired, hf1, hf2]
    rw [e3] at e2 ⊢
    exact ⟨⟨f, rfl, hf2⟩, rfl, Or.inl ⟨hd, rfl, filter_one c1 hm, e2⟩⟩
  · have hs' := c6 i hi (by omega)
    rw [hs']
    refine ⟨hp, rfl, Or.inr ⟨by omega, rfl, ?_⟩⟩
    rw [List.filter_eq_nil_iff]
    intro q hq
    simp only [decide_eq_true_eq]
    intro e
    have := (c3 q.1 q.2).1 hq
    rw [e] at this
    omega

/-- C15: over any sequence of runs (that does not abort), a periodic callback registered with first
time `t` and period `T` is called at exactly `t`, `t + T`, `t + 2T`, ..., each once and in this order, as
many of them as lie at or before the last run (if times never go back). -/
theorem C15_due_times (s s' : Callbacks) (ts : List Int) (logs : List (List (Nat × Int))) (i : Nat)
    (hs : s.Ready) (hi : i ≤ cbLast) (hp : Periodic (s.ents i)) (hT : 0 < (s.ents i).period)
    (h : s.runs ts = .ok (s', logs)) :
    ∃ n : Nat, callsOf i logs = dueTimes (s.ents i).next (s.ents i).period n ∧
      (s'.ents i).next = (s.ents i).next + n * (s.ents i).period ∧
      (∀ t ∈ ts, t < (s.ents i).next + n * (s.ents i).period) ∧
      (0 < n → ∃ t ∈ ts, (s.ents i).next + (n - 1) * (s.ents i).period ≤ t) := by
  induction ts generalizing s logs with
  | nil =>
    simp only [runs, Res.ok.injEq, Prod.mk.injEq] at h
    obtain ⟨rfl, rfl⟩ := h
    exact ⟨0, rfl, by simp, by simp, by simp⟩
  | cons t ts ih =>
    simp only [runs, Res.bind_eq_ok, Res.pure_eq, Res.ok.injEq, Prod.mk.injEq] at h
    obtain ⟨⟨s1, l⟩, h1, ⟨s2, ls⟩, h2, rfl, rfl⟩ := h
    obtain ⟨p1, p2, p3⟩ := run_periodic hs h1 hi hp
    obtain ⟨n, e1, e2, e3, e4⟩ := ih s1 ls (ready_after hs h1) p1 (by rw [p2]; exact hT) h2
    have hnow := (C15_run s s1 t l hs h1).2.2.2.2.1 i hi
    have hcalls : callsOf i (l :: ls) = (l.filter (fun p => decide (p.1 = i))).map Prod.snd ++ callsOf i ls := by
      simp [callsOf]
    rw [p2] at e1 e2 e3 e4
    rcases p3 with ⟨q1, q2, q3, q4⟩ | ⟨q1, q2, q3⟩
    · rw [q2] at e1 e2 e3 e4 hnow
      refine ⟨n + 1, ?_, ?_, ?_, ?_⟩
      · rw [hcalls, q3, e1]; rfl
      · rw [e2]; push_cast; ring
      · intro x hx
        push_cast
        rw [show (s.ents i).next + ((n : Int) + 1) * (s.ents i).period =
          (s.ents i).next + (s.ents i).period + n * (s.ents i).period by ring]
        rcases List.mem_cons.1 hx with rfl | hx
        · have : 0 ≤ (n : Int) * (s.ents i).period := by positivity
          omega
        · exact e3 x hx
      · intro _
        by_cases hn : 0 < n
        · obtain ⟨x, hx1, hx2⟩ := e4 hn
          refine ⟨x, List.mem_cons_of_mem _ hx1, ?_⟩
          push_cast
          have : (s.ents i).next + ((n : Int) + 1 - 1) * (s.ents i).period =
            (s.ents i).next + (s.ents i).period + (n - 1) * (s.ents i).period := by ring
          omega
        · have : n = 0 := by omega
          subst this
          exact ⟨t, by simp, by simpa using q1⟩
    · rw [q2] at e1 e2 e3 e4 hnow
      refine ⟨n, ?_, e2, ?_, ?_⟩
      · rw [hcalls, q3, e1]; rfl
      · intro x hx
        rcases List.mem_cons.1 hx with rfl | hx
        · have : 0 ≤ (n : Int) * (s.ents i).period := by positivity
          omega
        · exact e3 x hx
      · intro hn
        obtain ⟨x, hx1, hx2⟩ := e4 hn
        exact ⟨x, List.mem_cons_of_mem _ hx1, hx2⟩

/-- C15, no skipped callback: if all registered callbacks are periodic with positive times, the run is
not a whole period late for any of them, and times stay within `int64_t`, then `run` succeeds. -/
theorem C15_run_succeeds (s : Callbacks) (now : Int) (hs : s.Ready)
    (hent : ∀ i ≤ cbLast, now < (s.ents i).next ∨
      (Periodic (s.ents i) ∧ 0 < (s.ents i).next ∧ 0 < (s.ents i).period ∧
        now < (s.ents i).next + (s.ents i).period ∧ (s.ents i).next + (s.ents i).period < 2 ^ 63)) :
    ∃ s' log, s.run now = .ok (s', log) := by
  have key : ∀ (k : Nat) (s1 : Callbacks) (log : List (Nat × Int)), LoopInv now s s1 log →
      cbLast + 2 ≤ k + log.length → ∃ x, runLoop now k s1 log = .ok x := by
    intro k
    induction k with
    | zero => intro s1 log h hk; have := h.length; omega
    | succ k ih =>
      intro s1 log h hk
      rw [runLoop, h.ready]
      simp only
      split
      · rename_i hd
        generalize hi : minIdx (fun i => (s1.ents i).next) cbLast = i at hd
        have hle : i ≤ cbLast := by rw [← hi]; exact minIdx_le _ _
        have hnew : i ∉ log.map Prod.fst := by
          intro hm
          obtain ⟨p, hp, hpi⟩ := List.mem_map.1 hm
          have := (h.entry p hp).2.2.2.2.2.1
          rw [hpi] at this; omega
        have hsi := h.other i hnew
        have hb : ∃ s2, runBody now i s1 = .ok s2 := by
          rcases hent i hle with h' | ⟨⟨f, f1, f2⟩, g2, g3, g4, g5⟩
          · rw [← hsi] at h'; omega
          · have ha : add64 (s.ents i).next (s.ents i).period = .ok ((s.ents i).next + (s.ents i).period) := by
              unfold add64; rw [if_pos (by omega)]
            simp only [runBody, hsi, ha, f1, f2, Res.ok_bind, g2, g3, g4, decide_true, Res.assert_true]
            exact ⟨_, rfl⟩
        obtain ⟨s2, hb⟩ := hb
        have hit : s1.it = some i := by rw [h.ready, hi]
        obtain ⟨x, hx⟩ := ih s2 _ (loop_step h hit hd hb) (by simp; omega)
        exact ⟨x, by rw [hb]; exact hx⟩
      · exact ⟨_, rfl⟩
  obtain ⟨⟨s', log⟩, h⟩ := key (cbLast + 2) s [] (loopInv_start hs) (by simp)
  exact ⟨s', log, h⟩

/-- C15: a run that comes a whole period late aborts instead of losing a call. -/
theorem C15_skip_aborts (s : Callbacks) (now : Int) (i : Nat) (hs : s.it = some i)
    (hd : (s.ents i).next + (s.ents i).period ≤ now) (hp : 0 ≤ (s.ents i).period)
    (h64 : -2 ^ 63 ≤ (s.ents i).next ∧ now < 2 ^ 63) : s.run now = .abort := by
  have ha : add64 (s.ents i).next (s.ents i).period = .ok ((s.ents i).next + (s.ents i).period) := by
    unfold add64; rw [if_pos (by omega)]
  have hle : (s.ents i).next ≤ now := by omega
  simp only [Callbacks.run, cbLast, runLoop, hs, if_pos hle, runBody, ha, Res.ok_bind]
  rw [decide_eq_false (by omega)]
  rfl

/-- C15: adding a callback uses a free slot with the given times, keeps the others, and fails
exactly if all slots are in use. -/
theorem C15_add (s : Callbacks) (f : Callback) (next period : Int) :
    (∀ i, (s.add f next period).2 = some i → i ≤ cbLast ∧ (s.ents i).cb = none ∧
      (s.add f next period).1.ents = Function.update s.ents i ⟨some f, next, period⟩ ∧
      (s.add f next period).1.Ready) ∧
    ((s.add f next period).2 = none ↔ ∀ i ≤ cbLast, (s.ents i).cb ≠ none) := by
  unfold add
  cases h : s.findEmpty with
  | none =>
    refine ⟨by simp, ?_⟩
    simp only [true_iff]
    intro i hi hn
    have := List.find?_eq_none.1 h i (by simp; omega)
    simp [hn] at this
  | some j =>
    have h1 := List.mem_of_find?_eq_some h
    have h2 := List.find?_some h
    simp only [List.mem_range] at h1
    refine ⟨?_, ?_⟩
    · intro i hi
      simp only [Option.some.injEq] at hi
      subst hi
      refine ⟨by omega, by simpa using h2, ?_, ?_⟩
      · simp [setItNext]
      · simp [Ready, setItNext]
    · simp only [reduceCtorEq, false_iff, not_forall]
      exact ⟨j, by omega, by simpa using h2⟩

/-- The state after adding callbacks with periods 10 and 25. -/
def twoCallbacks : Callbacks := ((init.add (fun _ _ n p => (n, p)) 5 10).1.add (fun _ _ n p => (n, p)) 7 25).1

/-- The calls made, if nothing aborts. -/
def logsOf (s : Callbacks) (ts : List Int) : Option (List (List (Nat × Int))) :=
  match s.runs ts with
  | .ok x => some x.2
  | _ => none

example : logsOf twoCallbacks [3, 9, 15, 24, 32] = some [[], [(0, 5), (1, 7)], [(0, 15)], [], [(0, 25), (1, 32)]] := by
  decide +kernel

example : twoCallbacks.Ready ∧ Periodic (twoCallbacks.ents 0) ∧ Periodic (twoCallbacks.ents 1) :=
  ⟨rfl, ⟨_, rfl, fun _ _ _ _ => rfl⟩, ⟨_, rfl, fun _ _ _ _ => rfl⟩⟩

end Verif.Adt
