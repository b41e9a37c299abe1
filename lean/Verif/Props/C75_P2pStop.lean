import Verif.Lemma.P2pStopLive
import Mathlib.Tactic.IntervalCases

/-!
# C75: A stop request of a point-to-point device is always served

Whenever the user stops an FT or PT of the point-to-point firmware, the device goes through its dissociation and the stop returns. -/

namespace Verif.P2p.Stop

/-- No assertion of the firmware or the irregular queue fails in any execution, but for a full job queue and, for the FT in normal operation, a beacon
that is called for without delay or cannot be sent. The claim without the exceptions of the FT does not hold: `C75_on_time_finding`. -/
theorem C75_safe_partial (c : Cfg) (slots : 1 ≤ c.slots) (h100 : 0 ≤ c.ms100) (h500 : 0 ≤ c.ms500) (s : St) (e : Ev) (r : Reach c s) :
    step c s e ≠ .ub ∧ (step c s e = .abort → Fails c s e) := by
  have i := inv_reach r
  have enq : ∀ (s' : St) (j : Job), enqueue c s' j ≠ .ub ∧ (enqueue c s' j = .abort → s'.permeable = true ∧ c.cap ≤ s'.jobs.length) := by
    intro s' j
    unfold enqueue
    split
    · simp
    · next p =>
      by_cases l : s'.jobs.length < c.cap
      · simp [l]
      · simp [l]
        exact ⟨by simpa using p, by omega⟩
  have psh : ∀ (s' : St) (q : Report), s'.irr = [] → push c s' q = .ok { s' with irr := [q] } := by
    intro s' q h
    simp [push, h, show 0 < c.slots by omega]
  cases e with
  | start t0 =>
    simp only [step, start]
    split
    · simp
    · next st =>
      have a := (i.unstarted (by simpa using st)).2.2
      rw [outstanding_eq, List.append_eq_nil_iff] at a
      rw [decide_eq_true (by unfold entryFirst; split <;> simp <;> omega), Res.assert_true, Res.ok_bind,
        psh { s with started := true, now := t0 } _ a.1]
      simp
  | permeate => simp only [step]; split <;> simp
  | tick n => simp [step]
  | due =>
    simp only [step]
    split
    · unfold Stop.due
      split
      · simp
      · split
        · simp
        · rw [decide_eq_true (by omega), Res.assert_true, Res.ok_bind]
          obtain ⟨h1, h2⟩ := enq { s with irr := s.irr.erase ‹_› } (.irr ‹_› s.now)
          exact ⟨h1, fun h => .full _ (h2 h).1 (h2 h).2⟩
    · simp
  | packet =>
    obtain ⟨h1, h2⟩ := enq s .other
    exact ⟨h1, fun h => .full _ (h2 h).1 (h2 h).2⟩
  | work next rx b n =>
    rcases hj : s.jobs with _ | ⟨j, js⟩
    · simp [step, work, hj]
    · cases j with
      | other => simp [step, work, hj]
      | irr r t =>
        have st : s.started = true := by
          by_contra st
          have := (i.unstarted (by simpa using st)).2.2
          simp [outstanding_eq, hj] at this
        have nop : s.fw ≠ .nop := by
          intro h
          have := i.nop h
          simp [outstanding_eq, hj] at this
        obtain ⟨q, o, g⟩ := i.chain st nop
        have o' : s.irr = [] ∧ r = q := by
          rcases single o with ⟨_, h⟩ | ⟨h1, h⟩
          · simp [hj] at h
          · simp [hj] at h; exact ⟨h1, h.1⟩
        obtain ⟨h1, rfl⟩ := o'
        have sl : 0 < c.slots := by omega
        simp only [step, work, hj]
        cases f : s.fw with
        | first =>
          have a : (decide (c.kind = .ft) || decide (r.handle = handleFirst .pt)) = true := by
            rw [f] at g
            cases k : c.kind
            · simp
            · simp only [Good, k] at g; simp [g]
          rcases bool_cases s.shutting with m | m <;>
            simp [workIrregular, workFirst, a, transitions, entryDiss, f, m, pushIf, push, h1, sl]
        | steady =>
          rcases bool_cases s.shutting with m | m
          · simp [workIrregular, workSteady, transitions, entryDiss, f, m, pushIf, push, h1, sl]
          · cases k : c.kind with
            | pt => simp [workIrregular, workSteady, f, m, k, pushIf, push, h1, sl]
            | ft =>
              by_cases d : 0 < t - r.time
              · rcases bool_cases b with hb | hb
                · simp [workIrregular, workSteady, f, m, k, pushIf, push, h1, sl, show r.time < t by omega, hb]
                · subst hb
                  exact ⟨by simp [workIrregular, workSteady, f, m, k, show r.time < t by omega], fun _ => .beacon r t js next rx n k f m hj⟩
              · have le := i.recog r t (by rw [hj]; simp)
                obtain rfl : t = r.time := by omega
                exact ⟨by simp [workIrregular, workSteady, f, m, k], fun _ => .onTime r js next rx b n k f m hj⟩
        | diss =>
          have hg : r.handle = handleDiss c.kind := by rw [f] at g; exact g
          simp [workIrregular, workDiss, transitions, unblock, f, hg, pushIf]
        | nop => exact absurd f nop
  | stop => simp [step]
  | check => simp [step]
  | spurious => simp [step]
  | close => simp [step]

/-- Between start and end of the dissociation there is exactly one request for an irregular call on its way, afterwards none: one of the eight slots
of the irregular queue is enough -/
theorem C75_single (c : Cfg) (s : St) (r : Reach c s) (st : s.started = true) :
    (s.fw ≠ .nop → (outstanding s).length = 1) ∧ (s.fw = .nop → outstanding s = []) := by
  have i := inv_reach r
  refine ⟨fun h => ?_, i.nop⟩
  obtain ⟨q, o, _⟩ := i.chain st h
  rw [o]; rfl

/-- The states are passed in one direction only. Dissociation begins only after a stop request, and nothing is sent any more from then on. -/
theorem C75_order (c : Cfg) (s s' : St) (es : List Ev) (r : Reach c s) (h : run c s es = .ok s') :
    s.fw.rank ≤ s'.fw.rank ∧ (2 ≤ s.fw.rank → s.shutting = true ∧ s'.tx = s.tx) ∧ (s.shutting = true → s'.shutting = true) := by
  have i := inv_reach r
  have late : 2 ≤ s.fw.rank → s.shutting = true := by
    intro x
    apply i.late
    cases hh : s.fw <;> simp [hh, Fw.rank] at x ⊢
  suffices H : ∀ (es : List Ev) (s : St), Inv c s → run c s es = .ok s' →
      s.fw.rank ≤ s'.fw.rank ∧ (2 ≤ s.fw.rank → s'.tx = s.tx) ∧ (s.shutting = true → s'.shutting = true) by
    obtain ⟨a, b, d⟩ := H es s i h
    exact ⟨a, fun x => ⟨late x, b x⟩, d⟩
  clear h late i r
  intro es
  induction es with
  | nil => intro s i h; simp only [run] at h; cases h; simp
  | cons e es ih =>
    intro s i h
    simp only [run, Res.bind_eq_ok] at h
    obtain ⟨s1, h1, h2⟩ := h
    obtain ⟨a1, a2, a3, -⟩ := step_mono i h1
    obtain ⟨b1, b2, b3⟩ := ih s1 (inv_step i h1) h2
    exact ⟨by omega, fun x => by rw [b2 (by omega), a2 x], fun x => b3 (a3 x)⟩

/-- The stop returns only after it was requested and the dissociation has ended, and the main thread never sleeps when it has been released: no
wake-up is lost. -/
theorem C75_release (c : Cfg) (s : St) (r : Reach c s) :
    (s.main.past → s.fw = .nop ∧ s.shutting = true) ∧ (s.main = .sleeping → s.fw ≠ .nop) ∧ (s.main = .running ↔ s.shutting = false) := by
  have i := inv_reach r
  refine ⟨fun h => ?_, fun h nop => ?_, i.running.symm⟩
  · have n := i.released.1 (i.past h)
    exact ⟨n, i.late (Or.inr n)⟩
  · have := i.sleeping h
    rw [i.released.2 nop] at this
    cases this

/-- After a stop request the firmware is called for irregular reports at most twice, and the second of these calls, the first one when dissociation
had begun, ends the dissociation -/
theorem C75_calls (c : Cfg) (s s' : St) (es : List Ev) (r : Reach c s) (m : s.shutting = true) (h : run c s es = .ok s') :
    calls c s es ≤ 2 ∧
    (s.fw = .first ∨ s.fw = .steady → (s'.fw = .nop ↔ calls c s es = 2)) ∧
    (s.fw = .diss → (s'.fw = .nop ↔ calls c s es = 1)) ∧
    (s.fw = .nop → calls c s es = 0) := by
  have e := calls_left (inv_reach r) m h
  cases f : s.fw <;> cases f' : s'.fw <;> simp [f, f', left] at e ⊢ <;> omega

/-- In every fair execution in which a stop is requested, at whatever moment, the stop returns, and the device is then at the end of its life -/
theorem C75_stop (c : Cfg) (s : Nat → St) (e : Nat → Ev) (f : Fair c s e) (n : Nat) (hs : e n = .stop) :
    ∃ k, (s k).main = .done ∧ (s k).fw = .nop := by
  obtain ⟨n1, t0, h1⟩ := f.start
  obtain ⟨n2, p1, p2⟩ := f.permeate
  have st : (s n2).started = true := p1
  have pm : (s (n2 + 1)).permeable = true ∨ (s (n2 + 1)).released = true := by
    have hx := f.next n2
    rw [p2] at hx
    by_cases past : (s n2).main.past
    · have r := (f.inv n2).past past
      have := (step_mono (f.inv n2) (f.next n2)).2.2.2.2.1 (Or.inr r)
      exact this
    · simp only [step] at hx
      have np : (s n2).main ≠ .closed ∧ (s n2).main ≠ .serverStopped ∧ (s n2).main ≠ .done := by
        refine ⟨?_, ?_, ?_⟩ <;> intro h <;> simp [h, Main.past] at past
      rw [if_pos (by simp [p1, np])] at hx
      rw [Res.ok.injEq] at hx
      rw [← hx]
      exact Or.inl rfl
  have sh : (s (n + 1)).shutting = true := by
    have hx := f.next n
    rw [hs] at hx
    simp only [step, Res.ok.injEq] at hx
    rw [← hx]
    split
    · rfl
    · next m =>
      rcases bool_cases (s n).shutting with h | h
      · exact h
      · exact absurd ((f.inv n).running.1 h) m
  let N := max n2 n + 1
  have a := f.mono (show n2 ≤ N by omega)
  have a' := f.mono (show n2 + 1 ≤ N by omega)
  have b := f.mono (show n + 1 ≤ N by omega)
  obtain ⟨k, _, nop⟩ := f.reach_nop 3 N (a.2.2.1 st).1 (b.2.1 sh) (a'.2.2.2 pm) (by omega)
  obtain ⟨j, hj, hd⟩ := f.main_done nop 4 k le_rfl (by omega)
  exact ⟨j, hd, (f.main_mono nop hj).1⟩

/-- An FT aborts in normal operation when its beacon is called for without any delay: synchronization calls as soon as the time of a report has been
reached, `steady_ft_t::work_irregular` requires that it lies in the past. Neither queue is full, and the beacon could be sent. -/
theorem C75_on_time_finding : ∃ (c : Cfg) (s : St) (es : List Ev), run c St.init es = .ok s ∧ s.jobs.length < c.cap ∧ s.irr.length < c.slots ∧
    s.shutting = false ∧ step c s (.work 2000 1000 true 1) = .abort :=
  ⟨⟨.ft, 32, 8, 100, 500⟩, ⟨true, .steady, false, [], [.irr ⟨1000, 0⟩ 1000], true, .running, false, 1000, 0⟩,
    [.start 0, .permeate, .tick 500, .due, .work 1000 510 true 0, .tick 500, .due], by decide, by decide, by decide, by decide, by decide⟩

/-! ## Examples -/

/-- A PT, and an execution from start to stop: association, steady state with two calls, stop request while a packet waits, dissociation -/
def exCfg : Cfg := ⟨.pt, 32, 8, 100, 500⟩

def exEvs : List Ev :=
  [.start 0, .permeate, .tick 120, .due, .work 300 125 true 0, .tick 200, .due, .work 500 325 true 3, .packet, .stop, .check, .tick 200, .due,
    .work 0 530 true 2, .work 700 535 true 0, .tick 200, .due, .work 0 0 true 0, .check, .close, .close, .close]

def exEnd : St := ⟨true, .nop, true, [], [], false, .done, true, 720, 5⟩

def exCycle : Nat → Ev
  | 0 => .tick 1
  | 1 => .due
  | 2 => .work 0 0 true 0
  | 3 => .check
  | _ => .close

def exEv (n : Nat) : Ev := if n < 22 then exEvs.getD n .due else exCycle ((n - 22) % 5)

def exSt : Nat → St
  | 0 => St.init
  | n + 1 => match step exCfg (exSt n) (exEv n) with
    | .ok s => s
    | _ => exSt n

theorem exSt_end : ∀ d, exSt (22 + d) = { exEnd with now := 720 + ((d + 4) / 5 : Nat) } := by
  intro d
  induction d with
  | zero => decide
  | succ d ih =>
    rw [show 22 + (d + 1) = (22 + d) + 1 by omega, exSt, ih]
    have e : exEv (22 + d) = exCycle (d % 5) := by simp [exEv]
    rw [e]
    have lt : d % 5 < 5 := Nat.mod_lt _ (by omega)
    rcases h : d % 5 with _ | _ | _ | _ | _ | x
    · have : (d + 1 + 4) / 5 = (d + 4) / 5 + 1 := by omega
      rw [this]
      simp [exCycle, step, exEnd]
      omega
    · have : (d + 1 + 4) / 5 = (d + 4) / 5 := by omega
      rw [this]
      simp [exCycle, step, exEnd, Stop.due, earliest]
    · have : (d + 1 + 4) / 5 = (d + 4) / 5 := by omega
      rw [this]
      simp [exCycle, step, exEnd, Stop.work]
    · have : (d + 1 + 4) / 5 = (d + 4) / 5 := by omega
      rw [this]
      simp [exCycle, step, exEnd]
    · have : (d + 1 + 4) / 5 = (d + 4) / 5 := by omega
      rw [this]
      simp [exCycle, step, exEnd, Stop.close]
    · omega

/-- The execution is fair -/
theorem C75_fair_example : Fair exCfg exSt exEv where
  init := rfl
  next := by
    intro n
    by_cases h : n < 22
    · interval_cases n <;> decide
    · obtain ⟨d, rfl⟩ : ∃ d, n = 22 + d := ⟨n - 22, by omega⟩
      have e : exEv (22 + d) = exCycle (d % 5) := by simp [exEv]
      have ok : ∃ s, step exCfg (exSt (22 + d)) (exEv (22 + d)) = .ok s := by
        rw [e, exSt_end]
        have lt : d % 5 < 5 := Nat.mod_lt _ (by omega)
        rcases h : d % 5 with _ | _ | _ | _ | _ | x
        · exact ⟨_, rfl⟩
        · exact ⟨_, rfl⟩
        · exact ⟨_, rfl⟩
        · exact ⟨_, rfl⟩
        · exact ⟨_, rfl⟩
        · omega
      obtain ⟨s, hs⟩ := ok
      rw [hs, exSt, hs]
  start := ⟨0, 0, rfl⟩
  permeate := ⟨1, by decide, rfl⟩
  time := by
    intro t n
    refine ⟨22 + (n + 5 * t.toNat), by omega, ?_⟩
    rw [exSt_end]
    simp only
    omega
  due := fun n => ⟨22 + (5 * n + 1), by omega, by simp [exEv, show (5 * n + 1) % 5 = 1 by omega, exCycle]⟩
  work := fun n => ⟨22 + (5 * n + 2), 0, 0, true, 0, by omega, by simp [exEv, show (5 * n + 2) % 5 = 2 by omega, exCycle]⟩
  check := fun n => ⟨22 + (5 * n + 3), by omega, by simp [exEv, show (5 * n + 3) % 5 = 3 by omega, exCycle]⟩
  close := fun n => ⟨22 + (5 * n + 4), by omega, by simp [exEv, show (5 * n + 4) % 5 = 4 by omega, exCycle]⟩

/-- It contains a stop request in steady state, so it ends -/
example : ∃ k, (exSt k).main = .done ∧ (exSt k).fw = .nop := C75_stop exCfg exSt exEv C75_fair_example 9 rfl

/-- The state at the stop request, with a call outstanding; two calls follow, and five packets have been sent -/
theorem C75_run_example : ∃ s s', run exCfg St.init (exEvs.take 10) = .ok s ∧ s.fw = .steady ∧ s.shutting = true ∧ (outstanding s).length = 1 ∧
    run exCfg s (exEvs.drop 10) = .ok s' ∧ s'.main = .done ∧ s'.tx = 5 ∧ calls exCfg s (exEvs.drop 10) = 2 :=
  ⟨⟨true, .steady, true, [⟨500, 0⟩], [.other], true, .checking, false, 320, 3⟩, exEnd, by decide, by decide, by decide, by decide, by decide, by decide,
    by decide, by decide⟩

end Verif.P2p.Stop
