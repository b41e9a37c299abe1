import Verif.Lemma.P2pStop

/-! # Progress of the stop of a point-to-point device -/

namespace Verif.P2p.Stop

/-- Irregular calls left until the end when shutting down -/
def left : Fw → Nat
  | .first | .steady => 2
  | .diss => 1
  | .nop => 0

def mrank : Main → Nat
  | .running | .sleeping | .checking => 0
  | .passed => 1
  | .closed => 2
  | .serverStopped => 3
  | .done => 4

/-- What a step does: it is an irregular call, or the state of the firmware stays and the queues change by at most one entry -/
inductive Kept (s : St) (e : Ev) (s' : St) : Prop
  | same (w : ∀ next rx b n, e ≠ .work next rx b n) (irr : s'.irr = s.irr) (l : List Job) (h : s'.jobs = s.jobs ++ l)
  | work (next rx : Int) (b : Bool) (n : Nat) (w : e = .work next rx b n) (irr : s'.irr = s.irr) (h : s'.jobs = s.jobs.tail)
  | moved (w : e = .due) (r : Report) (irr : s.irr = [r]) (irr' : s'.irr = []) (d : r.time ≤ s.now) (h : s'.jobs = s.jobs ++ [.irr r s.now])

theorem start_cases {c : Cfg} {s s' : St} {t0 : Int} (h : step c s (.start t0) = .ok s') :
    s' = s ∨ (s.started = false ∧ s' = { s with started := true, now := t0, irr := entryFirst c t0 :: s.irr }) := by
  simp only [step, start] at h
  split at h
  · cases h; exact Or.inl rfl
  · next st =>
    simp [push, Res.bind_eq_ok, Res.assert_eq_ok] at h
    exact Or.inr ⟨by simpa using st, h.2.2.symm⟩

/-- A step of a started device -/
theorem step_cases {c : Cfg} {s s' : St} {e : Ev} (i : Inv c s) (st : s.started = true) (h : step c s e = .ok s') :
    (∃ r t js next rx b n, e = .work next rx b n ∧ s.jobs = .irr r t :: js ∧ Call c s js next rx n s') ∨
    (s'.fw = s.fw ∧ s'.released = s.released ∧ Kept s e s') := by
  cases e with
  | start t0 =>
    rcases start_cases h with rfl | ⟨x, _⟩
    · exact Or.inr ⟨rfl, rfl, .same (by simp) rfl [] (by simp)⟩
    · rw [st] at x; cases x
  | permeate =>
    simp only [step] at h
    split at h <;> cases h <;> exact Or.inr ⟨rfl, rfl, .same (by simp) rfl [] (by simp)⟩
  | tick n =>
    simp only [step] at h
    cases h
    exact Or.inr ⟨rfl, rfl, .same (by simp) rfl [] (by simp)⟩
  | due =>
    rcases due_cases i h with rfl | ⟨r, h1, h2, rfl⟩
    · exact Or.inr ⟨rfl, rfl, .same (by simp) rfl [] (by simp)⟩
    · exact Or.inr ⟨rfl, rfl, .moved rfl r h1 rfl h2 rfl⟩
  | packet =>
    rcases enqueue_other h with rfl | ⟨_, rfl⟩
    · exact Or.inr ⟨rfl, rfl, .same (by simp) rfl [] (by simp)⟩
    · exact Or.inr ⟨rfl, rfl, .same (by simp) rfl [.other] rfl⟩
  | work next rx b n =>
    rcases hj : s.jobs with _ | ⟨j, js⟩
    · simp only [step, work, hj] at h
      cases h
      exact Or.inr ⟨rfl, rfl, .work next rx b n rfl rfl (by simp [hj])⟩
    · cases j with
      | other =>
        simp only [step, work, hj] at h
        cases h
        refine Or.inr ?_
        unfold workOther
        split
        · exact ⟨rfl, rfl, .work next rx b n rfl rfl (by simp [hj])⟩
        · exact ⟨rfl, rfl, .work next rx b n rfl rfl (by simp [hj])⟩
      | irr r t => exact Or.inl ⟨r, t, js, next, rx, b, n, rfl, rfl, (call_cases i st hj h).2.2.2⟩
  | stop =>
    simp only [step] at h
    cases h
    split <;> exact Or.inr ⟨rfl, rfl, .same (by simp) rfl [] (by simp)⟩
  | check =>
    simp only [step] at h
    cases h
    split <;> exact Or.inr ⟨rfl, rfl, .same (by simp) rfl [] (by simp)⟩
  | spurious =>
    simp only [step] at h
    cases h
    split <;> exact Or.inr ⟨rfl, rfl, .same (by simp) rfl [] (by simp)⟩
  | close =>
    simp only [step] at h
    cases h
    unfold close
    split <;> exact Or.inr ⟨rfl, rfl, .same (by simp) rfl [] (by simp)⟩

/-- Facts that stay -/
theorem step_mono {c : Cfg} {s s' : St} {e : Ev} (i : Inv c s) (h : step c s e = .ok s') :
    s.fw.rank ≤ s'.fw.rank ∧ (2 ≤ s.fw.rank → s'.tx = s.tx) ∧ (s.shutting = true → s'.shutting = true) ∧
    (s.started = true → s'.started = true ∧ s.now ≤ s'.now) ∧
    (s.permeable = true ∨ s.released = true → s'.permeable = true ∨ s'.released = true) ∧
    (s.released = true → s.main ≠ .running → mrank s.main ≤ mrank s'.main) := by
  cases e with
  | start t0 =>
    rcases start_cases h with rfl | ⟨x, rfl⟩
    · simp
    · simp [x]
  | permeate =>
    simp only [step] at h
    split at h <;> cases h <;> simp
  | tick n =>
    simp only [step] at h
    cases h
    simp
  | due =>
    rcases due_cases i h with rfl | ⟨r, h1, h2, rfl⟩ <;> simp
  | packet =>
    rcases enqueue_other h with rfl | ⟨_, rfl⟩ <;> simp
  | work next rx b n =>
    rcases hj : s.jobs with _ | ⟨j, js⟩
    · simp only [step, work, hj] at h
      cases h; simp
    · cases j with
      | other =>
        simp only [step, work, hj] at h
        cases h
        unfold workOther
        split
        · next f =>
          dsimp only at f
          simp [f, Fw.rank]
        · simp
      | irr r t =>
        have st : s.started = true := by
          by_contra st
          have := (i.unstarted (by simpa using st)).2.2
          simp [outstanding_eq, hj] at this
        obtain ⟨h1, h2, _, k⟩ := call_cases i st hj h
        cases k with
        | first f m e => subst e; simp [f, Fw.rank]
        | steady f m e => subst e; simp [f, Fw.rank]
        | stop f m e => subst e; rcases f with f | f <;> simp [f, Fw.rank]
        | diss f e =>
          subst e
          simp only [f, Fw.rank]
          refine ⟨by omega, by simp, by simp, by simp, by simp, ?_⟩
          intro _ _
          split
          · next m => simp [m, mrank]
          · simp
  | stop =>
    simp only [step] at h
    cases h
    split
    · next m => simp [m]
    · simp
  | check =>
    simp only [step] at h
    cases h
    split
    · next m => simp [m, mrank]
    · simp
  | spurious =>
    simp only [step] at h
    cases h
    split
    · next m => simp [m, mrank]
    · simp
  | close =>
    simp only [step] at h
    cases h
    unfold close
    split
    · next m =>
      have r := i.past (by simp [m, Main.past])
      simp [m, mrank, r]
    · next m => simp [m, mrank]
    · next m => simp [m, mrank]
    · simp

theorem isCall_cases (e : Ev) (js : List Job) :
    isCall e js = 0 ∨ (isCall e js = 1 ∧ ∃ next rx b n r t l, e = .work next rx b n ∧ js = .irr r t :: l) := by
  unfold isCall
  split
  · exact Or.inr ⟨rfl, _, _, _, _, _, _, _, rfl, rfl⟩
  · exact Or.inl rfl

/-- A call of a device shutting down brings it one state further, nothing else does -/
theorem step_left {c : Cfg} {s s' : St} {e : Ev} (i : Inv c s) (m : s.shutting = true) (h : step c s e = .ok s') :
    isCall e s.jobs + left s'.fw = left s.fw := by
  by_cases st : s.started = true
  · rcases step_cases i st h with ⟨r, t, js, next, rx, b, n, rfl, hj, k⟩ | ⟨f, _, k⟩
    · rw [hj]
      simp only [isCall]
      cases k with
      | first f m' e => rw [m] at m'; cases m'
      | steady f m' e => rw [m] at m'; cases m'
      | stop f m' e => subst e; rcases f with f | f <;> simp [f, left]
      | diss f e => subst e; simp [f, left]
    · rw [f]
      rcases isCall_cases e s.jobs with z | ⟨-, next, rx, b, n, r, t, js, rfl, hj⟩
      · simp [z]
      · exfalso
        have o := (call_cases i st hj h)
        obtain ⟨-, -, -, k⟩ := o
        cases k with
        | first f m' e => rw [m] at m'; cases m'
        | steady f m' e => rw [m] at m'; cases m'
        | stop f' m' e => subst e; rcases f' with f' | f' <;> simp [f'] at f
        | diss f' e => subst e; simp [f'] at f
  · obtain ⟨a1, a2, a3⟩ := i.unstarted (by simpa using st)
    have nj : irrs s.jobs = [] := by
      rw [outstanding_eq] at a3; exact (List.append_eq_nil_iff.1 a3).2
    have hf : s'.fw = s.fw := by
      cases e with
      | start t0 => rcases start_cases h with rfl | ⟨x, rfl⟩ <;> rfl
      | permeate => simp only [step] at h; split at h <;> cases h <;> rfl
      | tick n => simp only [step] at h; cases h; rfl
      | due => rcases due_cases i h with rfl | ⟨r, h1, h2, rfl⟩ <;> rfl
      | packet => rcases enqueue_other h with rfl | ⟨_, rfl⟩ <;> rfl
      | work next rx b n =>
        rcases hj : s.jobs with _ | ⟨j, js⟩
        · simp only [step, work, hj] at h; cases h; rfl
        · cases j with
          | other => simp only [step, work, hj] at h; cases h; unfold workOther; split <;> rfl
          | irr r t => simp [hj] at nj
      | stop => simp only [step] at h; cases h; split <;> rfl
      | check => simp only [step] at h; cases h; split <;> rfl
      | spurious => simp only [step] at h; cases h; split <;> rfl
      | close => simp only [step] at h; cases h; unfold close; split <;> rfl
    rw [hf]
    rcases isCall_cases e s.jobs with z | ⟨-, next, rx, b, n, r, t, js, rfl, hj⟩
    · simp [z]
    · simp [hj] at nj

theorem calls_left {c : Cfg} {es : List Ev} : ∀ {s s' : St}, Inv c s → s.shutting = true → run c s es = .ok s' →
    calls c s es + left s'.fw = left s.fw := by
  induction es with
  | nil => intro s s' _ _ h; simp only [run] at h; cases h; simp [calls]
  | cons e es ih =>
    intro s s' i m h
    simp only [run, Res.bind_eq_ok] at h
    obtain ⟨s1, h1, h2⟩ := h
    have a := step_left i m h1
    have b := ih (inv_step i h1) ((step_mono i h1).2.2.1 m) h2
    simp only [calls, h1]
    omega

section
variable {c : Cfg} {s : Nat → St} {e : Nat → Ev}

theorem Fair.inv (f : Fair c s e) : ∀ n, Inv c (s n) := by
  intro n
  induction n with
  | zero => rw [f.init]; exact inv_init c
  | succ n ih => exact inv_step ih (f.next n)

theorem Fair.mono (f : Fair c s e) {n m : Nat} (h : n ≤ m) :
    (s n).fw.rank ≤ (s m).fw.rank ∧ ((s n).shutting = true → (s m).shutting = true) ∧
    ((s n).started = true → (s m).started = true ∧ (s n).now ≤ (s m).now) ∧
    ((s n).permeable = true ∨ (s n).released = true → (s m).permeable = true ∨ (s m).released = true) := by
  induction m, h using Nat.le_induction with
  | base => simp
  | succ m _ ih =>
    obtain ⟨a1, a2, a3, a4⟩ := ih
    obtain ⟨b1, _, b2, b3, b4, _⟩ := step_mono (f.inv m) (f.next m)
    refine ⟨by omega, fun x => b2 (a2 x), fun x => ?_, fun x => b4 (a4 x)⟩
    obtain ⟨x1, x2⟩ := a3 x
    obtain ⟨x3, x4⟩ := b3 x1
    exact ⟨x3, by omega⟩

theorem rank_inj {a b : Fw} (h : a.rank = b.rank) : a = b := by
  cases a <;> cases b <;> simp_all [Fw.rank]

/-- A call in a device shutting down changes its state -/
theorem call_ne {s s' : St} {js : List Job} {next rx : Int} {n : Nat} (m : s.shutting = true) (k : Call c s js next rx n s') :
    s'.fw ≠ s.fw := by
  cases k with
  | first f m' e => rw [m] at m'; cases m'
  | steady f m' e => rw [m] at m'; cases m'
  | stop f' m' e => subst e; rcases f' with f' | f' <;> simp [f']
  | diss f' e => subst e; simp [f']

/-- Jobs before the irregular one get processed -/
theorem Fair.queue (f : Fair c s e) {n : Nat} (st : (s n).started = true) (m : (s n).shutting = true)
    (same : ∀ k, n ≤ k → (s k).fw = (s n).fw) : ∀ (p k : Nat), n ≤ k → ∀ a r t b, (s k).jobs = a ++ .irr r t :: b → a.length = p → False := by
  -- the jobs at the next `work`
  have wait : ∀ d k, n ≤ k → ∀ js, js <+: (s k).jobs →
      (∀ i, k ≤ i → i < k + d → ∀ next rx b n, e i ≠ .work next rx b n) → js <+: (s (k + d)).jobs := by
    intro d
    induction d with
    | zero => intro k _ js h _; exact h
    | succ d ih =>
      intro k hk js h nw
      have h1 := ih k hk js h (fun i a b => nw i a (by omega))
      have hs := (f.mono (show n ≤ k + d by omega)).2.2.1 st
      rcases step_cases (f.inv (k + d)) hs.1 (f.next (k + d)) with ⟨r, t, js', next, rx, b, q, w, _, _⟩ | ⟨_, _, kk⟩
      · exact absurd w (nw (k + d) (by omega) (by omega) _ _ _ _)
      · cases kk with
        | same w irr l hl => rw [← Nat.add_assoc, hl]; exact h1.trans (List.prefix_append _ _)
        | work next rx b q w irr hl => exact absurd w (nw (k + d) (by omega) (by omega) _ _ _ _)
        | moved w r i1 i2 dd hl => rw [← Nat.add_assoc, hl]; exact h1.trans (List.prefix_append _ _)
  intro p
  induction p with
  | zero =>
    intro k hk a r t b hj ha
    obtain rfl : a = [] := List.length_eq_zero_iff.1 ha
    classical
    have ex : ∃ i, k ≤ i ∧ ∃ next rx b q, e i = .work next rx b q := by
      obtain ⟨i, next, rx, b, q, h1, h2⟩ := f.work k
      exact ⟨i, h1, next, rx, b, q, h2⟩
    obtain ⟨h1, next, rx, b', q, h2⟩ := Nat.find_spec ex
    have hmin := fun i (h : i < Nat.find ex) => Nat.find_min ex h
    generalize Nat.find ex = i at *
    have hp := wait (i - k) k hk [.irr r t] (by rw [hj]; exact ⟨b, rfl⟩) (by
      intro j a1 a2 next rx b q h
      exact hmin j (by omega) ⟨a1, next, rx, b, q, h⟩)
    rw [show k + (i - k) = i by omega] at hp
    obtain ⟨l, hl⟩ := hp
    have hs := (f.mono (show n ≤ i by omega)).2.2.1 st
    have hx := f.next i
    rw [h2] at hx
    have kk := (call_cases (f.inv i) hs.1 (show (s i).jobs = .irr r t :: l from hl.symm) hx).2.2.2
    have := call_ne ((f.mono (show n ≤ i by omega)).2.1 m) kk
    rw [same (i + 1) (by omega), same i (by omega)] at this
    exact this rfl
  | succ p ih =>
    intro k hk a r t b hj ha
    rcases a with _ | ⟨x, a⟩
    · simp at ha
    classical
    have ex : ∃ i, k ≤ i ∧ ∃ next rx b q, e i = .work next rx b q := by
      obtain ⟨i, next, rx, b, q, h1, h2⟩ := f.work k
      exact ⟨i, h1, next, rx, b, q, h2⟩
    obtain ⟨h1, next, rx, b', q, h2⟩ := Nat.find_spec ex
    have hmin := fun i (h : i < Nat.find ex) => Nat.find_min ex h
    generalize Nat.find ex = i at *
    have hp := wait (i - k) k hk (x :: a ++ [.irr r t]) (by rw [hj]; exact ⟨b, by simp⟩) (by
      intro j a1 a2 next rx b q h
      exact hmin j (by omega) ⟨a1, next, rx, b, q, h⟩)
    rw [show k + (i - k) = i by omega] at hp
    obtain ⟨l, hl⟩ := hp
    have hs := (f.mono (show n ≤ i by omega)).2.2.1 st
    rcases step_cases (f.inv i) hs.1 (f.next i) with ⟨r', t', js', _, _, _, _, _, _, kk⟩ | ⟨_, _, kk⟩
    · have := call_ne ((f.mono (show n ≤ i by omega)).2.1 m) kk
      rw [same (i + 1) (by omega), same i (by omega)] at this
      exact this rfl
    · have ht : (s (i + 1)).jobs = (s i).jobs.tail := by
        cases kk with
        | same w irr l hl => exact absurd h2 (w _ _ _ _)
        | work next rx b q w irr hl => exact hl
        | moved w r i1 i2 dd hl => rw [h2] at w; cases w
      refine ih (i + 1) (by omega) a r t l ?_ (by simpa using ha)
      rw [ht, ← hl]
      simp

theorem irrs_split : ∀ {js : List Job} {r : Report}, r ∈ irrs js → ∃ a t b, js = a ++ .irr r t :: b
  | [], r, h => by simp at h
  | .other :: js, r, h => by
    obtain ⟨a, t, b, rfl⟩ := irrs_split (js := js) (by simpa using h)
    exact ⟨.other :: a, t, b, rfl⟩
  | .irr q t :: js, r, h => by
    simp only [irrs_irr, List.mem_cons] at h
    rcases h with rfl | h
    · exact ⟨[], t, js, rfl⟩
    · obtain ⟨a, t', b, rfl⟩ := irrs_split h
      exact ⟨.irr q t :: a, t', b, rfl⟩

/-- A device shutting down leaves each state but the last one -/
theorem Fair.advance (f : Fair c s e) {n : Nat} (st : (s n).started = true) (m : (s n).shutting = true)
    (pm : (s n).permeable = true ∨ (s n).released = true) (nop : (s n).fw ≠ .nop) : ∃ k, n ≤ k ∧ (s n).fw.rank < (s k).fw.rank := by
  by_contra hc
  push Not at hc
  have same : ∀ k, n ≤ k → (s k).fw = (s n).fw := fun k hk => rank_inj (by have := hc k hk; have := (f.mono hk).1; omega)
  have noq : ∀ k, n ≤ k → irrs (s k).jobs = [] := by
    intro k hk
    by_contra h
    obtain ⟨r, hr⟩ := List.exists_mem_of_ne_nil _ h
    obtain ⟨a, t, b, hj⟩ := irrs_split hr
    exact f.queue st m same a.length k hk a r t b hj rfl
  obtain ⟨r, o, -⟩ := (f.inv n).chain st nop
  have hr : (s n).irr = [r] := by
    rcases single o with ⟨h, _⟩ | ⟨_, h⟩
    · exact h
    · rw [noq n (by omega)] at h; cases h
  have stay : ∀ k, n ≤ k → (s k).irr = [r] := by
    intro k hk
    induction k, hk using Nat.le_induction with
    | base => exact hr
    | succ k hk ih =>
      have hs := (f.mono hk).2.2.1 st
      rcases step_cases (f.inv k) hs.1 (f.next k) with ⟨r', t', js', _, _, _, _, _, hj, _⟩ | ⟨_, _, kk⟩
      · have := noq k hk
        rw [hj] at this; simp at this
      · cases kk with
        | same w irr l hl => rw [irr, ih]
        | work next rx b q w irr hl => rw [irr, ih]
        | moved w r i1 i2 dd hl =>
          have := noq (k + 1) (by omega)
          rw [hl] at this; simp at this
  obtain ⟨k1, hk1, ht⟩ := f.time r.time n
  obtain ⟨k, hk, hd⟩ := f.due k1
  have hs1 := (f.mono hk1).2.2.1 st
  have hs := (f.mono hk).2.2.1 hs1.1
  have hp := (f.mono (show n ≤ k by omega)).2.2.2 pm
  have hx := f.next k
  rw [hd] at hx
  have en : ((s k).permeable || decide ((s k).released = true)) = true := by
    rcases hp with h | h <;> simp [h]
  rw [step, if_pos en, Stop.due, stay k (by omega)] at hx
  simp only [earliest] at hx
  rw [if_neg (by omega), decide_eq_true (by omega), Res.assert_true, Res.ok_bind] at hx
  have rel : (s k).released = false := by
    by_contra h
    have h2 := (f.inv k).released.1 (by simpa using h)
    rw [same k (by omega)] at h2
    exact nop h2
  have perm : (s k).permeable = true := by simpa [rel] using hp
  unfold enqueue at hx
  simp [perm, Res.bind_eq_ok, Res.assert_eq_ok] at hx
  have := noq (k + 1) (by omega)
  rw [← hx.2] at this
  simp at this

/-- The last state is reached -/
theorem Fair.reach_nop (f : Fair c s e) : ∀ (d n : Nat), (s n).started = true → (s n).shutting = true →
    ((s n).permeable = true ∨ (s n).released = true) → 3 - (s n).fw.rank ≤ d → ∃ k, n ≤ k ∧ (s k).fw = .nop := by
  intro d
  induction d with
  | zero =>
    intro n _ _ _ h
    exact ⟨n, le_rfl, by cases hh : (s n).fw <;> simp [hh, Fw.rank] at h ⊢⟩
  | succ d ih =>
    intro n st m pm h
    by_cases nop : (s n).fw = .nop
    · exact ⟨n, le_rfl, nop⟩
    · obtain ⟨k, hk, hr⟩ := f.advance st m pm nop
      obtain ⟨a1, a2, a3, a4⟩ := f.mono hk
      obtain ⟨j, hj, hn⟩ := ih k (a3 st).1 (a2 m) (a4 pm) (by omega)
      exact ⟨j, by omega, hn⟩

/-- The main thread goes on once released -/
theorem Fair.main_mono (f : Fair c s e) {n : Nat} (nop : (s n).fw = .nop) {k : Nat} (hk : n ≤ k) :
    (s k).fw = .nop ∧ (s k).released = true ∧ (s k).main ≠ .running ∧ (s k).main ≠ .sleeping ∧ mrank (s n).main ≤ mrank (s k).main := by
  have nk : ∀ k, n ≤ k → (s k).fw = .nop := by
    intro k hk
    have := (f.mono hk).1
    rw [nop] at this
    cases hh : (s k).fw <;> simp [hh, Fw.rank] at this ⊢
  have facts : ∀ k, n ≤ k → (s k).released = true ∧ (s k).main ≠ .running ∧ (s k).main ≠ .sleeping := by
    intro k hk
    have rel := (f.inv k).released.2 (nk k hk)
    refine ⟨rel, ?_, ?_⟩
    · intro h
      have h1 := (f.inv k).running.2 h
      have h2 := (f.inv k).late (Or.inr (nk k hk))
      rw [h1] at h2; cases h2
    · intro h
      have h1 := (f.inv k).sleeping h
      rw [h1] at rel; cases rel
  refine ⟨nk k hk, (facts k hk).1, (facts k hk).2.1, (facts k hk).2.2, ?_⟩
  induction k, hk using Nat.le_induction with
  | base => exact le_rfl
  | succ k hk ih =>
    obtain ⟨h1, h2, _⟩ := facts k hk
    have := (step_mono (f.inv k) (f.next k)).2.2.2.2.2 h1 h2
    omega

theorem Fair.main_done (f : Fair c s e) {n : Nat} (nop : (s n).fw = .nop) :
    ∀ (d k : Nat), n ≤ k → 4 - mrank (s k).main ≤ d → ∃ j, k ≤ j ∧ (s j).main = .done := by
  intro d
  induction d with
  | zero =>
    intro k _ h
    exact ⟨k, le_rfl, by cases hh : (s k).main <;> simp [hh, mrank] at h ⊢⟩
  | succ d ih =>
    intro k hk h
    have nk := (f.main_mono nop hk).1
    obtain ⟨i1, hi1, e1⟩ := f.check k
    obtain ⟨i2, hi2, e2⟩ := f.close (i1 + 1)
    -- after the check the thread is past the wait
    have p1 : 1 ≤ mrank (s (i1 + 1)).main := by
      obtain ⟨_, h2, h3, h4, _⟩ := f.main_mono nop (show n ≤ i1 by omega)
      have hx := f.next i1
      rw [e1] at hx
      simp only [step] at hx
      cases hh : (s i1).main <;> simp [hh, h2] at hx h3 h4 <;> rw [← hx] <;> simp [mrank, hh]
    have q1 := (f.main_mono nk (show k ≤ i1 + 1 by omega)).2.2.2.2
    have q2 := (f.main_mono (f.main_mono nop (show n ≤ i1 + 1 by omega)).1 (show i1 + 1 ≤ i2 by omega)).2.2.2.2
    have q3 : mrank (s i2).main < 4 → mrank (s (i2 + 1)).main = mrank (s i2).main + 1 := by
      intro lt
      have hx := f.next i2
      rw [e2] at hx
      simp only [step, Res.ok.injEq] at hx
      rw [← hx]
      have q4 : 1 ≤ mrank (s i2).main := by omega
      clear q1 q2 p1 h ih
      cases hh : (s i2).main <;> simp [hh, mrank] at lt q4 <;> simp [Stop.close, hh, mrank]
    by_cases lt : mrank (s i2).main < 4
    · obtain ⟨j, hj, hd⟩ := ih (i2 + 1) (by omega) (by rw [q3 lt]; omega)
      exact ⟨j, by omega, hd⟩
    · exact ⟨i2, by omega, by cases hh : (s i2).main <;> simp [hh, mrank] at lt ⊢⟩

end

end Verif.P2p.Stop
