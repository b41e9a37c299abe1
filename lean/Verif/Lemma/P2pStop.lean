import Verif.Spec.P2pStop

/-! # Invariant of the life of a point-to-point device -/

namespace Verif.P2p.Stop

/-- Handle of the outstanding report of a state -/
def Good (c : Cfg) (f : Fw) (r : Report) : Prop :=
  match f with
  | .first => r.handle = handleFirst c.kind
  | .steady => r.handle = 0
  | .diss => r.handle = handleDiss c.kind
  | .nop => False

/-- Irregular jobs of the queue -/
def irrs (js : List Job) : List Report :=
  js.filterMap fun j => match j with
    | .irr r _ => some r
    | .other => none

theorem outstanding_eq (s : St) : outstanding s = s.irr ++ irrs s.jobs := rfl

@[simp] theorem irrs_nil : irrs [] = [] := rfl
@[simp] theorem irrs_irr (r t js) : irrs (.irr r t :: js) = r :: irrs js := rfl
@[simp] theorem irrs_other (js) : irrs (.other :: js) = irrs js := rfl
@[simp] theorem irrs_append (a b) : irrs (a ++ b) = irrs a ++ irrs b := by simp [irrs]

structure Inv (c : Cfg) (s : St) : Prop where
  unstarted : s.started = false → s.fw = .first ∧ s.permeable = false ∧ outstanding s = []
  chain : s.started = true → s.fw ≠ .nop → ∃ r, outstanding s = [r] ∧ Good c s.fw r
  nop : s.fw = .nop → outstanding s = []
  released : s.released = true ↔ s.fw = .nop
  running : s.shutting = false ↔ s.main = .running
  late : s.fw = .diss ∨ s.fw = .nop → s.shutting = true
  past : s.main.past → s.released = true
  sleeping : s.main = .sleeping → s.released = false
  recog : ∀ r t, Job.irr r t ∈ s.jobs → r.time ≤ t

theorem inv_init (c : Cfg) : Inv c St.init := by
  constructor <;> simp [St.init, outstanding, Main.past]

/-- What a step with the job queue does to the outstanding reports -/
theorem enqueue_other {c : Cfg} {s s' : St} (e : enqueue c s .other = .ok s') :
    s' = s ∨ (s.permeable = true ∧ s' = { s with jobs := s.jobs ++ [.other] }) := by
  unfold enqueue at e
  split at e
  · cases e; exact Or.inl rfl
  · next h =>
    simp only [Res.bind_eq_ok, Res.assert_eq_ok, decide_eq_true_eq, exists_and_left, exists_const, Res.ok.injEq] at e
    exact Or.inr ⟨by simpa using h, e.2.symm⟩

theorem inv_other {c : Cfg} {s : St} (i : Inv c s) : Inv c { s with jobs := s.jobs ++ [.other] } := by
  have o : outstanding { s with jobs := s.jobs ++ [.other] } = outstanding s := by simp [outstanding_eq]
  obtain ⟨a, b, n, d, f, g, h, k, l⟩ := i
  refine ⟨?_, ?_, ?_, d, f, g, h, k, ?_⟩
  · rw [o]; exact a
  · rw [o]; exact b
  · rw [o]; exact n
  · intro r t m
    exact l r t (by simpa using m)

/-- The single outstanding report is not yet due, or in the queue -/
theorem single {s : St} {r : Report} (o : outstanding s = [r]) :
    (s.irr = [r] ∧ irrs s.jobs = []) ∨ (s.irr = [] ∧ irrs s.jobs = [r]) := by
  rw [outstanding_eq] at o
  rcases h : s.irr with _ | ⟨q, l⟩
  · rw [h] at o; exact Or.inr ⟨rfl, by simpa using o⟩
  · rw [h] at o
    simp only [List.cons_append, List.cons.injEq, List.append_eq_nil_iff] at o
    exact Or.inl ⟨by rw [o.1, o.2.1], o.2.2⟩

theorem due_cases {c : Cfg} {s s' : St} (i : Inv c s) (e : step c s .due = .ok s') :
    s' = s ∨ ∃ r, s.irr = [r] ∧ r.time ≤ s.now ∧ s' = { s with irr := [], jobs := s.jobs ++ [.irr r s.now] } := by
  simp only [step] at e
  split at e
  · next en =>
    by_cases st : s.started = true
    · by_cases nop : s.fw = .nop
      · have := i.nop nop
        rw [outstanding_eq] at this
        have h : s.irr = [] := (List.append_eq_nil_iff.1 this).1
        simp [due, h, earliest] at e
        exact Or.inl e.symm
      · obtain ⟨r, o, _⟩ := i.chain st nop
        rcases single o with ⟨h, _⟩ | ⟨h, _⟩
        · have rel : s.released ≠ true := fun x => nop (i.released.1 x)
          have pm : s.permeable = true := by simpa [rel] using en
          simp only [due, h, earliest] at e
          split at e
          · cases e; exact Or.inl rfl
          · next le =>
            rw [decide_eq_true (by omega), Res.assert_true, Res.ok_bind] at e
            unfold enqueue at e
            simp only [pm, Bool.not_true, Bool.false_eq_true, if_false, Res.bind_eq_ok, Res.assert_eq_ok, decide_eq_true_eq, exists_and_left,
              exists_const, Res.ok.injEq] at e
            refine Or.inr ⟨r, h, by omega, ?_⟩
            rw [← e.2]
            simp [pm]
        · simp [due, h, earliest] at e
          exact Or.inl e.symm
    · have := (i.unstarted (by simpa using st)).2.2
      rw [outstanding_eq] at this
      have h : s.irr = [] := (List.append_eq_nil_iff.1 this).1
      simp [due, h, earliest] at e
      exact Or.inl e.symm
  · cases e; exact Or.inl rfl

/-- What happens in an irregular call -/
inductive Call (c : Cfg) (s : St) (js : List Job) (next rx : Int) (n : Nat) (s' : St) : Prop
  | first (f : s.fw = .first) (m : s.shutting = false) (e : s' = { s with jobs := js, fw := .steady, irr := [⟨next, 0⟩] })
  | steady (f : s.fw = .steady) (m : s.shutting = false) (e : s' = { s with jobs := js, irr := [⟨next, 0⟩], tx := s.tx + n })
  | stop (f : s.fw = .first ∨ s.fw = .steady) (m : s.shutting = true)
      (e : s' = { s with jobs := js, fw := .diss, irr := [⟨rx + c.ms100, handleDiss c.kind⟩] })
  | diss (f : s.fw = .diss)
      (e : s' = { s with jobs := js, fw := .nop, released := true, main := if s.main = .sleeping then .checking else s.main })

theorem bool_cases (b : Bool) : b = true ∨ b = false := by cases b <;> simp

theorem call_cases {c : Cfg} {s s' : St} {r : Report} {t next rx : Int} {b : Bool} {n : Nat} {js : List Job} (i : Inv c s)
    (st : s.started = true) (j : s.jobs = .irr r t :: js) (e : step c s (.work next rx b n) = .ok s') :
    s.irr = [] ∧ irrs js = [] ∧ Good c s.fw r ∧ Call c s js next rx n s' := by
  have nop : s.fw ≠ .nop := by
    intro h
    have := i.nop h
    simp [outstanding_eq, j] at this
  obtain ⟨q, o, g⟩ := i.chain st nop
  have o' : s.irr = [] ∧ irrs js = [] ∧ r = q := by
    rcases single o with ⟨_, h⟩ | ⟨h1, h⟩
    · simp [j] at h
    · simp [j] at h; exact ⟨h1, h.2, h.1⟩
  obtain ⟨h1, h2, rfl⟩ := o'
  refine ⟨h1, h2, g, ?_⟩
  simp only [step, work, j] at e
  cases f : s.fw with
  | first =>
    rcases bool_cases s.shutting with m | m
    · simp [workIrregular, workFirst, transitions, entryDiss, f, m, pushIf, push, Res.bind_eq_ok, Res.assert_eq_ok, h1] at e
      exact .stop (Or.inl f) m (by rw [← e.2.2]; simp [m])
    · simp [workIrregular, workFirst, transitions, f, m, pushIf, push, Res.bind_eq_ok, Res.assert_eq_ok, h1] at e
      exact .first f m (by rw [← e.2.2]; simp [m])
  | steady =>
    rcases bool_cases s.shutting with m | m
    · simp [workIrregular, workSteady, transitions, entryDiss, f, m, pushIf, push, Res.bind_eq_ok, Res.assert_eq_ok, h1] at e
      exact .stop (Or.inr f) m (by rw [← e.2]; simp [m])
    · have hg : r.handle = 0 := by rw [f] at g; exact g
      cases k : c.kind with
      | ft =>
        simp [workIrregular, workSteady, f, m, k, pushIf, push, Res.bind_eq_ok, Res.assert_eq_ok, h1] at e
        exact .steady f m (by rw [← e.2.2.2]; simp [m, f])
      | pt =>
        simp [workIrregular, workSteady, f, m, k, pushIf, push, Res.bind_eq_ok, Res.assert_eq_ok, h1, hg] at e
        exact .steady f m (by rw [← e.2]; simp [m, f])
  | diss =>
    have hg : r.handle = handleDiss c.kind := by rw [f] at g; exact g
    simp [workIrregular, workDiss, transitions, unblock, f, hg, pushIf] at e
    exact .diss f e.symm
  | nop => exact absurd f nop

theorem inv_call {c : Cfg} {s s' : St} {js : List Job} {next rx : Int} {n : Nat} (i : Inv c s) (st : s.started = true)
    (sub : ∀ x ∈ js, x ∈ s.jobs) (h1 : s.irr = []) (h2 : irrs js = []) (k : Call c s js next rx n s') : Inv c s' := by
  obtain ⟨ia, ib, id, ie, ig, ih, ij, ik, il⟩ := i
  cases k with
  | first f m e =>
    subst e
    exact ⟨by simp [st], fun _ _ => ⟨⟨next, 0⟩, by simp [outstanding_eq, h2], by simp [Good]⟩, by simp, by simpa [f] using ie, ig, by simp, ij, ik,
      fun r t x => il r t (sub _ x)⟩
  | steady f m e =>
    subst e
    exact ⟨by simp [st], fun _ _ => ⟨⟨next, 0⟩, by simp [outstanding_eq, h2], by simp [f, Good]⟩, by simp [f], by simpa using ie, ig, by simpa using ih, ij, ik,
      fun r t x => il r t (sub _ x)⟩
  | stop f m e =>
    subst e
    exact ⟨by simp [st], fun _ _ => ⟨⟨rx + c.ms100, handleDiss c.kind⟩, by simp [outstanding_eq, h2], by simp [Good]⟩, by simp, by rcases f with f | f <;> simpa [f] using ie, ig, by simp [m], ij, ik,
      fun r t x => il r t (sub _ x)⟩
  | diss f e =>
    subst e
    have m := ih (Or.inl f)
    refine ⟨by simp [st], by simp, by simp [outstanding_eq, h1, h2], by simp, ?_, by simp [m], by simp, ?_, fun r t x => il r t (sub _ x)⟩
    · have := ig
      cases h : s.main <;> simp [h, m] at this ⊢
    · cases h : s.main <;> simp

theorem inv_step {c : Cfg} {s s' : St} {e : Ev} (i : Inv c s) (h : step c s e = .ok s') : Inv c s' := by
  cases e with
  | start t0 =>
    simp only [step, start] at h
    split at h
    · cases h; exact i
    · next st =>
      simp only [Bool.not_eq_true] at st
      obtain ⟨a1, a2, a3⟩ := i.unstarted st
      rw [outstanding_eq, List.append_eq_nil_iff] at a3
      simp [push, Res.bind_eq_ok, Res.assert_eq_ok, a3.1] at h
      obtain ⟨-, -, h⟩ := h
      subst h
      obtain ⟨_, _, _, d, f, g, p, k, l⟩ := i
      refine ⟨by simp, fun _ _ => ⟨entryFirst c t0, by simp [outstanding_eq, a3.2], ?_⟩, by simp [a1], d, f, g, p, k, l⟩
      simp only [a1, Good, entryFirst]
      cases c.kind <;> rfl
  | permeate =>
    simp only [step] at h
    split at h
    · next g =>
      cases h
      simp only [Bool.and_eq_true] at g
      obtain ⟨a, b, n, d, f, k, p, q, l⟩ := i
      exact ⟨by simp [g.1.1.1], b, n, d, f, k, p, q, l⟩
    · cases h; exact i
  | tick n =>
    simp only [step] at h
    cases h
    exact ⟨i.1, i.2, i.3, i.4, i.5, i.6, i.7, i.8, i.9⟩
  | due =>
    rcases due_cases i h with rfl | ⟨r, h1, h2, rfl⟩
    · exact i
    · have o : outstanding { s with irr := [], jobs := s.jobs ++ [.irr r s.now] } = irrs s.jobs ++ s.irr := by simp [outstanding_eq, h1]
      have o' : outstanding { s with irr := [], jobs := s.jobs ++ [.irr r s.now] } = outstanding s := by
        rw [o, outstanding_eq, h1]
        by_cases st : s.started = true
        · by_cases nop : s.fw = .nop
          · have := i.nop nop
            simp [outstanding_eq, h1] at this
          · obtain ⟨q, o, _⟩ := i.chain st nop
            rcases single o with ⟨_, h⟩ | ⟨h, _⟩
            · simp [h]
            · simp [h] at h1
        · have := (i.unstarted (by simpa using st)).2.2
          simp [outstanding_eq, h1] at this
      obtain ⟨a, b, n, d, f, k, p, q, l⟩ := i
      refine ⟨by rw [o']; exact a, by rw [o']; exact b, by rw [o']; exact n, d, f, k, p, q, ?_⟩
      intro r' t' m
      simp only [List.mem_append, List.mem_singleton, Job.irr.injEq] at m
      rcases m with m | ⟨rfl, rfl⟩
      · exact l r' t' m
      · exact h2
  | packet =>
    rcases enqueue_other h with rfl | ⟨_, rfl⟩
    · exact i
    · exact inv_other i
  | work next rx b n =>
    rcases hj : s.jobs with _ | ⟨j, js⟩
    · simp only [step, work, hj] at h
      cases h; exact i
    · cases j with
      | other =>
        simp only [step, work, hj] at h
        cases h
        have o : outstanding { s with jobs := js } = outstanding s := by simp [outstanding_eq, hj]
        have i' : Inv c { s with jobs := js } := by
          obtain ⟨a, b, n, d, f, k, p, q, l⟩ := i
          exact ⟨by rw [o]; exact a, by rw [o]; exact b, by rw [o]; exact n, d, f, k, p, q, fun r t m => l r t (by rw [hj]; exact List.mem_cons_of_mem _ m)⟩
        unfold workOther
        split
        · exact ⟨i'.1, i'.2, i'.3, i'.4, i'.5, i'.6, i'.7, i'.8, i'.9⟩
        · exact i'
      | irr r t =>
        have st : s.started = true := by
          by_contra st
          have := (i.unstarted (by simpa using st)).2.2
          simp [outstanding_eq, hj] at this
        obtain ⟨h1, h2, _, k⟩ := call_cases i st hj h
        exact inv_call i st (fun x m => by rw [hj]; exact List.mem_cons_of_mem _ m) h1 h2 k
  | stop =>
    simp only [step] at h
    cases h
    split
    · next m =>
      obtain ⟨a, b, n, d, f, k, p, q, l⟩ := i
      exact ⟨a, b, n, d, by simp, by simp, by simp [Main.past], by simp, l⟩
    · exact i
  | check =>
    simp only [step] at h
    cases h
    split
    · next m =>
      obtain ⟨a, b, n, d, f, k, p, q, l⟩ := i
      rcases bool_cases s.released with r | r
      · refine ⟨a, b, n, by simpa [r] using d, ?_, k, by simp [r], by simp [r], l⟩
        simpa [r, m] using f
      · refine ⟨a, b, n, by simpa [r] using d, ?_, k, by simp [r, Main.past], by simp [r], l⟩
        simpa [r, m] using f
    · exact i
  | spurious =>
    simp only [step] at h
    cases h
    split
    · next m =>
      obtain ⟨a, b, n, d, f, k, p, q, l⟩ := i
      exact ⟨a, b, n, d, by simpa [m] using f, k, by simp [Main.past], by simp, l⟩
    · exact i
  | close =>
    simp only [step] at h
    cases h
    obtain ⟨a, b, n, d, f, k, p, q, l⟩ := i
    unfold close
    split
    · next m =>
      exact ⟨fun x => ⟨(a x).1, rfl, (a x).2.2⟩, b, n, d, by simpa [m] using f, k, by simpa [m, Main.past] using p, by simp, l⟩
    · next m =>
      exact ⟨a, b, n, d, by simpa [m] using f, k, by simpa [m, Main.past] using p, by simp, l⟩
    · next m =>
      exact ⟨a, b, n, d, by simpa [m] using f, k, by simpa [m, Main.past] using p, by simp, l⟩
    · exact ⟨a, b, n, d, f, k, p, q, l⟩

theorem inv_run {c : Cfg} {es : List Ev} : ∀ {s s' : St}, Inv c s → run c s es = .ok s' → Inv c s' := by
  induction es with
  | nil => intro s s' i h; simp only [run] at h; cases h; exact i
  | cons e es ih =>
    intro s s' i h
    simp only [run, Res.bind_eq_ok] at h
    obtain ⟨s1, h1, h2⟩ := h
    exact ih (inv_step i h1) h2

theorem inv_reach {c : Cfg} {s : St} (h : Reach c s) : Inv c s := by
  obtain ⟨es, h⟩ := h
  exact inv_run (inv_init c) h

end Verif.P2p.Stop
