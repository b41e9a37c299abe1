import Verif.Spec.Fifo

set_option linter.unusedSimpArgs false

/-!
# C13: the datagram queue is a bounded FIFO
-/

namespace Verif.App
open Queue

/-- The ring holds the datagrams `l`. -/
structure Holds (q : Queue) (l : List (List Nat)) : Prop where
  w : q.w < q.n
  r : q.r < q.n
  pos : (q.r + l.length) % q.n = q.w
  len : l.length < q.n
  lvl : ∀ i (h : i < l.length), q.lvl ((q.r + i) % q.n) = l[i].length
  mem : ∀ i (h : i < l.length), (q.mem ((q.r + i) % q.n)).take l[i].length = l[i]

theorem mod_cases {a n : Nat} (h : a < 2 * n) : a % n = if a < n then a else a - n := by
  split
  · exact Nat.mod_eq_of_lt (by assumption)
  · rw [Nat.mod_eq_sub_mod (by omega), Nat.mod_eq_of_lt (by omega)]

theorem Holds.used_eq {q : Queue} {l : List (List Nat)} (h : Holds q l) : q.used = l.length := by
  have h1 := h.w; have h2 := h.r; have h3 := h.pos; have h4 := h.len
  rw [mod_cases (by omega)] at h3
  unfold Queue.used
  split at h3 <;> split <;> omega

theorem Holds.free_eq {q : Queue} {l : List (List Nat)} (h : Holds q l) : q.free = q.n - 1 - l.length := by
  have h1 := h.w; have h2 := h.r; have h3 := h.pos; have h4 := h.len
  rw [mod_cases (by omega)] at h3
  unfold Queue.free
  split at h3 <;> split <;> omega

theorem Holds.levelsFrom {q : Queue} : ∀ (k j : Nat) (l : List (List Nat)), k ≤ l.length →
    (∀ i (h : i < l.length), q.lvl ((j + i) % q.n) = l[i].length) →
    q.levelsFrom k (j % q.n) = (l.take k).map List.length := by
  intro k
  induction k with
  | zero => intro j l _ _; simp [Queue.levelsFrom]
  | succ k ih =>
    intro j l hk hl
    match l, hk with
    | d :: l, hk =>
      have h0 := hl 0 (by simp)
      rw [Nat.add_zero] at h0
      rw [Queue.levelsFrom, h0, Nat.mod_add_mod]
      rw [ih (j + 1) l (by simpa using hk) (fun i hi => by
        have := hl (i + 1) (by simpa using hi)
        rw [show j + 1 + i = j + (i + 1) by omega]; simpa using this)]
      rfl

/-- Each call does to the ring what it does to the list. -/
theorem call_refines {q : Queue} {l : List (List Nat)} (h : Holds q l) (c : QCall) :
    match fifo (q.n - 1) q.maxByte l c with
    | .ok (l', r) => ∃ q', q.call c = .ok (q', r) ∧ Holds q' l' ∧ q'.n = q.n ∧ q'.maxByte = q.maxByte
    | .abort => q.call c = .abort
    | .ub => False := by
  have h1 := h.w; have h2 := h.r; have h3 := h.pos; have h4 := h.len
  cases c with
  | write d =>
    simp only [fifo]
    by_cases hc : l.length = q.n - 1
    · simp only [hc, if_true]
      exact ⟨q, by simp [Queue.call, Queue.write, h.free_eq, hc], h, rfl, rfl⟩
    · simp only [hc, if_false]
      have hf : q.free ≠ 0 := by rw [h.free_eq]; omega
      by_cases hm : q.maxByte < d.length
      · simp only [hm, if_true]
        simp [Queue.call, Queue.write, hf, Nat.not_le.2 hm]
      · simp only [hm, if_false]
        refine ⟨{ q with
          mem := Function.update q.mem q.w (copyInto (q.mem q.w) d)
          lvl := Function.update q.lvl q.w d.length
          w := (q.w + 1) % q.n }, by simp [Queue.call, Queue.write, hf, Nat.not_lt.1 hm], ?_, rfl, rfl⟩
        refine ⟨Nat.mod_lt _ (by omega), h2, ?_, ?_, ?_, ?_⟩
        · show (q.r + (l ++ [d]).length) % q.n = (q.w + 1) % q.n
          rw [← h3, Nat.mod_add_mod]; simp [Nat.add_assoc]
        · show (l ++ [d]).length < q.n
          simp; omega
        · intro i hi
          simp only [List.length_append, List.length_singleton] at hi
          show Function.update q.lvl q.w d.length ((q.r + i) % q.n) = _
          by_cases hl : i < l.length
          · rw [Function.update_of_ne, h.lvl i hl, List.getElem_append_left hl]
            rw [← h3, mod_cases (by omega), mod_cases (by omega)]
            split <;> split <;> omega
          · have : i = l.length := by omega
            subst this
            rw [h3, Function.update_self]; simp
        · intro i hi
          simp only [List.length_append, List.length_singleton] at hi
          show (Function.update q.mem q.w (copyInto (q.mem q.w) d) ((q.r + i) % q.n)).take _ = _
          by_cases hl : i < l.length
          · rw [Function.update_of_ne]
            · simpa [List.getElem_append_left hl] using h.mem i hl
            · rw [← h3, mod_cases (by omega), mod_cases (by omega)]
              split <;> split <;> omega
          · have : i = l.length := by omega
            subst this
            rw [h3, Function.update_self]; simp [copyInto]
  | read | drop =>
    cases l with
    | nil =>
      have hu := h.used_eq
      simp only [fifo]
      exact ⟨q, by simp [Queue.call, Queue.read, hu], h, rfl, rfl⟩
    | cons d l =>
      have hu : q.used ≠ 0 := by rw [h.used_eq]; simp
      have e1 := h.lvl 0 (by simp)
      have e2 := h.mem 0 (by simp)
      simp only [List.getElem_cons_zero, Nat.add_zero, Nat.mod_eq_of_lt h2] at e1 e2
      simp only [fifo]
      refine ⟨{ q with r := (q.r + 1) % q.n }, by simp [Queue.call, Queue.read, hu, e1, e2], ?_, rfl, rfl⟩
      simp only [List.length_cons] at h3 h4
      refine ⟨h1, Nat.mod_lt _ (by omega), ?_, by show l.length < q.n; omega, ?_, ?_⟩
      · show ((q.r + 1) % q.n + l.length) % q.n = q.w
        rw [Nat.mod_add_mod, ← h3]; congr 1; omega
      · intro i hi
        have := h.lvl (i + 1) (by simpa using hi)
        show q.lvl (((q.r + 1) % q.n + i) % q.n) = _
        rw [Nat.mod_add_mod, show q.r + 1 + i = q.r + (i + 1) by omega, this]; simp
      · intro i hi
        have := h.mem (i + 1) (by simpa using hi)
        show (q.mem (((q.r + 1) % q.n + i) % q.n)).take _ = _
        rw [Nat.mod_add_mod, show q.r + 1 + i = q.r + (i + 1) by omega]
        simpa using this
  | levels n =>
    simp only [fifo]
    by_cases hn : 8 < n
    · simp only [hn, if_true]
      simp [Queue.call, Queue.levels, Nat.not_le.2 hn]
    · simp only [hn, if_false]
      refine ⟨q, ?_, h, rfl, rfl⟩
      have := Holds.levelsFrom (q := q) (min n l.length) q.r l (Nat.min_le_right _ _) h.lvl
      rw [Nat.mod_eq_of_lt h2] at this
      simp [Queue.call, Queue.levels, Nat.not_lt.1 hn, h.used_eq, this]
  | clear =>
    exact ⟨_, rfl, ⟨by show 0 < q.n; omega, by show 0 < q.n; omega, by show (0 + 0) % q.n = 0; simp, by show 0 < q.n; omega, by simp, by simp⟩, rfl, rfl⟩
  | busy => exact ⟨q, rfl, h, rfl, rfl⟩

/-- C13: a queue of `n` slots behaves like a FIFO that holds at most `n - 1` datagrams: every
sequence of calls returns what the FIFO returns, and aborts exactly if the FIFO refuses (a datagram
larger than a slot, or more than 8 levels requested). Since calls are atomic (`C13_linearizable`),
the sequence is any interleaving of any number of threads. -/
theorem C13_bounded_fifo (n maxByte : Nat) (junk : Nat → List Nat) (cs : List QCall) (hn : 1 ≤ n) :
    match fifoRun (n - 1) maxByte [] cs with
    | .ok (_, rs) => ∃ q, (init n maxByte junk).run cs = .ok (q, rs)
    | .abort => (init n maxByte junk).run cs = .abort
    | .ub => False := by
  have key : ∀ (cs : List QCall) (q : Queue) (l : List (List Nat)), Holds q l →
      match fifoRun (q.n - 1) q.maxByte l cs with
      | .ok (_, rs) => ∃ q', q.run cs = .ok (q', rs)
      | .abort => q.run cs = .abort
      | .ub => False := by
    intro cs
    induction cs with
    | nil => intro q l _; exact ⟨q, rfl⟩
    | cons c cs ih =>
      intro q l h
      have hc := call_refines h c
      simp only [fifoRun]
      cases hf : fifo (q.n - 1) q.maxByte l c with
      | ok x =>
        obtain ⟨l', r⟩ := x
        rw [hf] at hc
        obtain ⟨q', e1, e2, e3, e4⟩ := hc
        have hi := ih q' l' e2
        rw [e3, e4] at hi
        simp only [Res.ok_bind, Queue.run, e1]
        cases hg : fifoRun (q.n - 1) q.maxByte l' cs with
        | ok y =>
          obtain ⟨l'', rs⟩ := y
          rw [hg] at hi
          obtain ⟨q'', e5⟩ := hi
          exact ⟨q'', by simp [e5]⟩
        | abort => rw [hg] at hi; simp [hi]
        | ub => rw [hg] at hi; exact hi.elim
      | abort =>
        rw [hf] at hc
        simp [Queue.run, hc]
      | ub => rw [hf] at hc; exact hc.elim
  exact key cs (init n maxByte junk) [] ⟨by show 0 < n; omega, by show 0 < n; omega,
    by show (0 + 0) % n = 0; simp, by show 0 < n; omega, by simp, by simp⟩

/-- The datagram is queued although the return value says that it was not: a datagram without bytes. -/
theorem C13_empty_datagram (n maxByte : Nat) (junk : Nat → List Nat) (hn : 2 ≤ n) :
    ∃ q rs, (init n maxByte junk).run [.write [], .levels 1, .read] = .ok (q, rs) ∧
      rs.map QRet.num = [0, 0, 0] ∧ rs.map QRet.levels = [[], [0], []] := by
  have h := C13_bounded_fifo n maxByte junk [.write [], .levels 1, .read] (by omega)
  have e : fifoRun (n - 1) maxByte [] [.write [], .levels 1, .read] =
      .ok ([], [⟨0, [], []⟩, ⟨0, [], [0]⟩, ⟨0, [], []⟩]) := by
    simp [fifoRun, fifo, show ¬ 0 = n - 1 by omega]
  rw [e] at h
  obtain ⟨q, hq⟩ := h
  exact ⟨q, _, hq, rfl, rfl⟩

/-- A queue of a single slot, which `queue_size_t::is_valid` admits, refuses every datagram. -/
theorem C13_single_slot (maxByte : Nat) (junk : Nat → List Nat) (d : List Nat) :
    ∃ q, (init 1 maxByte junk).run [.write d, .read] = .ok (q, [⟨0, [], []⟩, ⟨0, [], []⟩]) := by
  exact C13_bounded_fifo 1 maxByte junk [.write d, .read] (by omega)

/-- No call changes the size of a slot's buffer or writes another number of slots: `memcpy` stays inside the slot. -/
theorem C13_no_overrun (n maxByte : Nat) (junk : Nat → List Nat) (hj : ∀ i, (junk i).length = maxByte) (cs : List QCall)
    {q : Queue} {rs : List QRet} (h : (init n maxByte junk).run cs = .ok (q, rs)) : ∀ i, (q.mem i).length = maxByte := by
  have key : ∀ (cs : List QCall) (a : Queue) (rs : List QRet), (∀ i, (a.mem i).length = a.maxByte) → a.run cs = .ok (q, rs) →
      q.maxByte = a.maxByte ∧ ∀ i, (q.mem i).length = a.maxByte := by
    intro cs
    induction cs with
    | nil => intro a rs ha h; cases h; exact ⟨rfl, ha⟩
    | cons c cs ih =>
      intro a rs ha h
      simp only [Queue.run, Res.bind_eq_ok, Prod.exists, Res.pure_eq, Res.ok.injEq, Prod.mk.injEq] at h
      obtain ⟨b, r, hb, q', rs', hq, rfl, -⟩ := h
      have hab : b.maxByte = a.maxByte ∧ ∀ i, (b.mem i).length = a.maxByte := by
        cases c with
        | write d =>
          simp only [Queue.call, Queue.write, Res.bind_eq_ok, Prod.exists, Res.pure_eq, Res.ok.injEq, Prod.mk.injEq] at hb
          obtain ⟨b', m, hb, rfl, -⟩ := hb
          split at hb
          · cases hb; exact ⟨rfl, ha⟩
          · simp only [Res.bind_eq_ok, Res.assert_eq_ok, decide_eq_true_eq, exists_and_left, exists_const, Res.ok.injEq, Prod.mk.injEq] at hb
            obtain ⟨hle, rfl, -⟩ := hb
            refine ⟨rfl, fun i => ?_⟩
            by_cases hi : i = a.w
            · subst hi
              have := ha a.w
              simp [copyInto]; omega
            · simp [Function.update_of_ne hi, ha i]
        | read =>
          simp only [Queue.call, Queue.read] at hb
          split at hb <;> (cases hb; exact ⟨rfl, ha⟩)
        | drop =>
          simp only [Queue.call, Queue.read] at hb
          split at hb <;> (cases hb; exact ⟨rfl, ha⟩)
        | levels m =>
          simp only [Queue.call, Res.bind_eq_ok, Res.pure_eq, Res.ok.injEq, Prod.mk.injEq] at hb
          obtain ⟨-, -, rfl, -⟩ := hb
          exact ⟨rfl, ha⟩
        | clear => cases hb; exact ⟨rfl, ha⟩
        | busy => cases hb; exact ⟨rfl, ha⟩
      obtain ⟨h1, h2⟩ := ih b rs' (fun i => by rw [hab.1]; exact hab.2 i) hq
      exact ⟨h1.trans hab.1, fun i => (h2 i).trans hab.1⟩
  exact (key cs (init n maxByte junk) rs hj h).2

/-- Executing the statements of a call without interruption is the call. -/
theorem stmts_exec (q : Queue) (c : QCall) :
    match q.call c with
    | .ok (q', r) => ∃ l, Locked.exec (stmts c).steps q (stmts c).init = .ok (q', l) ∧ l.ret = r
    | .abort => Locked.exec (stmts c).steps q (stmts c).init = .abort
    | .ub => False := by
  cases c with
  | write d =>
    simp only [Queue.call, Queue.write]
    by_cases h : q.free = 0
    · simp [h, stmts, writeStmts, Locked.exec, stmt]
    · by_cases h2 : d.length ≤ q.maxByte
      · simp [h, h2, stmts, writeStmts, Locked.exec, stmt]
      · simp [h, h2, stmts, writeStmts, Locked.exec, stmt]
  | read =>
    simp only [Queue.call, Queue.read]
    by_cases h : q.used = 0 <;> simp [h, stmts, readStmts, Locked.exec, stmt]
  | drop =>
    simp only [Queue.call, Queue.read]
    by_cases h : q.used = 0 <;> simp [h, stmts, readStmts, Locked.exec, stmt]
  | levels n =>
    simp only [Queue.call, Queue.levels]
    by_cases h : n ≤ 8 <;> simp [h, stmts, levelStmts, Locked.exec, stmt, Queue.levels]
  | clear => exact ⟨_, rfl, rfl⟩
  | busy => exact ⟨_, rfl, rfl⟩

/-- C13: whatever the threads do and however their statements interleave, the calls completed so far
returned what they would have returned one after the other, in the order in which they got the lock. -/
theorem C13_linearizable (q0 : Queue) (s : Locked.Sys Queue QLoc) (h : Locked.Reach q0 s)
    (cs : List QCall) (hcs : s.hist.map (fun x => x.2.1) = cs.map stmts) :
    ∃ q, q0.run cs = .ok (q, s.hist.map fun x => x.2.2.ret) ∧ (s.holder = none → q = s.shared) := by
  have hr : ∃ q, Locked.Replay q0 s.hist q ∧ (s.holder = none → q = s.shared) := by
    have := Locked.reach_replay h
    cases hh : s.holder with
    | none => rw [hh] at this; exact ⟨_, this, fun _ => rfl⟩
    | some x =>
      rw [hh] at this
      obtain ⟨s1, -, h1, -⟩ := this
      exact ⟨s1, h1, by simp⟩
  obtain ⟨q, hq, hf⟩ := hr
  refine ⟨q, ?_, hf⟩
  have runsnoc : ∀ (a : List QCall) (c : QCall) (p p' p'' : Queue) (rs : List QRet) (r : QRet),
      p.run a = .ok (p', rs) → p'.call c = .ok (p'', r) → p.run (a ++ [c]) = .ok (p'', rs ++ [r]) := by
    intro a
    induction a with
    | nil =>
      intro c p p' p'' rs r h1 h2
      simp only [Queue.run, Res.ok.injEq, Prod.mk.injEq] at h1
      obtain ⟨rfl, rfl⟩ := h1
      simp [Queue.run, h2]
    | cons x a ih =>
      intro c p p' p'' rs r h1 h2
      simp only [Queue.run, Res.bind_eq_ok, Res.pure_eq, Res.ok.injEq, Prod.mk.injEq] at h1
      obtain ⟨⟨p1, r1⟩, e1, ⟨p2, rs2⟩, e2, rfl, rfl⟩ := h1
      have := ih c p1 p2 p'' rs2 r e2 h2
      simp [Queue.run, e1, this]
  clear hf h
  generalize s.hist = hist at hq hcs
  induction hq generalizing cs with
  | nil =>
    cases cs with
    | nil => rfl
    | cons => simp at hcs
  | snoc hr he ih =>
    rename_i hst q1 t c l q2
    obtain ⟨cs', c', rfl⟩ : ∃ cs' c', cs = cs' ++ [c'] := by
      rcases List.eq_nil_or_concat cs with rfl | ⟨a, b, rfl⟩
      · simp at hcs
      · exact ⟨a, b, by simp⟩
    simp only [List.map_append, List.map_cons, List.map_nil] at hcs
    obtain ⟨e1, e2⟩ := List.append_inj' hcs rfl
    simp only [List.cons.injEq, and_true] at e2
    subst e2
    have h2 := stmts_exec q1 c'
    have h1 := ih cs' e1
    cases hc : q1.call c' with
    | ok x =>
      obtain ⟨q', r⟩ := x
      rw [hc] at h2
      obtain ⟨l', e3, e4⟩ := h2
      rw [he] at e3
      simp only [Res.ok.injEq, Prod.mk.injEq] at e3
      obtain ⟨rfl, rfl⟩ := e3
      rw [runsnoc _ _ _ _ _ _ _ h1 hc]
      simp [e4]
    | abort => rw [hc] at h2; rw [he] at h2; exact absurd h2 (by simp)
    | ub => rw [hc] at h2; exact h2.elim

/-- Three writes into a queue of three slots: the third is refused; the rest come out in order. -/
example : ∃ q, (init 3 10 (fun _ => [])).run [.write [1, 2], .write [3], .write [4], .levels 8, .read, .read, .read] =
    .ok (q, [⟨2, [], []⟩, ⟨1, [], []⟩, ⟨0, [], []⟩, ⟨0, [], [2, 1]⟩, ⟨2, [1, 2], []⟩, ⟨1, [3], []⟩, ⟨0, [], []⟩]) :=
  C13_bounded_fifo 3 10 (fun _ => []) [.write [1, 2], .write [3], .write [4], .levels 8, .read, .read, .read] (by omega)

end Verif.App
