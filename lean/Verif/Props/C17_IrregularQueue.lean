import Verif.Spec.Pending
import Verif.Props.C15_Callbacks
import Mathlib.Data.List.Perm.Basic

set_option linter.unusedSimpArgs false

/-!
# C17: irregular job requests come out earliest first and none is lost
-/

namespace Verif.Phy
open Verif.Adt IrrQueue

/-- The pending requests. -/
def IrrQueue.pending (q : IrrQueue) : List Report := q.slots.filter Report.finite

theorem filter_set_new {l : List Report} {i : Nat} {r : Report} (hi : i < l.length) (hf : l[i].finite = false)
    (hr : r.finite = true) : ((l.set i r).filter Report.finite).Perm (r :: l.filter Report.finite) := by
  induction l generalizing i with
  | nil => simp at hi
  | cons a l ih =>
    cases i with
    | zero =>
      simp only [List.getElem_cons_zero] at hf
      simp [List.set, List.filter_cons, hf, hr]
    | succ i =>
      simp only [List.getElem_cons_succ] at hf
      have := ih (by simpa using hi) hf
      simp only [List.set, List.filter_cons]
      split
      · exact (this.cons a).trans (List.Perm.swap _ _ _)
      · exact this

theorem filter_set_none {l : List Report} {i : Nat} (hi : i < l.length) (hf : l[i].finite = true) :
    (l.filter Report.finite).Perm (l[i] :: (l.set i .none).filter Report.finite) := by
  have hn : Report.none.finite = false := by decide
  induction l generalizing i with
  | nil => simp at hi
  | cons a l ih =>
    cases i with
    | zero =>
      simp only [List.getElem_cons_zero] at hf
      simp [List.set, List.filter_cons, hf, hn]
    | succ i =>
      simp only [List.getElem_cons_succ] at hf
      have := ih (by simpa using hi) hf
      simp only [List.set, List.filter_cons, List.getElem_cons_succ]
      split
      · exact (this.cons a).trans (List.Perm.swap _ _ _)
      · exact this

/-- What is always true. -/
structure IrrInv (q : IrrQueue) : Prop where
  len : q.slots.length = irrSlots
  empty : q.it = none → q.next = int64Max ∧ ∀ e ∈ q.slots, e.finite = false
  some : ∀ i, q.it = some i → i < irrSlots ∧ (q.at' i).finite = true ∧ q.next = (q.at' i).time ∧
    ∀ e ∈ q.slots, q.next ≤ e.time

theorem at_eq {q : IrrQueue} {i : Nat} (h : i < q.slots.length) : q.at' i = q.slots[i] := by
  simp [IrrQueue.at', h]

theorem mem_at {q : IrrQueue} {e : Report} (h : e ∈ q.slots) (hl : q.slots.length = irrSlots) :
    ∃ i < irrSlots, q.at' i = e := by
  obtain ⟨i, hi, rfl⟩ := List.mem_iff_getElem.1 h
  exact ⟨i, hl ▸ hi, at_eq hi⟩

/-- `set` puts only the new element into the list. -/
theorem mem_set' {l : List Report} {i : Nat} {r e : Report} (h : e ∈ l.set i r) : e = r ∨ e ∈ l := by
  rcases List.mem_or_eq_of_mem_set h with h | h
  · exact Or.inr h
  · exact Or.inl h

theorem filter_full {l : List Report} (h : ∀ e ∈ l, e.finite = true) : l.filter Report.finite = l := by
  rw [List.filter_eq_self]; exact h

theorem filter_lt {l : List Report} {e : Report} (h : e ∈ l) (he : e.finite = false) :
    (l.filter Report.finite).length < l.length := by
  apply List.length_filter_lt_length_iff_exists.2
  exact ⟨e, h, by simp [he]⟩

theorem call_spec {q : IrrQueue} (h : IrrInv q) (op : IrrOp) :
    (IrrRefused irrSlots q.pending op → q.call op = .abort) ∧
    (¬ IrrRefused irrSlots q.pending op →
      ∃ q' x, q.call op = .ok (q', x) ∧ IrrEffect q.pending op x q'.pending ∧ IrrInv q') := by
  cases op with
  | push r =>
    simp only [IrrRefused, call, push]
    by_cases hr : r.finite = true
    · have hrt : r.time < int64Max := by simpa [Report.finite] using hr
      have hnr : ¬ (2 ^ 63 - 1 ≤ r.time) := by unfold int64Max at hrt; omega
      simp only [hr, Res.assert_true, Res.ok_bind, hnr, false_or]
      cases hfi : q.slots.findIdx? (fun e => !e.finite) with
      | none =>
        have hall : ∀ e ∈ q.slots, e.finite = true := by
          intro e he
          have := List.findIdx?_eq_none_iff.1 hfi e he
          simpa using this
        have hlen : q.pending.length = irrSlots := by
          rw [pending, filter_full hall, h.len]
        simp [hlen]
      | some i =>
        obtain ⟨hi, hfin, -⟩ := List.findIdx?_eq_some_iff_getElem.1 hfi
        have hfin : q.slots[i].finite = false := by simpa using hfin
        have hlt : q.pending.length < irrSlots := by
          rw [← h.len]; exact filter_lt (List.getElem_mem hi) hfin
        refine ⟨fun hx => by omega, fun _ => ?_⟩
        have hperm := filter_set_new hi hfin hr
        by_cases hlt2 : r.time < q.next
        · dsimp only
          rw [if_pos hlt2]
          refine ⟨_, _, rfl, ⟨rfl, hperm⟩, by simpa using h.len, by simp, ?_⟩
          intro j hj
          simp only [Option.some.injEq] at hj
          subst hj
          have hat : IrrQueue.at' ⟨q.slots.set i r, some i, r.time⟩ i = r := by
            simp [IrrQueue.at', hi]
          refine ⟨h.len ▸ hi, ?_, ?_, ?_⟩
          · show (IrrQueue.at' ⟨q.slots.set i r, some i, r.time⟩ i).finite = true
            rw [hat]; exact hr
          · show r.time = (IrrQueue.at' ⟨q.slots.set i r, some i, r.time⟩ i).time
            rw [hat]
          · intro e he
            show r.time ≤ e.time
            rcases mem_set' he with rfl | he
            · omega
            · rcases hit : q.it with _ | k
              · obtain ⟨-, h2⟩ := h.empty hit
                have := h2 e he
                simp only [Report.finite, decide_eq_false_iff_not] at this
                omega
              · have := (h.some k hit).2.2.2 e he
                omega
        · dsimp only
          rw [if_neg hlt2]
          refine ⟨_, _, rfl, ⟨rfl, hperm⟩, by simpa using h.len, ?_, ?_⟩
          · intro hit
            have := (h.empty hit).1
            omega
          · intro k hk
            have hk' : q.it = some k := hk
            obtain ⟨k1, k2, k3, k4⟩ := h.some k hk'
            have hne : i ≠ k := by
              rintro rfl
              rw [at_eq hi, hfin] at k2
              exact absurd k2 (by simp)
            have hat : IrrQueue.at' { q with slots := q.slots.set i r } k = q.at' k := by
              simp [IrrQueue.at', List.getElem?_set_ne hne]
            refine ⟨k1, by rw [hat]; exact k2, by rw [hat]; exact k3, ?_⟩
            intro e he
            show q.next ≤ e.time
            rcases mem_set' he with rfl | he
            · omega
            · exact k4 e he
    · have hr' : r.finite = false := by simpa using hr
      have hrt : ¬ r.time < int64Max := by simpa [Report.finite] using hr
      have hge : 2 ^ 63 - 1 ≤ r.time := by unfold int64Max at hrt; omega
      exact ⟨fun _ => by simp [hr', Res.assert], fun hx => absurd (Or.inl hge) hx⟩
  | pop =>
    simp only [IrrRefused, call]
    cases hit : q.it with
    | none =>
      have hp : q.pending = [] := by
        rw [pending, List.filter_eq_nil_iff]
        intro e he
        simp [(h.empty hit).2 e he]
      simp [hp, pop, hit]
    | some i =>
      obtain ⟨k1, k2, k3, k4⟩ := h.some i hit
      have hi : i < q.slots.length := by rw [h.len]; exact k1
      have k2' : q.slots[i].finite = true := by rw [← at_eq hi]; exact k2
      have hperm := filter_set_none hi k2'
      have hne : q.pending ≠ [] := by
        intro e
        rw [pending] at e
        rw [e] at hperm
        exact absurd hperm.length_eq (by simp)
      refine ⟨fun e => absurd e hne, fun _ => ?_⟩
      have hmin : ∀ e ∈ q.pending, (q.at' i).time ≤ e.time := by
        intro e he
        rw [← k3]; exact k4 e (List.mem_filter.1 he).1
      generalize hq1 : ({ q with slots := q.slots.set i .none } : IrrQueue) = q1
      have hs1 : q1.slots = q.slots.set i .none := by rw [← hq1]
      have hlen1 : q1.slots.length = irrSlots := by rw [hs1]; simpa using h.len
      generalize hj : Callbacks.minIdx (fun j => (q1.at' j).time) (irrSlots - 1) = j
      have hjl : j ≤ irrSlots - 1 := by rw [← hj]; exact minIdx_le _ _
      have hjm : ∀ e ∈ q1.slots, (q1.at' j).time ≤ e.time := by
        intro e he
        obtain ⟨k, hk, rfl⟩ := mem_at he hlen1
        have := minIdx_min (fun j => (q1.at' j).time) (irrSlots - 1) k (by omega)
        rw [hj] at this; exact this
      have hpop : q.pop = if (q1.at' j).finite then .ok ({ q1 with it := some j, next := (q1.at' j).time }, q.at' i)
          else .ok ({ q1 with it := none, next := int64Max }, q.at' i) := by
        rw [hit] at hq1
        simp only [pop, hit, hq1, hj, hs1]
      have heff : IrrEffect q.pending .pop (.report (q.at' i)) (q1.slots.filter Report.finite) := by
        refine ⟨_, rfl, ?_, hmin⟩
        rw [hs1, at_eq hi]; exact hperm
      by_cases hf : (q1.at' j).finite = true
      · rw [hpop, if_pos hf]
        refine ⟨_, _, rfl, heff, hlen1, by simp, ?_⟩
        intro j' hj'
        simp only [Option.some.injEq] at hj'
        subst hj'
        exact ⟨by unfold irrSlots at *; omega, hf, rfl, hjm⟩
      · rw [hpop, if_neg hf]
        refine ⟨_, _, rfl, heff, hlen1, ?_, by simp⟩
        intro _
        refine ⟨rfl, fun e he => ?_⟩
        have := hjm e he
        simp only [Report.finite, decide_eq_true_eq] at hf
        simp only [Report.finite, decide_eq_false_iff_not]
        omega
  | next =>
    simp only [IrrRefused, call, not_false_eq_true, false_implies, true_and, forall_const]
    refine ⟨q, _, rfl, ⟨rfl, q.getNext, rfl, ?_, ?_⟩, h⟩
    · intro hp
      cases hit : q.it with
      | none => rw [getNext, (h.empty hit).1]; simp [int64Max]
      | some i =>
        obtain ⟨k1, k2, -⟩ := h.some i hit
        have hi : i < q.slots.length := by rw [h.len]; exact k1
        have : q.at' i ∈ q.pending := List.mem_filter.2 ⟨by rw [at_eq hi]; exact List.getElem_mem hi, k2⟩
        rw [hp] at this; simp at this
    · intro hp
      cases hit : q.it with
      | none =>
        exact absurd (by
          rw [pending, List.filter_eq_nil_iff]
          intro e he
          simp [(h.empty hit).2 e he]) hp
      | some i =>
        obtain ⟨k1, k2, k3, k4⟩ := h.some i hit
        have hi : i < q.slots.length := by rw [h.len]; exact k1
        have hlt : (q.at' i).time < int64Max := by simpa [Report.finite] using k2
        have hg : q.getNext = (q.at' i).time := by
          rw [getNext, k3, if_pos hlt]
        rw [hg]
        refine ⟨⟨_, List.mem_filter.2 ⟨by rw [at_eq hi]; exact List.getElem_mem hi, k2⟩, rfl⟩, ?_⟩
        intro e he
        rw [← k3]; exact k4 e (List.mem_filter.1 he).1

theorem irr_init : IrrInv init :=
  ⟨rfl, fun _ => ⟨rfl, by decide⟩, by simp [init]⟩

/-- C17: every sequence of operations on the queue behaves as the specification says: pop returns a
pending request with the smallest time, the announced time is the smallest pending time, nothing is
lost or duplicated; the program aborts exactly if an operation is refused. -/
theorem C17_earliest_first (ops : List IrrOp) :
    match init.run ops with
    | .ok (_, xs) => ∃ p, IrrRun 8 [] ops xs p
    | .abort => IrrRunRefused 8 [] ops
    | .ub => False := by
  have key : ∀ (ops : List IrrOp) (q : IrrQueue), IrrInv q →
      match q.run ops with
      | .ok (_, xs) => ∃ p, IrrRun 8 q.pending ops xs p
      | .abort => IrrRunRefused 8 q.pending ops
      | .ub => False := by
    intro ops
    induction ops with
    | nil => intro q _; exact ⟨_, .nil _⟩
    | cons op ops ih =>
      intro q h
      obtain ⟨h1, h2⟩ := call_spec h op
      by_cases hr : IrrRefused irrSlots q.pending op
      · simp only [run, h1 hr]
        exact ⟨[], op, ops, [], _, rfl, .nil _, hr⟩
      · obtain ⟨q', x, e1, e2, e3⟩ := h2 hr
        simp only [run, e1, Res.ok_bind]
        have := ih q' e3
        cases hc : q'.run ops with
        | ok y =>
          rw [hc] at this
          obtain ⟨p, hp⟩ := this
          exact ⟨p, .cons hr e2 hp⟩
        | abort =>
          rw [hc] at this
          obtain ⟨a, op', b, xs, p', rfl, g2, g3⟩ := this
          exact ⟨op :: a, op', b, x :: xs, p', rfl, .cons hr e2 g2, g3⟩
        | ub => rw [hc] at this; exact this
  exact key ops init irr_init

/-- Requests pushed by the operations. -/
def pushed (ops : List IrrOp) : List Report := ops.filterMap fun | .push r => some r | _ => none

/-- Requests returned by `pop`. -/
def popped (xs : List IrrRet) : List Report := xs.filterMap fun | .report r => some r | _ => none

theorem exactly_once {cap : Nat} {p : List Report} {ops : List IrrOp} {xs : List IrrRet} {p' : List Report}
    (h : IrrRun cap p ops xs p') : (p ++ pushed ops).Perm (popped xs ++ p') := by
  induction h with
  | nil p => simp [pushed, popped]
  | @cons p op x p1 ops xs p2 hr he _ ih =>
    cases op with
    | push r =>
      obtain ⟨rfl, hp⟩ := he
      simp only [pushed, popped, List.filterMap_cons] at ih ⊢
      refine List.Perm.trans ?_ ih
      refine List.Perm.trans ?_ (hp.symm.append_right _)
      simp
    | pop =>
      obtain ⟨r, rfl, hp, -⟩ := he
      simp only [pushed, popped, List.filterMap_cons] at ih ⊢
      refine (hp.append_right _).trans ?_
      simpa using ih.cons r
    | next =>
      obtain ⟨rfl, t, rfl, -⟩ := he
      simpa [pushed, popped] using ih

/-- C17: every request pushed is popped exactly once or still pending. -/
theorem C17_exactly_once (ops : List IrrOp) (q : IrrQueue) (xs : List IrrRet) (h : init.run ops = .ok (q, xs)) :
    ∃ p, (pushed ops).Perm (popped xs ++ p) := by
  have := C17_earliest_first ops
  rw [h] at this
  obtain ⟨p, hp⟩ := this
  exact ⟨p, by simpa using exactly_once hp⟩

/-- What a run returns. -/
def retsOf (ops : List IrrOp) : Option (List IrrRet) :=
  match init.run ops with
  | .ok x => some x.2
  | _ => none

example : retsOf [.next, .push ⟨30, 1, 0⟩, .push ⟨10, 2, 0⟩, .next, .push ⟨20, 3, 0⟩, .pop, .pop, .next, .pop, .next] =
    some [.time int64Max, .unit, .unit, .time 10, .unit, .report ⟨10, 2, 0⟩, .report ⟨20, 3, 0⟩, .time 30,
      .report ⟨30, 1, 0⟩, .time int64Max] := by decide +kernel

end Verif.Phy
