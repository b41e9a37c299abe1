import Verif.Model.Token
import Mathlib.Data.List.Range
import Mathlib.Algebra.Order.BigOperators.Group.List
import Mathlib.Algebra.Order.Group.Nat

set_option linter.unusedSimpArgs false

/-!
# C18: the token is exclusive and follows job order under every schedule
-/

namespace Verif.Phy.Token

/-- The thread has the mutex. -/
def inMutex : Pc → Bool
  | .entered .. | .checking .. | .locked .. | .holds .. | .leaving .. => true
  | _ => false

/-- The thread holds the token. -/
def isHolding : Pc → Bool
  | .holds .. => true
  | _ => false

/-- The job that the thread has taken and not completed. -/
def owns : Pc → Option (Nat × Nat)
  | .want p n | .entered p n | .checking p n | .asleep p n | .granted p n | .quit p n => some (p, n)
  | .locked p (some n) | .holds p (some n) => some (p, n)
  | _ => none

/-- The job is known to be the next one of its pool. -/
def granted : Pc → Bool
  | .granted .. | .locked _ (some _) | .holds _ (some _) => true
  | _ => false

/-- The pool of a thread that has or is about to get the token. -/
def poolOf : Pc → Option Nat
  | .locked p _ | .holds p _ | .leaving p _ | .pdc p => some p
  | _ => none

/-- Numbers of pool `p` in the order of `lock_fifo_to` returning true. -/
def orderOf (s : Sys) (p : Nat) : List Nat := s.order.filterMap fun x => if x.1 = p then some x.2 else none

/-- Some job of pool `p` has the token. -/
def Held (s : Sys) (p : Nat) : Prop := ∃ t n, s.pc t = .holds p (some n)

structure Inv (N : Nat) (s : Sys) : Prop where
  mtx : ∀ t, inMutex (s.pc t) = true ↔ s.mutex = some t
  range : ∀ t p n, owns (s.pc t) = some (p, n) → p < N ∧ s.fifoCnt p ≤ n ∧ n < s.taken p
  next : ∀ t p n, owns (s.pc t) = some (p, n) → granted (s.pc t) = true → s.fifoCnt p = n
  pool : ∀ t p, poolOf (s.pc t) = some p → p < maxPools
  hold : ∀ t p n, s.pc t = .holds p n → s.idHolder = p
  free : (∀ t, isHolding (s.pc t) = false) → s.idHolder = maxPools
  own : ∀ p n, p < N → s.fifoCnt p ≤ n → n < s.taken p → ∃ t, owns (s.pc t) = some (p, n)
  uniq : ∀ t t' x, owns (s.pc t) = some x → owns (s.pc t') = some x → t = t'
  le : ∀ p, p < N → s.fifoCnt p ≤ s.taken p
  ord : ∀ p, p < N → ¬ Held s p → orderOf s p = List.range (s.fifoCnt p)
  ordH : ∀ p, p < N → Held s p → orderOf s p = List.range (s.fifoCnt p + 1)
  ok : s.aborted = false

theorem goto_pc (s : Sys) (t t' : Nat) (x : Pc) : (s.goto t x).pc t' = if t' = t then x else s.pc t' := by
  simp [Sys.goto, Function.update_apply]

/-- A thread that neither holds the token before or after the step, and keeps its job, moves on; nothing
else changes but the mutex. -/
theorem move {N : Nat} {s : Sys} (h : Inv N s) {t : Nat} {x y : Pc} {m : Option Nat} (hx : s.pc t = x)
    (hxh : isHolding x = false) (hyh : isHolding y = false) (hown : owns y = owns x)
    (hgr : ∀ p n, owns y = some (p, n) → granted y = true → s.fifoCnt p = n)
    (hpool : ∀ p, poolOf y = some p → p < maxPools)
    (hm : ∀ t', m = some t' ↔ if t' = t then inMutex y = true else s.mutex = some t') :
    Inv N { s.goto t y with mutex := m } := by
  have hpc : ∀ t', ({ s.goto t y with mutex := m } : Sys).pc t' = if t' = t then y else s.pc t' :=
    fun t' => goto_pc s t t' y
  have howns : ∀ t', owns (({ s.goto t y with mutex := m } : Sys).pc t') = owns (s.pc t') := by
    intro t'
    rw [hpc]
    split
    · rename_i e; rw [e, hx, hown]
    · rfl
  have hheld : ∀ p, Held { s.goto t y with mutex := m } p ↔ Held s p := by
    intro p
    constructor
    · rintro ⟨t', n, e⟩
      rw [hpc] at e
      split at e
      · rw [e] at hyh; simp [isHolding] at hyh
      · exact ⟨t', n, e⟩
    · rintro ⟨t', n, e⟩
      refine ⟨t', n, ?_⟩
      rw [hpc]
      split
      · rename_i e'; rw [e', hx] at e; rw [e] at hxh; simp [isHolding] at hxh
      · exact e
  refine ⟨?_, ?_, ?_, ?_, ?_, ?_, ?_, ?_, h.le, ?_, ?_, h.ok⟩
  · intro t'
    rw [hpc]
    show _ ↔ m = some t'
    rw [hm]
    split
    · rfl
    · exact h.mtx t'
  · intro t' p n e
    rw [howns] at e
    exact h.range t' p n e
  · intro t' p n e g
    rw [hpc] at e g
    split at e
    · rename_i e'
      rw [if_pos e'] at g
      exact hgr p n e g
    · rename_i e'
      rw [if_neg e'] at g
      exact h.next t' p n e g
  · intro t' p e
    rw [hpc] at e
    split at e
    · exact hpool p e
    · exact h.pool t' p e
  · intro t' p n e
    rw [hpc] at e
    split at e
    · rw [e] at hyh; simp [isHolding] at hyh
    · exact h.hold t' p n e
  · intro hf
    apply h.free
    intro t'
    have := hf t'
    rw [hpc] at this
    split at this
    · rename_i e; rw [e, hx]; exact hxh
    · exact this
  · intro p n h1 h2 h3
    obtain ⟨t', e⟩ := h.own p n h1 h2 h3
    exact ⟨t', by rw [howns]; exact e⟩
  · intro t1 t2 x e1 e2
    rw [howns] at e1 e2
    exact h.uniq t1 t2 x e1 e2
  · intro p hp hh
    rw [hheld] at hh
    exact h.ord p hp hh
  · intro p hp hh
    rw [hheld] at hh
    exact h.ordH p hp hh

/-- Only one thread is in the critical section. -/
theorem Inv.only {N : Nat} {s : Sys} (h : Inv N s) {t t' : Nat} (h1 : inMutex (s.pc t) = true)
    (h2 : inMutex (s.pc t') = true) : t' = t := by
  have e1 := (h.mtx t).1 h1
  have e2 := (h.mtx t').1 h2
  rw [e1] at e2
  exact (Option.some.inj e2).symm

theorem inMutex_of_holding {x : Pc} (h : isHolding x = true) : inMutex x = true := by
  cases x <;> simp_all [isHolding, inMutex]

theorem Inv.idHolder_free {N : Nat} {s : Sys} (h : Inv N s) {t : Nat} (h1 : inMutex (s.pc t) = true)
    (h2 : isHolding (s.pc t) = false) : s.idHolder = maxPools := by
  apply h.free
  intro t'
  by_cases e : isHolding (s.pc t') = true
  · have := h.only h1 (inMutex_of_holding e)
    rw [this] at e; rw [e] at h2; exact absurd h2 (by simp)
  · simpa using e

theorem inv_step {N : Nat} (hN : N ≤ maxPools) {s s' : Sys} (h : Inv N s) (hs : Step N s s') : Inv N s' := by
  have acq : ∀ (t : Nat), s.mutex = none → ∀ t', (some t = some t' ↔ if t' = t then true = true else s.mutex = some t') := by
    intro t hm t'
    rw [hm]
    by_cases e : t' = t
    · simp [e]
    · simp [e, Ne.symm e]
  have rel : ∀ (t : Nat), inMutex (s.pc t) = true → ∀ t', ((none : Option Nat) = some t' ↔
      if t' = t then false = true else s.mutex = some t') := by
    intro t hm t'
    rw [(h.mtx t).1 hm]
    by_cases e : t' = t
    · simp [e]
    · simp [e, Ne.symm e]
  have keep : ∀ (t : Nat), inMutex (s.pc t) = true → ∀ t', (s.mutex = some t' ↔
      if t' = t then true = true else s.mutex = some t') := by
    intro t hm t'
    rw [(h.mtx t).1 hm]
    by_cases e : t' = t
    · simp [e]
    · simp [e, Ne.symm e]
  have keepF : ∀ (t : Nat), inMutex (s.pc t) = false → ∀ t', (s.mutex = some t' ↔
      if t' = t then false = true else s.mutex = some t') := by
    intro t hm t'
    by_cases e : t' = t
    · subst e
      simp only [if_pos, Bool.false_eq_true, iff_false]
      intro e
      rw [(h.mtx t').2 e] at hm
      exact absurd hm (by simp)
    · simp [e]
  cases hs with
  | take t p ht hp =>
    have hpc : ∀ t', ({ s.goto t (.want p (s.taken p)) with taken := Function.update s.taken p (s.taken p + 1) } : Sys).pc t' =
        if t' = t then .want p (s.taken p) else s.pc t' := fun t' => goto_pc s t t' _
    have hheld : ∀ q, Held { s.goto t (.want p (s.taken p)) with taken := Function.update s.taken p (s.taken p + 1) } q ↔
        Held s q := by
      intro q
      constructor
      · rintro ⟨t', n, e⟩
        rw [hpc] at e
        split at e
        · simp at e
        · exact ⟨t', n, e⟩
      · rintro ⟨t', n, e⟩
        refine ⟨t', n, ?_⟩
        rw [hpc]
        split
        · rename_i e'; rw [e', ht] at e; simp at e
        · exact e
    have hle := h.le p hp
    refine ⟨?_, ?_, ?_, ?_, ?_, ?_, ?_, ?_, ?_, ?_, ?_, h.ok⟩
    · intro t'
      rw [hpc]
      show _ ↔ s.mutex = some t'
      rw [← h.mtx]
      split
      · rename_i e; rw [e, ht]; simp [inMutex]
      · rfl
    · intro t' q n e
      rw [hpc] at e
      show q < N ∧ s.fifoCnt q ≤ n ∧ n < Function.update s.taken p (s.taken p + 1) q
      split at e
      · simp only [owns, Option.some.injEq, Prod.mk.injEq] at e
        obtain ⟨rfl, rfl⟩ := e
        rw [Function.update_self]
        exact ⟨hp, hle, by omega⟩
      · obtain ⟨e1, e2, e3⟩ := h.range t' q n e
        refine ⟨e1, e2, ?_⟩
        by_cases hq : q = p
        · subst hq; rw [Function.update_self]; omega
        · rw [Function.update_of_ne hq]; exact e3
    · intro t' q n e g
      rw [hpc] at e g
      split at e
      · rename_i e'
        rw [if_pos e'] at g
        simp [granted] at g
      · rename_i e'
        rw [if_neg e'] at g
        exact h.next t' q n e g
    · intro t' q e
      rw [hpc] at e
      split at e
      · simp [poolOf] at e
      · exact h.pool t' q e
    · intro t' q n e
      rw [hpc] at e
      split at e
      · simp at e
      · exact h.hold t' q n e
    · intro hf
      apply h.free
      intro t'
      have := hf t'
      rw [hpc] at this
      split at this
      · rename_i e; rw [e, ht]; simp [isHolding]
      · exact this
    · intro q n h1 h2 h3
      change n < Function.update s.taken p (s.taken p + 1) q at h3
      by_cases hn : q = p ∧ n = s.taken p
      · obtain ⟨rfl, rfl⟩ := hn
        exact ⟨t, by rw [hpc, if_pos rfl]; rfl⟩
      · have h3' : n < s.taken q := by
          by_cases hq : q = p
          · subst hq
            rw [Function.update_self] at h3
            have : n ≠ s.taken q := fun e => hn ⟨rfl, e⟩
            omega
          · rw [Function.update_of_ne hq] at h3; exact h3
        obtain ⟨t', e⟩ := h.own q n h1 h2 h3'
        refine ⟨t', ?_⟩
        rw [hpc, if_neg]
        · exact e
        · intro e'; rw [e', ht] at e; simp [owns] at e
    · intro t1 t2 x e1 e2
      rw [hpc] at e1 e2
      split at e1 <;> split at e2
      · rename_i a b; rw [a, b]
      · simp only [owns, Option.some.injEq] at e1
        subst e1
        have := (h.range t2 _ _ e2).2.2
        omega
      · simp only [owns, Option.some.injEq] at e2
        subst e2
        have := (h.range t1 _ _ e1).2.2
        omega
      · exact h.uniq t1 t2 x e1 e2
    · intro q hq
      show s.fifoCnt q ≤ Function.update s.taken p (s.taken p + 1) q
      have := h.le q hq
      by_cases e : q = p
      · subst e; rw [Function.update_self]; omega
      · rw [Function.update_of_ne e]; exact this
    · intro q hq hh
      rw [hheld] at hh
      exact h.ord q hq hh
    · intro q hq hh
      rw [hheld] at hh
      exact h.ordH q hq hh
  | enter t p n ht hm =>
    exact move h ht rfl rfl rfl (by simp [owns, granted]) (by simp [poolOf]) (acq t hm)
  | assertOk t p n ht hle =>
    exact move (m := s.mutex) h ht rfl rfl rfl (by simp [owns, granted]) (by simp [poolOf]) (keep t (by rw [ht]; rfl))
  | assertFail t p n ht hlt =>
    have := (h.range t p n (by rw [ht]; rfl)).2.1
    omega
  | sleep t p n ht hne =>
    exact move h ht rfl rfl rfl (by simp [owns, granted]) (by simp [poolOf]) (rel t (by rw [ht]; rfl))
  | wake t p n ht hm =>
    exact move h ht rfl rfl rfl (by simp [owns, granted]) (by simp [poolOf]) (acq t hm)
  | timeout t p n ht hm =>
    exact move (m := s.mutex) h ht rfl rfl rfl (by simp [owns, granted]) (by simp [poolOf]) (keepF t (by rw [ht]; rfl))
  | quit t p n ht hm =>
    exact move (m := s.mutex) h ht rfl rfl rfl (by simp [owns, granted]) (by simp [poolOf]) (keepF t (by rw [ht]; rfl))
  | grant t p n ht he =>
    refine move h ht rfl rfl rfl ?_ (by simp [poolOf]) (rel t (by rw [ht]; rfl))
    intro q k e _
    simp only [owns, Option.some.injEq, Prod.mk.injEq] at e
    obtain ⟨rfl, rfl⟩ := e
    exact he
  | lockFifo t p n ht hm =>
    have hr := h.range t p n (by rw [ht]; rfl)
    refine move h ht rfl rfl rfl ?_ ?_ (acq t hm)
    · intro q k e _
      simp only [owns, Option.some.injEq, Prod.mk.injEq] at e
      obtain ⟨rfl, rfl⟩ := e
      exact h.next t p n (by rw [ht]; rfl) (by rw [ht]; rfl)
    · intro q e
      simp only [poolOf, Option.some.injEq] at e
      omega
  | lockPdc t p ht hm =>
    have hp := h.pool t p (by rw [ht]; rfl)
    refine move h ht rfl rfl rfl (by simp [owns]) ?_ (acq t hm)
    intro q e
    simp only [poolOf, Option.some.injEq] at e
    omega
  | tryLock t ht hm =>
    refine move h ht rfl rfl rfl (by simp [owns]) ?_ (acq t hm)
    intro q e
    simp only [poolOf, Option.some.injEq] at e
    subst e; decide
  | holdFail t p n ht hlt =>
    have := h.idHolder_free (t := t) (by rw [ht]; rfl) (by rw [ht]; rfl)
    omega
  | releaseFail t p n ht hge =>
    have h1 := h.hold t p _ ht
    have h2 := h.pool t p (by rw [ht]; rfl)
    omega
  | leaveFifo t p n ht =>
    exact move h ht rfl rfl rfl (by simp [owns]) (by simp [poolOf]) (rel t (by rw [ht]; rfl))
  | leavePdc t p n ht =>
    have hp := h.pool t p (by rw [ht]; rfl)
    refine move h ht rfl rfl rfl (by simp [owns]) ?_ (rel t (by rw [ht]; rfl))
    intro q e
    simp only [poolOf, Option.some.injEq] at e
    omega
  | leave t p ht =>
    exact move h ht rfl rfl rfl (by simp [owns]) (by simp [poolOf]) (rel t (by rw [ht]; rfl))
  | holdOk t p n ht hge =>
    have hin : inMutex (s.pc t) = true := by rw [ht]; rfl
    have hnh : ∀ t', isHolding (s.pc t') = false := by
      intro t'
      by_cases e : isHolding (s.pc t') = true
      · have := h.only hin (inMutex_of_holding e)
        rw [this, ht] at e; simp [isHolding] at e
      · simpa using e
    generalize hs' : ({ s.goto t (.holds p n) with
        idHolder := p
        order := s.order ++ orderEntry p n } : Sys) = s'
    have hpc : ∀ t', s'.pc t' = if t' = t then .holds p n else s.pc t' := by
      rw [← hs']; exact fun t' => goto_pc s t t' _
    have e1 : s'.mutex = s.mutex := by rw [← hs']; rfl
    have e2 : s'.fifoCnt = s.fifoCnt := by rw [← hs']; rfl
    have e3 : s'.taken = s.taken := by rw [← hs']; rfl
    have e4 : s'.idHolder = p := by rw [← hs']
    have e5 : s'.order = s.order ++ orderEntry p n := by rw [← hs']
    have e6 : s'.aborted = s.aborted := by rw [← hs']; rfl
    have howns : ∀ t', owns (s'.pc t') = owns (s.pc t') := by
      intro t'
      rw [hpc]
      split
      · rename_i e; rw [e, ht]; cases n <;> rfl
      · rfl
    have hheld : ∀ q, Held s' q ↔ q = p ∧ n ≠ none := by
      intro q
      constructor
      · rintro ⟨t', k, e⟩
        rw [hpc] at e
        split at e
        · simp only [Pc.holds.injEq] at e
          exact ⟨e.1.symm, by rw [e.2]; simp⟩
        · have := hnh t'
          rw [e] at this; simp [isHolding] at this
      · rintro ⟨rfl, hn⟩
        obtain ⟨k, rfl⟩ := Option.ne_none_iff_exists'.1 hn
        exact ⟨t, k, by rw [hpc, if_pos rfl]⟩
    have hheld0 : ∀ q, ¬ Held s q := by
      rintro q ⟨t', k, e⟩
      have := hnh t'
      rw [e] at this; simp [isHolding] at this
    have hord : ∀ q, orderOf s' q = orderOf s q ++ (if p = q then n.toList else []) := by
      intro q
      simp only [orderOf, e5, List.filterMap_append]
      congr 1
      cases n with
      | none => simp [orderEntry]
      | some k => by_cases e : p = q <;> simp [e, orderEntry]
    refine ⟨?_, ?_, ?_, ?_, ?_, ?_, ?_, ?_, by rw [e2, e3]; exact h.le, ?_, ?_, by rw [e6]; exact h.ok⟩
    · intro t'
      rw [hpc, e1, ← h.mtx]
      split
      · rename_i e; rw [e, ht]; simp [inMutex]
      · rfl
    · intro t' q k e
      rw [howns] at e
      rw [e2, e3]
      exact h.range t' q k e
    · intro t' q k e g
      rw [howns] at e
      rw [hpc] at g
      rw [e2]
      split at g
      · rename_i e'
        subst e'
        refine h.next t' q k e ?_
        rw [ht] at e ⊢
        cases n with
        | none => simp [owns] at e
        | some => rfl
      · exact h.next t' q k e g
    · intro t' q e
      rw [hpc] at e
      split at e
      · exact h.pool t q (by rw [ht]; exact e)
      · exact h.pool t' q e
    · intro t' q k e
      rw [hpc] at e
      split at e
      · simp only [Pc.holds.injEq] at e
        rw [e4]; exact e.1
      · have := hnh t'
        rw [e] at this; simp [isHolding] at this
    · intro hf
      have := hf t
      rw [hpc, if_pos rfl] at this
      simp [isHolding] at this
    · intro q k h1 h2 h3
      rw [e2] at h2
      rw [e3] at h3
      obtain ⟨t', e⟩ := h.own q k h1 h2 h3
      exact ⟨t', by rw [howns]; exact e⟩
    · intro t1 t2 x g1 g2
      rw [howns] at g1 g2
      exact h.uniq t1 t2 x g1 g2
    · intro q hq hh
      rw [hheld] at hh
      rw [hord, e2, h.ord q hq (hheld0 q)]
      cases n with
      | none => simp
      | some k =>
        have : p ≠ q := fun e => hh ⟨e.symm, by simp⟩
        simp [this]
    · intro q hq hh
      rw [hheld] at hh
      obtain ⟨rfl, hn⟩ := hh
      obtain ⟨k, rfl⟩ := Option.ne_none_iff_exists'.1 hn
      rw [hord, e2, h.ord q hq (hheld0 q)]
      have := h.next t q k (by rw [ht]; rfl) (by rw [ht]; rfl)
      simp [List.range_succ, this]
  | releaseFifo t p n ht hlt =>
    have hin : inMutex (s.pc t) = true := by rw [ht]; rfl
    have hid := h.hold t p _ ht
    have hr := h.range t p n (by rw [ht]; rfl)
    have hnx := h.next t p n (by rw [ht]; rfl) (by rw [ht]; rfl)
    have hnh : ∀ t', t' ≠ t → isHolding (s.pc t') = false := by
      intro t' hne
      by_cases e : isHolding (s.pc t') = true
      · exact absurd (h.only hin (inMutex_of_holding e)) hne
      · simpa using e
    generalize hs' : ({ s.goto t (.leaving p (some n)) with
        fifoCnt := Function.update s.fifoCnt s.idHolder (s.fifoCnt s.idHolder + 1), idHolder := maxPools } : Sys) = s'
    have hpc : ∀ t', s'.pc t' = if t' = t then .leaving p (some n) else s.pc t' := by
      rw [← hs']; exact fun t' => goto_pc s t t' _
    have e1 : s'.mutex = s.mutex := by rw [← hs']; rfl
    have e2 : ∀ q, s'.fifoCnt q = if q = p then n + 1 else s.fifoCnt q := by
      intro q
      rw [← hs']
      show Function.update s.fifoCnt s.idHolder (s.fifoCnt s.idHolder + 1) q = _
      rw [hid, hnx, Function.update_apply]
    have e3 : s'.taken = s.taken := by rw [← hs']; rfl
    have e4 : s'.idHolder = maxPools := by rw [← hs']
    have e5 : ∀ q, orderOf s' q = orderOf s q := by rw [← hs']; intro q; rfl
    have e6 : s'.aborted = s.aborted := by rw [← hs']; rfl
    have hheld : ∀ q, ¬ Held s' q := by
      rintro q ⟨t', k, e⟩
      rw [hpc] at e
      split at e
      · simp at e
      · rename_i hne
        have := hnh t' hne
        rw [e] at this; simp [isHolding] at this
    have hother : ∀ t' q k, t' ≠ t → owns (s.pc t') = some (q, k) → q = p → n < k := by
      intro t' q k hne e hq
      subst hq
      have h1 := h.range t' q k e
      have h2 : k ≠ n := by
        rintro rfl
        exact hne (h.uniq t' t (q, k) e (by rw [ht]; rfl))
      omega
    refine ⟨?_, ?_, ?_, ?_, ?_, fun _ => e4, ?_, ?_, ?_, ?_, fun q _ hh => absurd hh (hheld q), by rw [e6]; exact h.ok⟩
    · intro t'
      rw [hpc, e1, ← h.mtx]
      split
      · rename_i e; rw [e, ht]; simp [inMutex]
      · rfl
    · intro t' q k e
      rw [hpc] at e
      split at e
      · simp [owns] at e
      · rename_i hne
        obtain ⟨g1, g2, g3⟩ := h.range t' q k e
        have g4 := hother t' q k hne e
        rw [e2, e3]
        refine ⟨g1, ?_, g3⟩
        split
        · rename_i hq; have := g4 hq; omega
        · exact g2
    · intro t' q k e g
      rw [hpc] at e g
      split at e
      · simp [owns] at e
      · rename_i hne
        rw [if_neg hne] at g
        have g1 := h.next t' q k e g
        have g4 := hother t' q k hne e
        rw [e2]
        split
        · rename_i hq; have := g4 hq; subst hq; omega
        · exact g1
    · intro t' q e
      rw [hpc] at e
      split at e
      · exact h.pool t q (by rw [ht]; exact e)
      · exact h.pool t' q e
    · intro t' q k e
      rw [hpc] at e
      split at e
      · simp at e
      · rename_i hne
        have := hnh t' hne
        rw [e] at this; simp [isHolding] at this
    · intro q k h1 h2 h3
      rw [e2] at h2
      rw [e3] at h3
      have h2' : s.fifoCnt q ≤ k ∧ ¬ (q = p ∧ k = n) := by
        split at h2
        · rename_i hq; subst hq; omega
        · rename_i hq; exact ⟨h2, fun x => hq x.1⟩
      obtain ⟨t', e⟩ := h.own q k h1 h2'.1 h3
      refine ⟨t', ?_⟩
      rw [hpc, if_neg]
      · exact e
      · rintro rfl
        rw [ht] at e
        simp only [owns, Option.some.injEq, Prod.mk.injEq] at e
        exact h2'.2 ⟨e.1.symm, e.2.symm⟩
    · intro t1 t2 x g1 g2
      rw [hpc] at g1 g2
      split at g1
      · simp [owns] at g1
      · split at g2
        · simp [owns] at g2
        · exact h.uniq t1 t2 x g1 g2
    · intro q hq
      rw [e2, e3]
      split
      · rename_i e; subst e; omega
      · exact h.le q hq
    · intro q hq _
      rw [e5, e2]
      split
      · rename_i e
        subst e
        rw [h.ordH q hq ⟨t, n, ht⟩, hnx]
      · rename_i hne
        apply h.ord q hq
        rintro ⟨t', k, e⟩
        by_cases htt : t' = t
        · rw [htt, ht] at e
          simp only [Pc.holds.injEq] at e
          exact hne e.1.symm
        · have := hnh t' htt
          rw [e] at this; simp [isHolding] at this
  | release t p ht =>
    have hin : inMutex (s.pc t) = true := by rw [ht]; rfl
    have hnh : ∀ t', t' ≠ t → isHolding (s.pc t') = false := by
      intro t' hne
      by_cases e : isHolding (s.pc t') = true
      · exact absurd (h.only hin (inMutex_of_holding e)) hne
      · simpa using e
    generalize hs' : ({ s.goto t (.leaving p none) with idHolder := maxPools } : Sys) = s'
    have hpc : ∀ t', s'.pc t' = if t' = t then .leaving p none else s.pc t' := by
      rw [← hs']; exact fun t' => goto_pc s t t' _
    have e1 : s'.mutex = s.mutex := by rw [← hs']; rfl
    have e2 : s'.fifoCnt = s.fifoCnt := by rw [← hs']; rfl
    have e3 : s'.taken = s.taken := by rw [← hs']; rfl
    have e4 : s'.idHolder = maxPools := by rw [← hs']
    have e5 : ∀ q, orderOf s' q = orderOf s q := by rw [← hs']; intro q; rfl
    have e6 : s'.aborted = s.aborted := by rw [← hs']; rfl
    have howns : ∀ t', owns (s'.pc t') = owns (s.pc t') := by
      intro t'
      rw [hpc]
      split
      · rename_i e; rw [e, ht]; rfl
      · rfl
    have hheld : ∀ q, ¬ Held s' q := by
      rintro q ⟨t', k, e⟩
      rw [hpc] at e
      split at e
      · simp at e
      · rename_i hne
        have := hnh t' hne
        rw [e] at this; simp [isHolding] at this
    have hheld0 : ∀ q, ¬ Held s q := by
      rintro q ⟨t', k, e⟩
      by_cases htt : t' = t
      · rw [htt, ht] at e; simp at e
      · have := hnh t' htt
        rw [e] at this; simp [isHolding] at this
    refine ⟨?_, ?_, ?_, ?_, ?_, fun _ => e4, ?_, ?_, by rw [e2, e3]; exact h.le, ?_,
      fun q _ hh => absurd hh (hheld q), by rw [e6]; exact h.ok⟩
    · intro t'
      rw [hpc, e1, ← h.mtx]
      split
      · rename_i e; rw [e, ht]; simp [inMutex]
      · rfl
    · intro t' q k e
      rw [howns] at e
      rw [e2, e3]
      exact h.range t' q k e
    · intro t' q k e g
      rw [howns] at e
      rw [hpc] at g
      rw [e2]
      split at g
      · simp [granted] at g
      · exact h.next t' q k e g
    · intro t' q e
      rw [hpc] at e
      split at e
      · exact h.pool t q (by rw [ht]; exact e)
      · exact h.pool t' q e
    · intro t' q k e
      rw [hpc] at e
      split at e
      · simp at e
      · rename_i hne
        have := hnh t' hne
        rw [e] at this; simp [isHolding] at this
    · intro q k h1 h2 h3
      rw [e2] at h2
      rw [e3] at h3
      obtain ⟨t', e⟩ := h.own q k h1 h2 h3
      exact ⟨t', by rw [howns]; exact e⟩
    · intro t1 t2 x g1 g2
      rw [howns] at g1 g2
      exact h.uniq t1 t2 x g1 g2
    · intro q hq _
      rw [e5, e2]
      exact h.ord q hq (hheld0 q)

theorem inv_init {N : Nat} : Inv N (init N) := by
  refine ⟨by simp [init, inMutex], by simp [init, owns], by simp [init, owns], by simp [init, poolOf],
    by simp [init], fun _ => rfl, ?_, by simp [init, owns], ?_, ?_, ?_, rfl⟩
  · intro p n _ _ h
    simp [init] at h
  · intro p hp
    simp [init, hp]
  · intro p hp _
    simp [init, hp, orderOf]
  · rintro p hp ⟨t, n, e⟩
    simp [init] at e

theorem reach_inv {N : Nat} (hN : N ≤ maxPools) {s : Sys} (h : Reach N s) : Inv N s := by
  induction h with
  | init => exact inv_init
  | step _ hs ih => exact inv_step hN ih hs

/-- C18: in every interleaving of any number of threads, at most one thread holds the token. -/
theorem C18_exclusive (N : Nat) (hN : N ≤ 4) (s : Sys) (h : Reach N s) (t t' p p' : Nat) (n n' : Option Nat)
    (h1 : s.pc t = .holds p n) (h2 : s.pc t' = .holds p' n') : t = t' :=
  (reach_inv hN h).only (by rw [h2]; rfl) (by rw [h1]; rfl)

/-- C18: the jobs of every pool obtain the token in the order 0, 1, 2, ... without gap. -/
theorem C18_order (N : Nat) (hN : N ≤ 4) (s : Sys) (h : Reach N s) (p : Nat) (hp : p < N) :
    ∃ k, s.order.filterMap (fun x => if x.1 = p then some x.2 else none) = List.range k := by
  have hi := reach_inv hN h
  by_cases hh : Held s p
  · exact ⟨_, hi.ordH p hp hh⟩
  · exact ⟨_, hi.ord p hp hh⟩

/-- C18: no assertion of the token fails, whatever the schedule. -/
theorem C18_no_abort (N : Nat) (hN : N ≤ 4) (s : Sys) (h : Reach N s) : s.aborted = false :=
  (reach_inv hN h).ok

/-- No thread has left because of the exit request. -/
def NoQuit (s : Sys) : Prop := ∀ t p n, s.pc t ≠ .quit p n

/-- A step without a new job and without an exit. -/
def Good (N : Nat) (s s' : Sys) : Prop :=
  Step N s s' ∧ (NoQuit s → NoQuit s') ∧ s'.taken = s.taken ∧ ∀ q, s.fifoCnt q ≤ s'.fifoCnt q

/-- Any number of them. -/
inductive Star (N : Nat) : Sys → Sys → Prop
  | refl (s) : Star N s s
  | head {a b c} : Good N a b → Star N b c → Star N a c

theorem Star.trans {N : Nat} {a b c : Sys} (h1 : Star N a b) (h2 : Star N b c) : Star N a c := by
  induction h1 with
  | refl => exact h2
  | head g _ ih => exact .head g (ih h2)

theorem Star.facts {N : Nat} {a b : Sys} (hN : N ≤ maxPools) (h : Star N a b) :
    (Inv N a → Inv N b) ∧ (NoQuit a → NoQuit b) ∧ b.taken = a.taken ∧ (∀ q, a.fifoCnt q ≤ b.fifoCnt q) ∧
    (Reach N a → Reach N b) := by
  induction h with
  | refl => exact ⟨id, id, rfl, fun _ => Nat.le_refl _, id⟩
  | head g _ ih =>
    obtain ⟨g1, g2, g3, g4⟩ := g
    obtain ⟨i1, i2, i3, i4, i5⟩ := ih
    exact ⟨fun h => i1 (inv_step hN h g1), fun h => i2 (g2 h), i3.trans g3,
      fun q => Nat.le_trans (g4 q) (i4 q), fun h => i5 (.step h g1)⟩

theorem noQuit_goto {s : Sys} {t : Nat} {x : Pc} (hx : ∀ p n, x ≠ .quit p n) (h : NoQuit s) : NoQuit (s.goto t x) := by
  intro t' p n
  rw [goto_pc]
  split
  · exact hx p n
  · exact h t' p n

/-- A good step that leaves the counters alone. -/
theorem good {N : Nat} {s s' : Sys} {t : Nat} {x : Pc} (hs : Step N s s') (hx : ∀ p n, x ≠ .quit p n)
    (hpc : s'.pc = (s.goto t x).pc) (htk : s'.taken = s.taken) (hf : ∀ q, s.fifoCnt q ≤ s'.fifoCnt q) : Good N s s' := by
  refine ⟨hs, fun h => ?_, htk, hf⟩
  have := noQuit_goto (t := t) hx h
  intro t' p n
  rw [hpc]
  exact this t' p n

section path
variable {N : Nat} {s : Sys} {t p n : Nat}

theorem p_holds (hi : Inv N s) (h : s.pc t = .holds p (some n)) :
    ∃ s', Star N s s' ∧ s'.fifoCnt p = s.fifoCnt p + 1 := by
  have h1 := hi.hold t p _ h
  have h2 := hi.pool t p (by rw [h]; rfl)
  refine ⟨_, .head (good (.releaseFifo s t p n h (by omega)) (by simp) rfl rfl ?_) (.refl _), ?_⟩
  · intro q
    show s.fifoCnt q ≤ Function.update s.fifoCnt s.idHolder (s.fifoCnt s.idHolder + 1) q
    rw [Function.update_apply]
    split
    · rename_i e; rw [e]; omega
    · exact Nat.le_refl _
  · show Function.update s.fifoCnt s.idHolder (s.fifoCnt s.idHolder + 1) p = _
    rw [h1, Function.update_self]

theorem p_locked (hN : N ≤ maxPools) (hi : Inv N s) (h : s.pc t = .locked p (some n)) :
    ∃ s', Star N s s' ∧ s'.fifoCnt p = s.fifoCnt p + 1 := by
  have h1 := hi.idHolder_free (t := t) (by rw [h]; rfl) (by rw [h]; rfl)
  have hs := Step.holdOk (nPools := N) s t p (some n) h (by omega)
  obtain ⟨s', g1, g2⟩ := p_holds (inv_step hN hi hs) (t := t) (p := p) (n := n) (by simp [Sys.goto])
  exact ⟨s', .head (good hs (by simp) rfl rfl fun _ => Nat.le_refl _) g1, g2⟩

theorem p_granted (hN : N ≤ maxPools) (hi : Inv N s) (h : s.pc t = .granted p n) (hm : s.mutex = none) :
    ∃ s', Star N s s' ∧ s'.fifoCnt p = s.fifoCnt p + 1 := by
  have hs := Step.lockFifo (nPools := N) s t p n h hm
  obtain ⟨s', g1, g2⟩ := p_locked hN (inv_step hN hi hs) (t := t) (p := p) (n := n) (by simp [Sys.goto])
  exact ⟨s', .head (good hs (by simp) rfl rfl fun _ => Nat.le_refl _) g1, g2⟩

theorem p_checking (hN : N ≤ maxPools) (hi : Inv N s) (h : s.pc t = .checking p n) (hn : s.fifoCnt p = n) :
    ∃ s', Star N s s' ∧ s'.fifoCnt p = s.fifoCnt p + 1 := by
  have hs := Step.grant (nPools := N) s t p n h hn
  obtain ⟨s', g1, g2⟩ := p_granted hN (inv_step hN hi hs) (t := t) (p := p) (n := n) (by simp [Sys.goto]) rfl
  exact ⟨s', .head (good hs (by simp) rfl rfl fun _ => Nat.le_refl _) g1, g2⟩

theorem p_entered (hN : N ≤ maxPools) (hi : Inv N s) (h : s.pc t = .entered p n) (hn : s.fifoCnt p = n) :
    ∃ s', Star N s s' ∧ s'.fifoCnt p = s.fifoCnt p + 1 := by
  have hs := Step.assertOk (nPools := N) s t p n h (by omega)
  obtain ⟨s', g1, g2⟩ := p_checking hN (inv_step hN hi hs) (t := t) (p := p) (n := n) (by simp [Sys.goto]) hn
  exact ⟨s', .head (good hs (by simp) rfl rfl fun _ => Nat.le_refl _) g1, g2⟩

theorem p_want (hN : N ≤ maxPools) (hi : Inv N s) (h : s.pc t = .want p n) (hm : s.mutex = none) (hn : s.fifoCnt p = n) :
    ∃ s', Star N s s' ∧ s'.fifoCnt p = s.fifoCnt p + 1 := by
  have hs := Step.enter (nPools := N) s t p n h hm
  obtain ⟨s', g1, g2⟩ := p_entered hN (inv_step hN hi hs) (t := t) (p := p) (n := n) (by simp [Sys.goto]) hn
  exact ⟨s', .head (good hs (by simp) rfl rfl fun _ => Nat.le_refl _) g1, g2⟩

theorem p_asleep (hN : N ≤ maxPools) (hi : Inv N s) (h : s.pc t = .asleep p n) (hm : s.mutex = none) (hn : s.fifoCnt p = n) :
    ∃ s', Star N s s' ∧ s'.fifoCnt p = s.fifoCnt p + 1 := by
  have hs := Step.wake (nPools := N) s t p n h hm
  obtain ⟨s', g1, g2⟩ := p_checking hN (inv_step hN hi hs) (t := t) (p := p) (n := n) (by simp [Sys.goto]) hn
  exact ⟨s', .head (good hs (by simp) rfl rfl fun _ => Nat.le_refl _) g1, g2⟩

/-- The thread that has the mutex gives it back without needing any other thread. -/
def Drained (N : Nat) (s : Sys) (u : Nat) : Prop :=
  ∃ s', Star N s s' ∧ s'.mutex = none ∧ (∀ t, t ≠ u → s'.pc t = s.pc t) ∧
    ∀ q, owns (s.pc u) ≠ some (q, s.fifoCnt q) → s'.fifoCnt q = s.fifoCnt q

theorem d_leaving {u : Nat} {m : Option Nat} (h : s.pc u = .leaving p m) : Drained N s u := by
  cases m with
  | none =>
    exact ⟨_, .head (good (.leave s u p h) (by simp) rfl rfl fun _ => Nat.le_refl _) (.refl _), rfl,
      fun t ht => by simp [Sys.goto, ht], fun _ _ => rfl⟩
  | some n =>
    exact ⟨_, .head (good (.leaveFifo s u p n h) (by simp) rfl rfl fun _ => Nat.le_refl _) (.refl _), rfl,
      fun t ht => by simp [Sys.goto, ht], fun _ _ => rfl⟩

theorem d_holds (hi : Inv N s) {u : Nat} {m : Option Nat} (h : s.pc u = .holds p m) : Drained N s u := by
  cases m with
  | none =>
    obtain ⟨s', g1, g2, g3, g4⟩ := d_leaving (N := N) (s := { s.goto u (.leaving p none) with idHolder := maxPools })
      (u := u) (p := p) (m := none) (by simp [Sys.goto])
    refine ⟨s', .head (good (.release s u p h) (by simp) rfl rfl fun _ => Nat.le_refl _) g1, g2, ?_, ?_⟩
    · intro t ht
      rw [g3 t ht]; simp [Sys.goto, ht]
    · intro q hq
      refine g4 q ?_
      simp [Sys.goto, owns]
  | some n =>
    have h1 := hi.hold u p _ h
    have h2 := hi.pool u p (by rw [h]; rfl)
    have h3 := hi.next u p n (by rw [h]; rfl) (by rw [h]; rfl)
    obtain ⟨s', g1, g2, g3, g4⟩ := d_leaving (N := N) (s := { s.goto u (.leaving p (some n)) with
        fifoCnt := Function.update s.fifoCnt s.idHolder (s.fifoCnt s.idHolder + 1), idHolder := maxPools })
      (u := u) (p := p) (m := some n) (by simp [Sys.goto])
    refine ⟨s', .head (good (.releaseFifo s u p n h (by omega)) (by simp) rfl rfl ?_) g1, g2, ?_, ?_⟩
    · intro q
      show s.fifoCnt q ≤ Function.update s.fifoCnt s.idHolder (s.fifoCnt s.idHolder + 1) q
      rw [Function.update_apply]
      split
      · rename_i e; rw [e]; omega
      · exact Nat.le_refl _
    · intro t ht
      rw [g3 t ht]; simp [Sys.goto, ht]
    · intro q hq
      rw [g4 q (by simp [Sys.goto, owns])]
      show Function.update s.fifoCnt s.idHolder (s.fifoCnt s.idHolder + 1) q = _
      rw [Function.update_of_ne]
      rw [h1]
      rintro rfl
      rw [h] at hq
      exact hq (by simp [owns, h3])

theorem d_locked (hN : N ≤ maxPools) (hi : Inv N s) {u : Nat} {m : Option Nat} (h : s.pc u = .locked p m) :
    Drained N s u := by
  have h1 := hi.idHolder_free (t := u) (by rw [h]; rfl) (by rw [h]; rfl)
  have hs := Step.holdOk (nPools := N) s u p m h (by omega)
  obtain ⟨s', g1, g2, g3, g4⟩ := d_holds (inv_step hN hi hs) (u := u) (p := p) (m := m) (by simp [Sys.goto])
  refine ⟨s', .head (good hs (by simp) rfl rfl fun _ => Nat.le_refl _) g1, g2, ?_, ?_⟩
  · intro t ht
    rw [g3 t ht]; simp [Sys.goto, ht]
  · intro q hq
    refine g4 q ?_
    rw [h] at hq
    cases m with
    | none => simp [Sys.goto, owns]
    | some => simpa [Sys.goto, owns] using hq

theorem d_checking {u : Nat} (h : s.pc u = .checking p n) : Drained N s u := by
  by_cases hn : s.fifoCnt p = n
  · exact ⟨_, .head (good (.grant s u p n h hn) (by simp) rfl rfl fun _ => Nat.le_refl _) (.refl _), rfl,
      fun t ht => by simp [Sys.goto, ht], fun _ _ => rfl⟩
  · exact ⟨_, .head (good (.sleep s u p n h hn) (by simp) rfl rfl fun _ => Nat.le_refl _) (.refl _), rfl,
      fun t ht => by simp [Sys.goto, ht], fun _ _ => rfl⟩

theorem d_entered (hi : Inv N s) {u : Nat} (h : s.pc u = .entered p n) : Drained N s u := by
  have h1 := hi.range u p n (by rw [h]; rfl)
  obtain ⟨s', g1, g2, g3, g4⟩ := d_checking (N := N) (s := s.goto u (.checking p n)) (u := u) (p := p) (n := n)
    (by simp [Sys.goto])
  refine ⟨s', .head (good (.assertOk s u p n h h1.2.1) (by simp) rfl rfl fun _ => Nat.le_refl _) g1, g2, ?_, ?_⟩
  · intro t ht
    rw [g3 t ht]; simp [Sys.goto, ht]
  · intro q hq
    refine g4 q ?_
    rw [h] at hq
    simpa [Sys.goto, owns] using hq

theorem drain (hN : N ≤ maxPools) (hi : Inv N s) {u : Nat} (h : s.mutex = some u) : Drained N s u := by
  have h1 := (hi.mtx u).2 h
  cases hpc : s.pc u with
  | entered p n => exact d_entered hi hpc
  | checking p n => exact d_checking hpc
  | locked p m => exact d_locked hN hi hpc
  | holds p m => exact d_holds hi hpc
  | leaving p m => exact d_leaving hpc
  | idle | want | asleep | granted | pdc | quit => rw [hpc] at h1; simp [inMutex] at h1

/-- The next job of a pool can be done. -/
theorem next_done (hN : N ≤ maxPools) (hi : Inv N s) (ht : owns (s.pc t) = some (p, s.fifoCnt p))
    (hq : ∀ q k, s.pc t ≠ .quit q k) : ∃ s', Star N s s' ∧ s'.fifoCnt p = s.fifoCnt p + 1 := by
  have free : ∀ (s1 : Sys), Inv N s1 → s1.mutex = none → owns (s1.pc t) = some (p, s1.fifoCnt p) →
      (∀ q k, s1.pc t ≠ .quit q k) → ∃ s', Star N s1 s' ∧ s'.fifoCnt p = s1.fifoCnt p + 1 := by
    intro s1 hi hm ho hq
    have hnm : inMutex (s1.pc t) = false := by
      by_cases e : inMutex (s1.pc t) = true
      · have := (hi.mtx t).1 e
        rw [hm] at this; exact absurd this (by simp)
      · simpa using e
    cases hpc : s1.pc t with
    | want q k =>
      rw [hpc] at ho
      simp only [owns, Option.some.injEq, Prod.mk.injEq] at ho
      obtain ⟨rfl, rfl⟩ := ho
      exact p_want hN hi hpc hm rfl
    | asleep q k =>
      rw [hpc] at ho
      simp only [owns, Option.some.injEq, Prod.mk.injEq] at ho
      obtain ⟨rfl, rfl⟩ := ho
      exact p_asleep hN hi hpc hm rfl
    | granted q k =>
      rw [hpc] at ho
      simp only [owns, Option.some.injEq, Prod.mk.injEq] at ho
      obtain ⟨rfl, rfl⟩ := ho
      exact p_granted hN hi hpc hm
    | quit q k => exact absurd hpc (hq q k)
    | idle | pdc | leaving => rw [hpc] at ho; simp [owns] at ho
    | entered | checking | locked | holds => rw [hpc] at hnm; simp [inMutex] at hnm
  cases hm : s.mutex with
  | none => exact free s hi hm ht hq
  | some u =>
    by_cases htu : t = u
    · subst htu
      have hin := (hi.mtx t).2 hm
      cases hpc : s.pc t with
      | entered q k =>
        rw [hpc] at ht
        simp only [owns, Option.some.injEq, Prod.mk.injEq] at ht
        obtain ⟨rfl, rfl⟩ := ht
        exact p_entered hN hi hpc rfl
      | checking q k =>
        rw [hpc] at ht
        simp only [owns, Option.some.injEq, Prod.mk.injEq] at ht
        obtain ⟨rfl, rfl⟩ := ht
        exact p_checking hN hi hpc rfl
      | locked q k =>
        rw [hpc] at ht
        cases k with
        | none => simp [owns] at ht
        | some k =>
          simp only [owns, Option.some.injEq, Prod.mk.injEq] at ht
          obtain ⟨rfl, rfl⟩ := ht
          exact p_locked hN hi hpc
      | holds q k =>
        rw [hpc] at ht
        cases k with
        | none => simp [owns] at ht
        | some k =>
          simp only [owns, Option.some.injEq, Prod.mk.injEq] at ht
          obtain ⟨rfl, rfl⟩ := ht
          exact p_holds hi hpc
      | leaving => rw [hpc] at ht; simp [owns] at ht
      | idle | want | asleep | granted | pdc | quit => rw [hpc] at hin; simp [inMutex] at hin
    · obtain ⟨s1, g1, g2, g3, g4⟩ := drain hN hi hm
      obtain ⟨f1, -, -, -, -⟩ := g1.facts hN
      have e1 : s1.fifoCnt p = s.fifoCnt p := by
        apply g4
        intro e
        exact htu (hi.uniq t u _ ht e)
      have e2 := g3 t htu
      obtain ⟨s', k1, k2⟩ := free s1 (f1 hi) g2 (by rw [e2, e1]; exact ht) (by rw [e2]; exact hq)
      exact ⟨s', g1.trans k1, by rw [k2, e1]⟩

end path

/-- C18, no deadlock: from every reachable state in which no thread has been told to exit, all jobs
taken out of the queues so far can be completed, without further jobs arriving. -/
theorem C18_no_deadlock (N : Nat) (hN : N ≤ 4) (s : Sys) (h : Reach N s) (hq : NoQuit s) :
    ∃ s', Reach N s' ∧ s'.taken = s.taken ∧ ∀ p < N, s'.fifoCnt p = s.taken p := by
  have key : ∀ (k : Nat) (s : Sys), Reach N s → NoQuit s →
      ((List.range N).map fun p => s.taken p - s.fifoCnt p).sum ≤ k →
      ∃ s', Reach N s' ∧ s'.taken = s.taken ∧ ∀ p < N, s'.fifoCnt p = s.taken p := by
    intro k
    induction k with
    | zero =>
      intro s h _ hk
      have hi := reach_inv hN h
      refine ⟨s, h, rfl, fun p hp => ?_⟩
      have h1 := hi.le p hp
      have h2 : s.taken p - s.fifoCnt p ∈ (List.range N).map fun p => s.taken p - s.fifoCnt p :=
        List.mem_map.2 ⟨p, by simpa using hp, rfl⟩
      have := List.single_le_sum (by simp) _ h2
      omega
    | succ k ih =>
      intro s h hq hk
      have hi := reach_inv hN h
      by_cases hall : ∀ p < N, s.fifoCnt p = s.taken p
      · exact ⟨s, h, rfl, hall⟩
      · simp only [not_forall] at hall
        obtain ⟨p, hp, hne⟩ := hall
        have hle := hi.le p hp
        obtain ⟨t, ht⟩ := hi.own p (s.fifoCnt p) hp (Nat.le_refl _) (by omega)
        obtain ⟨s1, g1, g2⟩ := next_done hN hi ht (hq t)
        obtain ⟨-, f2, f3, f4, f5⟩ := g1.facts hN
        have hsum : ((List.range N).map fun p => s1.taken p - s1.fifoCnt p).sum <
            ((List.range N).map fun p => s.taken p - s.fifoCnt p).sum := by
          refine List.sum_lt_sum _ _ ?_ ?_
          · intro q _
            have := f4 q
            rw [f3]; omega
          · exact ⟨p, by simpa using hp, by rw [f3]; omega⟩
        obtain ⟨s', k1, k2, k3⟩ := ih s1 (f5 h) (f2 hq) (by omega)
        exact ⟨s', k1, k2.trans f3, fun q hq' => by rw [k3 q hq', f3]⟩
  exact key _ s h hq (Nat.le_refl _)

/-- Two threads of one pool; the one with job 1 comes first and has to sleep, the one with job 0 gets
the token. -/
example : ∃ s, Reach 1 s ∧ s.pc 0 = .holds 0 (some 0) ∧ s.pc 1 = .asleep 0 1 ∧ NoQuit s := by
  refine ⟨_, .step (.step (.step (.step (.step (.step (.step (.step (.step (.step .init
    (.take _ 0 0 rfl (by decide))) (.take _ 1 0 rfl (by decide))) (.enter _ 1 0 1 rfl rfl))
    (.assertOk _ 1 0 1 rfl (by decide))) (.sleep _ 1 0 1 rfl (by decide))) (.enter _ 0 0 0 rfl rfl))
    (.assertOk _ 0 0 0 rfl (by decide))) (.grant _ 0 0 0 rfl rfl)) (.lockFifo _ 0 0 0 rfl rfl))
    (.holdOk _ 0 0 (some 0) rfl (by decide)), rfl, rfl, ?_⟩
  intro t p n
  simp only [goto_pc, Token.init]
  repeat' (first | (split; simp) | simp)

end Verif.Phy.Token
