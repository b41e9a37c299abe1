import Verif.Model.HarqPool
import Mathlib.Data.List.Range

set_option linter.unusedSimpArgs false

/-!
# C20: HARQ processes are exclusively owned and recycled clean
-/

namespace Verif.Phy.HarqPool

/-- The process which a thread is working on. -/
def holds : Pc → Option Nat
  | .entry i _ | .filled i | .checked i | .run3 i _ | .run4 i | .run5 i | .own i | .keep1 i | .term1 i | .term2 i => some i
  | _ => none

/-- ... with the inner lock. -/
def holdsInner : Pc → Option Nat
  | .own i | .keep1 i | .term1 i => some i
  | _ => none

/-- The process which a thread has asked for with `get_process_tx/rx_running`. -/
def asks : Pc → Option Nat
  | .run1 i _ | .run2 i _ => some i
  | _ => none

/-- The process which a thread is about to get. -/
def getting : Pc → Option Nat
  | .entry i _ | .filled i | .checked i | .run1 i _ | .run2 i _ | .run3 i _ | .run4 i | .run5 i => some i
  | _ => none

/-- Calls of `get_process_tx/rx_running` as they are meant: the process was handed out before and not given back,
nobody else is about to get it, and if somebody is still working with it then it will be kept running. -/
def Disciplined (s : Sys) (i : Nat) : Prop :=
  s.outer i = true ∧ (∀ t, getting (s.pc t) ≠ some i) ∧
  ((s.kind i = .keep ∨ s.kind i = .increase) ∨ ∀ t, holds (s.pc t) ≠ some i)

/-- Redundancy versions in the order of use. -/
def rvOrder (k : Nat) : Nat := [0, 2, 3, 1].getD (k % 4) 0

/-! Values of these functions -/
@[local grind =] theorem holds_idle : holds (.idle) = none := rfl
@[local grind =] theorem holds_scan (i : Nat) (r : Req) : holds (.scan i r) = none := rfl
@[local grind =] theorem holds_entry (i : Nat) (r : Req) : holds (.entry i r) = some i := rfl
@[local grind =] theorem holds_filled (i : Nat) : holds (.filled i) = some i := rfl
@[local grind =] theorem holds_checked (i : Nat) : holds (.checked i) = some i := rfl
@[local grind =] theorem holds_null : holds (.null) = none := rfl
@[local grind =] theorem holds_run1 (i : Nat) (r : Req) : holds (.run1 i r) = none := rfl
@[local grind =] theorem holds_run2 (i : Nat) (r : Req) : holds (.run2 i r) = none := rfl
@[local grind =] theorem holds_run3 (i : Nat) (r : Req) : holds (.run3 i r) = some i := rfl
@[local grind =] theorem holds_run4 (i : Nat) : holds (.run4 i) = some i := rfl
@[local grind =] theorem holds_run5 (i : Nat) : holds (.run5 i) = some i := rfl
@[local grind =] theorem holds_own (i : Nat) : holds (.own i) = some i := rfl
@[local grind =] theorem holds_keep1 (i : Nat) : holds (.keep1 i) = some i := rfl
@[local grind =] theorem holds_term1 (i : Nat) : holds (.term1 i) = some i := rfl
@[local grind =] theorem holds_term2 (i : Nat) : holds (.term2 i) = some i := rfl
@[local grind =] theorem holdsInner_idle : holdsInner (.idle) = none := rfl
@[local grind =] theorem holdsInner_scan (i : Nat) (r : Req) : holdsInner (.scan i r) = none := rfl
@[local grind =] theorem holdsInner_entry (i : Nat) (r : Req) : holdsInner (.entry i r) = none := rfl
@[local grind =] theorem holdsInner_filled (i : Nat) : holdsInner (.filled i) = none := rfl
@[local grind =] theorem holdsInner_checked (i : Nat) : holdsInner (.checked i) = none := rfl
@[local grind =] theorem holdsInner_null : holdsInner (.null) = none := rfl
@[local grind =] theorem holdsInner_run1 (i : Nat) (r : Req) : holdsInner (.run1 i r) = none := rfl
@[local grind =] theorem holdsInner_run2 (i : Nat) (r : Req) : holdsInner (.run2 i r) = none := rfl
@[local grind =] theorem holdsInner_run3 (i : Nat) (r : Req) : holdsInner (.run3 i r) = none := rfl
@[local grind =] theorem holdsInner_run4 (i : Nat) : holdsInner (.run4 i) = none := rfl
@[local grind =] theorem holdsInner_run5 (i : Nat) : holdsInner (.run5 i) = none := rfl
@[local grind =] theorem holdsInner_own (i : Nat) : holdsInner (.own i) = some i := rfl
@[local grind =] theorem holdsInner_keep1 (i : Nat) : holdsInner (.keep1 i) = some i := rfl
@[local grind =] theorem holdsInner_term1 (i : Nat) : holdsInner (.term1 i) = some i := rfl
@[local grind =] theorem holdsInner_term2 (i : Nat) : holdsInner (.term2 i) = none := rfl
@[local grind =] theorem asks_idle : asks (.idle) = none := rfl
@[local grind =] theorem asks_scan (i : Nat) (r : Req) : asks (.scan i r) = none := rfl
@[local grind =] theorem asks_entry (i : Nat) (r : Req) : asks (.entry i r) = none := rfl
@[local grind =] theorem asks_filled (i : Nat) : asks (.filled i) = none := rfl
@[local grind =] theorem asks_checked (i : Nat) : asks (.checked i) = none := rfl
@[local grind =] theorem asks_null : asks (.null) = none := rfl
@[local grind =] theorem asks_run1 (i : Nat) (r : Req) : asks (.run1 i r) = some i := rfl
@[local grind =] theorem asks_run2 (i : Nat) (r : Req) : asks (.run2 i r) = some i := rfl
@[local grind =] theorem asks_run3 (i : Nat) (r : Req) : asks (.run3 i r) = none := rfl
@[local grind =] theorem asks_run4 (i : Nat) : asks (.run4 i) = none := rfl
@[local grind =] theorem asks_run5 (i : Nat) : asks (.run5 i) = none := rfl
@[local grind =] theorem asks_own (i : Nat) : asks (.own i) = none := rfl
@[local grind =] theorem asks_keep1 (i : Nat) : asks (.keep1 i) = none := rfl
@[local grind =] theorem asks_term1 (i : Nat) : asks (.term1 i) = none := rfl
@[local grind =] theorem asks_term2 (i : Nat) : asks (.term2 i) = none := rfl
@[local grind =] theorem getting_idle : getting (.idle) = none := rfl
@[local grind =] theorem getting_scan (i : Nat) (r : Req) : getting (.scan i r) = none := rfl
@[local grind =] theorem getting_entry (i : Nat) (r : Req) : getting (.entry i r) = some i := rfl
@[local grind =] theorem getting_filled (i : Nat) : getting (.filled i) = some i := rfl
@[local grind =] theorem getting_checked (i : Nat) : getting (.checked i) = some i := rfl
@[local grind =] theorem getting_null : getting (.null) = none := rfl
@[local grind =] theorem getting_run1 (i : Nat) (r : Req) : getting (.run1 i r) = some i := rfl
@[local grind =] theorem getting_run2 (i : Nat) (r : Req) : getting (.run2 i r) = some i := rfl
@[local grind =] theorem getting_run3 (i : Nat) (r : Req) : getting (.run3 i r) = some i := rfl
@[local grind =] theorem getting_run4 (i : Nat) : getting (.run4 i) = some i := rfl
@[local grind =] theorem getting_run5 (i : Nat) : getting (.run5 i) = some i := rfl
@[local grind =] theorem getting_own (i : Nat) : getting (.own i) = none := rfl
@[local grind =] theorem getting_keep1 (i : Nat) : getting (.keep1 i) = none := rfl
@[local grind =] theorem getting_term1 (i : Nat) : getting (.term1 i) = none := rfl
@[local grind =] theorem getting_term2 (i : Nat) : getting (.term2 i) = none := rfl

theorem holdsInner_holds {p : Pc} {i : Nat} (h : holdsInner p = some i) : holds p = some i := by
  cases p <;> simp_all [holds, holdsInner]

/-- Locks -/
structure Inv (s : Sys) : Prop where
  uniq : ∀ t u i, holds (s.pc t) = some i → holds (s.pc u) = some i → t = u
  outer : ∀ t i, holds (s.pc t) = some i → s.outer i = true
  innerT : ∀ t i, holdsInner (s.pc t) = some i → s.inner i = true
  innerF : ∀ t i, holds (s.pc t) = some i → holdsInner (s.pc t) ≠ some i → s.inner i = false
  innerN : ∀ i, s.inner i = true → s.outer i = true
  asksOuter : ∀ t i, asks (s.pc t) = some i → s.outer i = true
  asksUniq : ∀ t u i, asks (s.pc t) = some i → asks (s.pc u) = some i → t = u
  asksOk : ∀ t u i, asks (s.pc t) = some i → holds (s.pc u) = some i →
    (s.pc u = .own i ∨ s.pc u = .keep1 i) ∧ (s.kind i = .keep ∨ s.kind i = .increase)
  termKind : ∀ t i, s.pc t = .term1 i ∨ s.pc t = .term2 i → s.kind i = .terminate
  ok : s.aborted = false

theorem inv_init : Inv init := by
  constructor <;> simp [init, holds, holdsInner, asks]

set_option maxHeartbeats 4000000 in
theorem inv_step {n : Nat} {s s' : Sys} (h : Inv s) (hs : Step n Disciplined s s') : Inv s' := by
  obtain ⟨uniq, outer, innerT, innerF, innerN, asksOuter, asksUniq, asksOk, termKind, ok⟩ := h
  have hin : ∀ t i, holdsInner (s.pc t) = some i → holds (s.pc t) = some i := fun t i => holdsInner_holds
  cases hs with
  | fail t hf =>
    exfalso
    cases hp : s.pc t <;> simp only [hp, failing] at hf <;> grind
  | call t r hp => constructor <;> grind [Function.update_apply]
  | take t i r hp hi ho => constructor <;> grind [Function.update_apply]
  | skip t i r hp hi ho => constructor <;> grind [Function.update_apply]
  | none t i r hp hi => constructor <;> grind [Function.update_apply]
  | forget t hp => constructor <;> grind [Function.update_apply]
  | fill t i r hp hi => constructor <;> grind [Function.update_apply]
  | check t i hp ho hi => constructor <;> grind [Function.update_apply]
  | lock t i hp => constructor <;> grind [Function.update_apply]
  | runCall t i r hp ha =>
    obtain ⟨a1, a2, a3⟩ := ha
    have key : ∀ u, holds (s.pc u) = some i → (s.pc u = .own i ∨ s.pc u = .keep1 i) ∧ (s.kind i = .keep ∨ s.kind i = .increase) := by
      intro u hu
      have h2 := a2 u
      have hk : s.kind i = .keep ∨ s.kind i = .increase := a3.resolve_right (fun h => h u hu)
      have ht := termKind u i
      refine ⟨?_, hk⟩
      cases hp : s.pc u <;> grind
    have key2 : ∀ u, asks (s.pc u) ≠ some i := by
      intro u hu
      have h2 := a2 u
      cases hp : s.pc u <;> grind
    constructor <;> grind [Function.update_apply]
  | runCheck t i r hp ho => constructor <;> grind [Function.update_apply]
  | runBusy t i r hp hi => constructor <;> grind [Function.update_apply]
  | runFree t i r hp hi =>
    have key : ∀ u, holds (s.pc u) ≠ some i := by
      intro u hu
      have := asksOk t u i (by rw [hp]; rfl) hu
      grind
    constructor <;> grind [Function.update_apply]
  | runFill t i r hp => constructor <;> grind [Function.update_apply]
  | runLockCheck t i hp ho hi => constructor <;> grind [Function.update_apply]
  | runLock t i hp => constructor <;> grind [Function.update_apply]
  | use t i cb hp hc => constructor <;> grind [Function.update_apply]
  | hand t u i hp hu => constructor <;> grind [Function.update_apply]
  | finTerminate t i crc hp ho hi hk =>
    have hk' : s.kind i ≠ .keep ∧ s.kind i ≠ .increase := by
      cases hkk : s.kind i <;> simp [terminates, hkk] at hk ⊢
    constructor <;> grind [Function.update_apply]
  | finIncrease t i hp ho hi hk h7 => constructor <;> grind [Function.update_apply]
  | finExhausted t i hp hk h7 => constructor <;> grind [Function.update_apply]
  | finKeep t i crc hp hk hc => constructor <;> grind [Function.update_apply]
  | keepUnlock t i hp ho hi => constructor <;> grind [Function.update_apply]
  | termInner t i hp ho hi => constructor <;> grind [Function.update_apply]
  | termOuter t i hp ho hi => constructor <;> grind [Function.update_apply]

/-! ## Data -/

/-- No contents of a previous packet. -/
def NoSoft (f : Nat → Bool) : Prop := ∀ cb, f cb = false

/-- Contents only in the codeblocks of the packet. -/
def SoftIn (f : Nat → Bool) (C : Nat) : Prop := ∀ cb, f cb = true → cb < C

def RvOk (l : List Nat) (unw rv : Nat) : Prop :=
  l = (List.range l.length).map rvOrder ∧ unw = l.length ∧ rv = rvOrder l.length

theorem noSoft_softIn {f : Nat → Bool} {C : Nat} (h : NoSoft f) : SoftIn f C := by
  intro cb hc; rw [h cb] at hc; simp at hc

theorem softIn_update {f : Nat → Bool} {C cb : Nat} (h : SoftIn f C) (hc : cb < C) : SoftIn (Function.update f cb true) C := by
  intro x hx
  rw [Function.update_apply] at hx
  split at hx
  · omega
  · exact h x hx

theorem noSoft_reset {f : Nat → Bool} {C : Nat} (h : SoftIn f C) : NoSoft (fun cb => if cb < C then false else f cb) := by
  intro x
  dsimp only
  split
  · rfl
  · rename_i hx
    by_contra hc
    exact hx (h x (by simpa using hc))

theorem nextRv_rvOrder (k : Nat) : nextRv (rvOrder k) = rvOrder (k + 1) := by
  have : k % 4 = 0 ∨ k % 4 = 1 ∨ k % 4 = 2 ∨ k % 4 = 3 := by omega
  unfold rvOrder
  rw [Nat.add_mod]
  rcases this with h | h | h | h <;> rw [h] <;> rfl

theorem rvOk_nil : RvOk [] 0 0 := ⟨rfl, rfl, rfl⟩

theorem rvOk_step {l : List Nat} {unw rv : Nat} (h : RvOk l unw rv) : RvOk (l ++ [rv]) (unw + 1) (nextRv rv) := by
  obtain ⟨h1, h2, h3⟩ := h
  have hl : (l ++ [rv]).length = l.length + 1 := by simp
  refine ⟨?_, by rw [hl, h2], ?_⟩
  · rw [hl, List.range_succ, List.map_append, ← h1, h3]; rfl
  · rw [hl, h3, nextRv_rvOrder]

structure DInv (s : Sys) : Prop where
  free : ∀ i, s.outer i = false → NoSoft (s.soft i) ∧ s.rv i = 0 ∧ s.rvUnwrapped i = 0
  cleanEntry : ∀ t i r, s.pc t = .entry i r → NoSoft (s.soft i) ∧ s.rv i = 0 ∧ s.rvUnwrapped i = 0
  cleanSet : ∀ t i, s.pc t = .filled i ∨ s.pc t = .checked i → NoSoft (s.soft i) ∧ s.rv i = (s.req i).getD 0
  cleanTerm : ∀ t i, s.pc t = .term1 i ∨ s.pc t = .term2 i → NoSoft (s.soft i) ∧ s.rv i = 0 ∧ s.rvUnwrapped i = 0
  soft : ∀ i, SoftIn (s.soft i) (s.C i)
  handed : ∀ h ∈ s.handed, NoSoft h.soft ∧ h.rv = h.rvReq.getD 0
  sent : ∀ i, s.noRv i = true → RvOk (s.sent i) (s.rvUnwrapped i) (s.rv i)
  seven : ∀ i, s.rvUnwrapped i ≤ 7

theorem dinv_init : DInv init := by
  constructor <;> simp [init, NoSoft, SoftIn, rvOk_nil]

set_option maxHeartbeats 4000000 in
theorem dinv_step {n : Nat} {s s' : Sys} (hl : Inv s) (h : DInv s) (hs : Step n Disciplined s s') : DInv s' := by
  obtain ⟨free, cleanEntry, cleanSet, cleanTerm, soft, handed, sent, seven⟩ := h
  have uniq := hl.uniq
  have outer := hl.outer
  have hnil := rvOk_nil
  clear hl
  cases hs with
  | fail t hf => exact ⟨free, cleanEntry, cleanSet, cleanTerm, soft, handed, sent, seven⟩
  | call t r hp => constructor <;> grind [Function.update_apply]
  | take t i r hp hi ho => constructor <;> grind [Function.update_apply]
  | skip t i r hp hi ho => constructor <;> grind [Function.update_apply]
  | none t i r hp hi => constructor <;> grind [Function.update_apply]
  | forget t hp => constructor <;> grind [Function.update_apply]
  | fill t i r hp hi =>
    have e1 := cleanEntry t i r hp
    have e2 : r.rv.isNone = true → r.rv.getD (s.rv i) = 0 := by
      intro h; rw [Option.isNone_iff_eq_none] at h; rw [h]; exact e1.2.1
    have e3 : r.rv.getD (s.rv i) = r.rv.getD 0 := by rw [e1.2.1]
    have e4 := noSoft_softIn (C := r.C) e1.1
    constructor <;> grind [Function.update_apply]
  | check t i hp ho hi => constructor <;> grind [Function.update_apply]
  | lock t i hp =>
    have e1 := cleanSet t i (Or.inr hp)
    constructor <;> grind [Function.update_apply]
  | runCall t i r hp ha => constructor <;> grind [Function.update_apply]
  | runCheck t i r hp ho => constructor <;> grind [Function.update_apply]
  | runBusy t i r hp hi => constructor <;> grind [Function.update_apply]
  | runFree t i r hp hi => constructor <;> grind [Function.update_apply]
  | runFill t i r hp =>
    have e2 : r.rv.isNone = true → r.rv.getD (s.rv i) = s.rv i := by
      intro h; rw [Option.isNone_iff_eq_none] at h; rw [h]; rfl
    constructor <;> grind [Function.update_apply]
  | runLockCheck t i hp ho hi => constructor <;> grind [Function.update_apply]
  | runLock t i hp => constructor <;> grind [Function.update_apply]
  | use t i cb hp hc =>
    have e1 := softIn_update (soft i) hc
    constructor <;> grind [Function.update_apply]
  | hand t u i hp hu => constructor <;> grind [Function.update_apply]
  | finTerminate t i crc hp ho hi hk =>
    have e1 := noSoft_reset (soft i)
    have e2 := noSoft_softIn (C := 0) e1
    constructor <;> grind [Function.update_apply]
  | finIncrease t i hp ho hi hk h7 =>
    have e1 := fun h => rvOk_step (sent i h)
    constructor <;> grind [Function.update_apply]
  | finExhausted t i hp hk h7 => constructor <;> grind [Function.update_apply]
  | finKeep t i crc hp hk hc => constructor <;> grind [Function.update_apply]
  | keepUnlock t i hp ho hi => constructor <;> grind [Function.update_apply]
  | termInner t i hp ho hi => constructor <;> grind [Function.update_apply]
  | termOuter t i hp ho hi => constructor <;> grind [Function.update_apply]

theorem inv {n : Nat} {s : Sys} (h : Reach n Disciplined s) : Inv s ∧ DInv s := by
  induction h with
  | init => exact ⟨inv_init, dinv_init⟩
  | step _ hs ih => exact ⟨inv_step ih.1 hs, dinv_step ih.1 ih.2 hs⟩

/-- C20: a process is never handed out twice while in use, whatever the schedule. -/
theorem C20_exclusive (n : Nat) (s : Sys) (h : Reach n Disciplined s) (t u i : Nat)
    (ht : s.pc t = .own i) (hu : s.pc u = .own i) : t = u :=
  (inv h).1.uniq t u i (by rw [ht]; rfl) (by rw [hu]; rfl)

/-- C20: a process in use has both locks; so all its accessors work, and it is not available to others. -/
theorem C20_in_use_locked (n : Nat) (s : Sys) (h : Reach n Disciplined s) (t i : Nat) (ht : s.pc t = .own i) :
    s.outer i = true ∧ s.inner i = true :=
  ⟨(inv h).1.outer t i (by rw [ht]; rfl), (inv h).1.innerT t i (by rw [ht]; rfl)⟩

/-- C20: no check of the lock state ever fails. -/
theorem C20_no_abort (n : Nat) (s : Sys) (h : Reach n Disciplined s) : s.aborted = false := (inv h).1.ok

/-- C20: a process handed out anew has no contents of a previous packet left, and its redundancy version is 0
unless the request names one. -/
theorem C20_recycled_clean (n : Nat) (s : Sys) (h : Reach n Disciplined s) (r : Handed) (hr : r ∈ s.handed) :
    (∀ cb, r.soft cb = false) ∧ (r.rvReq = none → r.rv = 0) ∧ ∀ v, r.rvReq = some v → r.rv = v := by
  obtain ⟨h1, h2⟩ := (inv h).2.handed r hr
  refine ⟨h1, ?_, ?_⟩
  · intro e; rw [h2, e]; rfl
  · intro v e; rw [h2, e]; rfl

/-- C20: the redundancy versions of successive transmissions of a TX process are 0, 2, 3, 1, 0, 2, 3 and so on; at
most seven of them are followed by another one. -/
theorem C20_rv_order (n : Nat) (s : Sys) (h : Reach n Disciplined s) (i : Nat) (hi : s.noRv i = true) :
    (∀ k (hk : k < (s.sent i).length), (s.sent i)[k] = [0, 2, 3, 1].getD (k % 4) 0) ∧
    s.rv i = [0, 2, 3, 1].getD ((s.sent i).length % 4) 0 ∧ (s.sent i).length ≤ 7 := by
  have hd := (inv h).2
  obtain ⟨h1, h2, h3⟩ := hd.sent i hi
  refine ⟨?_, h3, by have := hd.seven i; omega⟩
  intro k hk
  rw [List.getElem_of_eq h1 hk]
  simp [rvOrder]

/-- What one step can do to a thread that is searching for a process. -/
theorem scan_step {n : Nat} {al : Sys → Nat → Prop} {b c : Sys} {t i : Nat} {r : Req} (hs : Step n al b c)
    (hp : b.pc t = .scan i r) :
    c.pc t = .scan i r ∨ (c.pc t = .scan (i + 1) r ∧ b.outer i = true) ∨ (c.pc t = .null ∧ n ≤ i) ∨ c.pc t = .entry i r := by
  cases hs <;> grind [Function.update_apply]

/-- `Searching t a b`: thread `t` is searching from `a` to `b`, while others may do anything except take a free
process. -/
inductive Searching (n : Nat) (al : Sys → Nat → Prop) (t : Nat) : Sys → Sys → Prop
  | refl (a : Sys) (r : Req) : a.pc t = .scan 0 r → Searching n al t a a
  | step {a b c : Sys} (i : Nat) (r : Req) : Searching n al t a b → Step n al b c → (∀ j, c.outer j = true → b.outer j = true) →
      c.pc t = .scan i r → Searching n al t a c

theorem searching_inv {n : Nat} {al : Sys → Nat → Prop} {t : Nat} {a b : Sys} (h : Searching n al t a b) :
    (∀ j, b.outer j = true → a.outer j = true) ∧ ∃ i r, b.pc t = .scan i r ∧ ∀ j < i, a.outer j = true := by
  induction h with
  | refl r hp => exact ⟨fun _ h => h, 0, r, hp, by omega⟩
  | step i r _ hs ho hp ih =>
    obtain ⟨h1, i0, r0, h2, h3⟩ := ih
    refine ⟨fun j hj => h1 j (ho j hj), i, r, hp, ?_⟩
    intro j hj
    rcases scan_step hs h2 with e | ⟨e, he⟩ | ⟨e, _⟩ | e
    · rw [e] at hp; cases hp; exact h3 j hj
    · rw [e] at hp; cases hp
      rcases Nat.lt_succ_iff_lt_or_eq.1 hj with h | h
      · exact h3 j h
      · rw [h]; exact h1 _ he
    · rw [e] at hp; cases hp
    · rw [e] at hp; cases hp

/-- C20: if a request fails although nobody else was taking processes meanwhile (requests are made under the
token), then all processes were in use when the request was made. -/
theorem C20_fails_only_if_full (n : Nat) (al : Sys → Nat → Prop) (t : Nat) (a b c : Sys) (h : Searching n al t a b)
    (hs : Step n al b c) (hc : c.pc t = .null) : ∀ j < n, a.outer j = true := by
  obtain ⟨_, i, r, h2, h3⟩ := searching_inv h
  intro j hj
  rcases scan_step hs h2 with e | ⟨e, _⟩ | ⟨_, hn⟩ | e
  · rw [e] at hc; cases hc
  · rw [e] at hc; cases hc
  · exact h3 j (by omega)
  · rw [e] at hc; cases hc

/-- A request that does not name the redundancy version -/
def txReq (k : Kind) : Req := ⟨2, none, k⟩

/-- A case: a process is used, kept, retrieved and used again with the next redundancy version. -/
example : ∃ s, Reach 2 Disciplined s ∧ s.pc 0 = .own 0 ∧ s.rv 0 = 2 ∧ s.sent 0 = [0] ∧ s.soft 0 1 = true := by
  have h := Reach.init (n := 2) (allowed := Disciplined)
  have h := Reach.step h (.call _ 0 (txReq .increase) rfl)
  have h := Reach.step h (.take _ 0 0 (txReq .increase) rfl (by decide) rfl)
  have h := Reach.step h (.fill _ 0 0 (txReq .increase) rfl rfl)
  have h := Reach.step h (.check _ 0 0 rfl rfl rfl)
  have h := Reach.step h (.lock _ 0 0 rfl)
  have h := Reach.step h (.use _ 0 0 1 rfl (by decide))
  have h := Reach.step h (.finIncrease _ 0 0 rfl rfl rfl rfl (by decide))
  have h := Reach.step h (.keepUnlock _ 0 0 rfl rfl rfl)
  have h := Reach.step h (.runCall _ 0 0 (txReq .terminate) rfl (by
    refine ⟨rfl, ?_, Or.inl (Or.inr rfl)⟩
    intro t
    cases t <;> simp [init, getting]))
  have h := Reach.step h (.runCheck _ 0 0 (txReq .terminate) rfl rfl)
  have h := Reach.step h (.runFree _ 0 0 (txReq .terminate) rfl rfl)
  have h := Reach.step h (.runFill _ 0 0 (txReq .terminate) rfl)
  have h := Reach.step h (.runLockCheck _ 0 0 rfl rfl rfl)
  have h := Reach.step h (.runLock _ 0 0 rfl)
  exact ⟨_, h, by decide⟩

/-- A request of an RX process to be kept until the CRC is correct -/
def rxReq : Req := ⟨2, some 0, .untilCrc⟩

/-- Finding: if a process is retrieved although its holder may terminate it
(`keep_running_or_reset_and_terminate_if_crc_correct`, and the result of the CRC is not known yet), then a
thread that passed the checks of `get_process_rx_running` while the holder is terminating the process, ends up with
the same process as a thread which gets it anew. -/
theorem C20_retrieval_race : ∃ s, Reach 1 (fun s i => s.outer i = true) s ∧ s.pc 1 = .own 0 ∧ s.pc 2 = .own 0 ∧
    s.aborted = false := by
  have h := Reach.init (n := 1) (allowed := fun s i => s.outer i = true)
  have h := Reach.step h (.call _ 0 rxReq rfl)
  have h := Reach.step h (.take _ 0 0 rxReq rfl (by decide) rfl)
  have h := Reach.step h (.fill _ 0 0 rxReq rfl rfl)
  have h := Reach.step h (.check _ 0 0 rfl rfl rfl)
  have h := Reach.step h (.lock _ 0 0 rfl)
  have h := Reach.step h (.finTerminate _ 0 0 true rfl rfl rfl rfl)
  have h := Reach.step h (.termInner _ 0 0 rfl rfl rfl)
  -- thread 1 retrieves the process between the two unlocks
  have h := Reach.step h (.runCall _ 1 0 rxReq rfl rfl)
  have h := Reach.step h (.runCheck _ 1 0 rxReq rfl rfl)
  have h := Reach.step h (.runFree _ 1 0 rxReq rfl rfl)
  have h := Reach.step h (.termOuter _ 0 0 rfl rfl rfl)
  -- thread 2 gets it anew
  have h := Reach.step h (.call _ 2 rxReq rfl)
  have h := Reach.step h (.take _ 2 0 rxReq rfl (by decide) rfl)
  have h := Reach.step h (.fill _ 2 0 rxReq rfl rfl)
  have h := Reach.step h (.check _ 2 0 rfl rfl rfl)
  have h := Reach.step h (.runFill _ 1 0 rxReq rfl)
  have h := Reach.step h (.runLockCheck _ 1 0 rfl rfl rfl)
  have h := Reach.step h (.lock _ 2 0 rfl)
  have h := Reach.step h (.runLock _ 1 0 rfl)
  exact ⟨_, h, rfl, rfl, rfl⟩

end Verif.Phy.HarqPool
