import Verif.Spec.BufferTx
import Mathlib.Data.List.Nodup
import Mathlib.Data.List.Range

set_option linter.unusedSimpArgs false

/-!
# Invariants of the TX buffer pool, used for C21
-/

namespace Verif.Radio.BufferTx

/-! Values of these functions -/
@[grind =] theorem phaseA_idle : phaseA (.idle) = none := rfl
@[grind =] theorem phaseA_scan (i : Nat) (p : Pkt) : phaseA (.scan i p) = none := rfl
@[grind =] theorem phaseA_entry (i : Nat) (p : Pkt) : phaseA (.entry i p) = some i := rfl
@[grind =] theorem phaseA_fill (i : Nat) (p : Pkt) (w : Nat) (fin : Bool) : phaseA (.fill i p w fin) = some i := rfl
@[grind =] theorem phaseA_sub (i : Nat) (p : Pkt) (w : Nat) (fin : Bool) : phaseA (.sub i p w fin) = some i := rfl
@[grind =] theorem phaseA_chk (i : Nat) (p : Pkt) (w : Nat) (fin : Bool) : phaseA (.chk i p w fin) = some i := rfl
@[grind =] theorem phaseA_pend (i : Nat) (p : Pkt) (w : Nat) (fin : Bool) : phaseA (.pend i p w fin) = none := rfl
@[grind =] theorem phaseA_rest (i : Nat) (p : Pkt) (w : Nat) : phaseA (.rest i p w) = none := rfl
@[grind =] theorem pendAt_idle : pendAt (.idle) = none := rfl
@[grind =] theorem pendAt_scan (i : Nat) (p : Pkt) : pendAt (.scan i p) = none := rfl
@[grind =] theorem pendAt_entry (i : Nat) (p : Pkt) : pendAt (.entry i p) = none := rfl
@[grind =] theorem pendAt_fill (i : Nat) (p : Pkt) (w : Nat) (fin : Bool) : pendAt (.fill i p w fin) = none := rfl
@[grind =] theorem pendAt_sub (i : Nat) (p : Pkt) (w : Nat) (fin : Bool) : pendAt (.sub i p w fin) = none := rfl
@[grind =] theorem pendAt_chk (i : Nat) (p : Pkt) (w : Nat) (fin : Bool) : pendAt (.chk i p w fin) = none := rfl
@[grind =] theorem pendAt_pend (i : Nat) (p : Pkt) (w : Nat) (fin : Bool) : pendAt (.pend i p w fin) = some i := rfl
@[grind =] theorem pendAt_rest (i : Nat) (p : Pkt) (w : Nat) : pendAt (.rest i p w) = none := rfl
@[grind =] theorem owns_idle : owns (.idle) = none := rfl
@[grind =] theorem owns_scan (i : Nat) (p : Pkt) : owns (.scan i p) = none := rfl
@[grind =] theorem owns_entry (i : Nat) (p : Pkt) : owns (.entry i p) = some i := rfl
@[grind =] theorem owns_fill (i : Nat) (p : Pkt) (w : Nat) (fin : Bool) : owns (.fill i p w fin) = some i := rfl
@[grind =] theorem owns_sub (i : Nat) (p : Pkt) (w : Nat) (fin : Bool) : owns (.sub i p w fin) = some i := rfl
@[grind =] theorem owns_chk (i : Nat) (p : Pkt) (w : Nat) (fin : Bool) : owns (.chk i p w fin) = some i := rfl
@[grind =] theorem owns_pend (i : Nat) (p : Pkt) (w : Nat) (fin : Bool) : owns (.pend i p w fin) = if fin then none else some i := rfl
@[grind =] theorem owns_rest (i : Nat) (p : Pkt) (w : Nat) : owns (.rest i p w) = some i := rfl
@[grind =] theorem txAt_idle (e : Int) : txAt (.idle e) = none := rfl
@[grind =] theorem txAt_scan1 (i : Nat) (e : Int) : txAt (.scan1 i e) = none := rfl
@[grind =] theorem txAt_loop (ref : Int) (ch : Bool) (e : Int) : txAt (.loop ref ch e) = none := rfl
@[grind =] theorem txAt_wait (ref : Int) (ch : Bool) (e : Int) : txAt (.wait ref ch e) = none := rfl
@[grind =] theorem txAt_scan2 (i : Nat) (e : Int) : txAt (.scan2 i e) = none := rfl
@[grind =] theorem txAt_send (i : Nat) (e : Int) (e' : Int) (l : List Nat) : txAt (.send i e e' l) = some i := rfl
@[grind =] theorem txAt_relInner (i : Nat) (e' : Int) : txAt (.relInner i e') = some i := rfl
@[grind =] theorem txAt_relOuter (i : Nat) (e' : Int) : txAt (.relOuter i e') = some i := rfl
@[grind =] theorem txAt_relCnt (i : Nat) (e' : Int) : txAt (.relCnt i e') = none := rfl
@[grind =] theorem txInner_idle (e : Int) : txInner (.idle e) = none := rfl
@[grind =] theorem txInner_scan1 (i : Nat) (e : Int) : txInner (.scan1 i e) = none := rfl
@[grind =] theorem txInner_loop (ref : Int) (ch : Bool) (e : Int) : txInner (.loop ref ch e) = none := rfl
@[grind =] theorem txInner_wait (ref : Int) (ch : Bool) (e : Int) : txInner (.wait ref ch e) = none := rfl
@[grind =] theorem txInner_scan2 (i : Nat) (e : Int) : txInner (.scan2 i e) = none := rfl
@[grind =] theorem txInner_send (i : Nat) (e : Int) (e' : Int) (l : List Nat) : txInner (.send i e e' l) = some i := rfl
@[grind =] theorem txInner_relInner (i : Nat) (e' : Int) : txInner (.relInner i e') = some i := rfl
@[grind =] theorem txInner_relOuter (i : Nat) (e' : Int) : txInner (.relOuter i e') = none := rfl
@[grind =] theorem txInner_relCnt (i : Nat) (e' : Int) : txInner (.relCnt i e') = none := rfl
@[grind =] theorem txRel_idle (e : Int) : txRel (.idle e) = none := rfl
@[grind =] theorem txRel_scan1 (i : Nat) (e : Int) : txRel (.scan1 i e) = none := rfl
@[grind =] theorem txRel_loop (ref : Int) (ch : Bool) (e : Int) : txRel (.loop ref ch e) = none := rfl
@[grind =] theorem txRel_wait (ref : Int) (ch : Bool) (e : Int) : txRel (.wait ref ch e) = none := rfl
@[grind =] theorem txRel_scan2 (i : Nat) (e : Int) : txRel (.scan2 i e) = none := rfl
@[grind =] theorem txRel_send (i : Nat) (e : Int) (e' : Int) (l : List Nat) : txRel (.send i e e' l) = none := rfl
@[grind =] theorem txRel_relInner (i : Nat) (e' : Int) : txRel (.relInner i e') = some i := rfl
@[grind =] theorem txRel_relOuter (i : Nat) (e' : Int) : txRel (.relOuter i e') = some i := rfl
@[grind =] theorem txRel_relCnt (i : Nat) (e' : Int) : txRel (.relCnt i e') = none := rfl

@[grind =] theorem afterPend_eq (i : Nat) (p : Pkt) (w : Nat) (fin : Bool) :
    afterPend i p w fin = if fin then .idle else .rest i p w := rfl

/-- The producer has more samples to publish: state of the buffer -/
def Writing (s : Sys) (i : Nat) (p : Pkt) (w : Nat) : Prop :=
  s.length i = p.len ∧ s.pkt i = p ∧ w ≤ p.len ∧ s.lengthCnt i ≤ w ∧ s.lengthCnt i < p.len

theorem txRel_txAt {p : TPc} {i : Nat} (h : txRel p = some i) : txAt p = some i := by
  cases p <;> simp_all [txRel, txAt]

structure LInv (s : Sys) : Prop where
  uniq : ∀ t u i, owns (s.pc t) = some i → owns (s.pc u) = some i → t = u
  outer : ∀ t i, owns (s.pc t) = some i → s.outer i = true
  aOwns : ∀ t i, phaseA (s.pc t) = some i → owns (s.pc t) = some i
  aInner : ∀ t i, phaseA (s.pc t) = some i → s.inner i = false
  aTx : ∀ t i, phaseA (s.pc t) = some i → txAt s.tx ≠ some i
  txOuter : ∀ i, txAt s.tx = some i → s.outer i = true
  txInn : ∀ i, txInner s.tx = some i → s.inner i = true
  txRelOuter : ∀ i e, s.tx = .relOuter i e → s.inner i = false
  relNoOwner : ∀ t i, txRel s.tx = some i → owns (s.pc t) ≠ some i
  innerOuter : ∀ i, s.inner i = true → s.outer i = true
  scanLen : ∀ t i p, s.pc t = .scan i p ∨ s.pc t = .entry i p → 0 < p.len
  cntFree : ∀ i, s.outer i = false → s.lengthCnt i = 0
  cntEntry : ∀ t i p, s.pc t = .entry i p → s.lengthCnt i = 0
  cntRel : ∀ i, txRel s.tx = some i → s.lengthCnt i = 0
  wrFill : ∀ t i p w, s.pc t = .fill i p w false → Writing s i p w
  wrSub : ∀ t i p w, s.pc t = .sub i p w false → Writing s i p w
  wrChk : ∀ t i p w, s.pc t = .chk i p w false → Writing s i p w
  wrPend : ∀ t i p w, s.pc t = .pend i p w false → Writing s i p w
  wrRest : ∀ t i p w, s.pc t = .rest i p w → Writing s i p w
  ok : s.aborted = false

theorem linv_init : LInv init := by
  constructor <;> simp [init, owns, phaseA, txAt, txInner, txRel]

set_option maxHeartbeats 4000000 in
theorem linv_step {n : Nat} {s s' : Sys} (h : LInv s) (hs : Step n s s') : LInv s' := by
  obtain ⟨uniq, outer, aOwns, aInner, aTx, txOuter, txInn, txRelOuter, relNoOwner, innerOuter, scanLen, cntFree, cntEntry, cntRel,
    wrFill, wrSub, wrChk, wrPend, wrRest, ok⟩ := h
  have relAt : ∀ i, txRel s.tx = some i → txAt s.tx = some i := fun i => txRel_txAt
  cases hs with
  | fail t hf =>
    exfalso
    cases hp : s.pc t <;> simp only [hp, failing] at hf <;> grind
  | failTx hf =>
    exfalso
    cases hp : s.tx <;> simp only [hp, failingTx] at hf <;> grind
  | call t p hp h0 => constructor <;> grind [Function.update_apply, Writing]
  | take t i p hp hi ho => constructor <;> grind [Function.update_apply, Writing]
  | skip t i p hp hi ho => constructor <;> grind [Function.update_apply, Writing]
  | none t i p hp hi => constructor <;> grind [Function.update_apply, Writing]
  | streams t i p hp ho hi =>
    have e1 := cntEntry t i p hp
    have e2 := scanLen t i p (Or.inr hp)
    constructor <;> grind [Function.update_apply, Writing]
  | write t i p w hp hw => constructor <;> grind [Function.update_apply, Writing]
  | publish t i p w hp hw => constructor <;> grind [Function.update_apply, Writing]
  | publishAll t i p hp => constructor <;> grind [Function.update_apply, Writing]
  | submit t i p w fin hp ho hi => constructor <;> grind [Function.update_apply, Writing]
  | check t i p w fin hp ho hi => constructor <;> grind [Function.update_apply, Writing]
  | lock t i p w fin hp => constructor <;> grind [Function.update_apply, Writing]
  | announce t i p w fin hp hm => constructor <;> grind [Function.update_apply, Writing]
  | writeRest t i p w hp hw => constructor <;> grind [Function.update_apply, Writing]
  | publishRest t i p w hp hw => constructor <;> grind [Function.update_apply, Writing]
  | publishRestAll t i p hp => constructor <;> grind [Function.update_apply, Writing]
  | txCall e hp => constructor <;> grind [Function.update_apply, Writing]
  | txSkip1 i e hp hi hn => constructor <;> grind [Function.update_apply, Writing]
  | txFound1 i e hp hi hn ho => constructor <;> grind [Function.update_apply, Writing]
  | txLock i e hp hi => constructor <;> grind [Function.update_apply, Writing]
  | txWait ref ch e hp hc => constructor <;> grind [Function.update_apply, Writing]
  | txWake ref ch e hp => constructor <;> grind [Function.update_apply, Writing]
  | txTimeout ref ch e hp => constructor <;> grind [Function.update_apply, Writing]
  | txSearch ref ch e hp hc => constructor <;> grind [Function.update_apply, Writing]
  | txSkip2 i e hp hi hn => constructor <;> grind [Function.update_apply, Writing]
  | txFound2 i e hp hi hn ho => constructor <;> grind [Function.update_apply, Writing]
  | txRef i e hp hi => constructor <;> grind [Function.update_apply, Writing]
  | txRead i e e' l hp h1 h2 => constructor <;> grind [Function.update_apply, Writing]
  | txDone i e e' l hp h1 h2 ho hi =>
    have key : ∀ t, owns (s.pc t) ≠ some i := by
      intro t ht
      have a1 := aTx t i
      cases hq : s.pc t <;> grind [Writing]
    constructor <;> grind [Function.update_apply, Writing]
  | txInner i e' hp ho hi => constructor <;> grind [Function.update_apply, Writing]
  | txOuter i e' hp ho hi => constructor <;> grind [Function.update_apply, Writing]
  | txCnt i e' hp => constructor <;> grind [Function.update_apply, Writing]

end Verif.Radio.BufferTx
