import Verif.Lemma.BufferTx
import Mathlib.Data.List.Range

set_option linter.unusedSimpArgs false

/-!
# Data invariant of the TX buffer pool, used for C21
-/

namespace Verif.Radio.BufferTx

/-! ## Data -/

/-- The first `w` samples in memory are those of the packet. -/
def Wr (m : Nat → Nat) (p : Pkt) (w : Nat) : Prop := ∀ j < w, m j = p.sample j

theorem wr_zero (m : Nat → Nat) (p : Pkt) : Wr m p 0 := by intro j hj; omega

theorem wr_succ {m : Nat → Nat} {p : Pkt} {w : Nat} (h : Wr m p w) : Wr (Function.update m w (p.sample w)) p (w + 1) := by
  intro j hj
  rw [Function.update_apply]
  split
  · rename_i e; rw [e]
  · exact h j (by omega)

theorem wr_le {m : Nat → Nat} {p : Pkt} {w c : Nat} (h : Wr m p w) (hc : c ≤ w) : Wr m p c := fun j hj => h j (by omega)

/-- Order number after a list of packets -/
def expected : Int → List (Int × Int × List Nat) → Int
  | e, [] => e
  | _, x :: xs => expected x.2.1 xs

theorem linked_append {l : List (Int × Int × List Nat)} : ∀ {e : Int}, Linked e l → ∀ {x : Int × Int × List Nat}, x.1 = expected e l →
    Linked e (l ++ [x]) ∧ expected e (l ++ [x]) = x.2.1 := by
  induction l with
  | nil => intro e _ x hx; exact ⟨⟨hx, trivial⟩, rfl⟩
  | cons y ys ih => intro e h x hx; exact ⟨⟨h.1, (ih h.2 hx).1⟩, (ih h.2 hx).2⟩

/-- The order number the TX thread is at -/
def target : TPc → Int
  | .idle e | .scan1 _ e | .loop _ _ e | .wait _ _ e | .scan2 _ e | .send _ e _ _ => e
  | .relInner _ e | .relOuter _ e | .relCnt _ e => e

/-- Meta data of a buffer -/
def Meta (s : Sys) (i : Nat) : Prop :=
  s.order i = (s.pkt i).order ∧ s.next i = (s.pkt i).next ∧ s.pkt i ∈ s.submitted

/-- Contents of a buffer handed over to the TX thread -/
def Ready (s : Sys) (i : Nat) : Prop :=
  Meta s i ∧ s.length i = (s.pkt i).len ∧ s.lengthCnt i ≤ (s.pkt i).len ∧ Wr (s.mem i) (s.pkt i) (s.lengthCnt i)

/-- All samples published -/
def Complete (s : Sys) (i : Nat) (p : Pkt) : Prop :=
  s.length i = p.len ∧ s.pkt i = p ∧ s.lengthCnt i = p.len ∧ Wr (s.mem i) p p.len

structure DInv (s : Sys) : Prop where
  wrFill : ∀ t i p w, s.pc t = .fill i p w false → Wr (s.mem i) p w
  wrSub : ∀ t i p w, s.pc t = .sub i p w false → Wr (s.mem i) p w
  wrChk : ∀ t i p w, s.pc t = .chk i p w false → Wr (s.mem i) p w
  wrPend : ∀ t i p w, s.pc t = .pend i p w false → Wr (s.mem i) p w
  wrRest : ∀ t i p w, s.pc t = .rest i p w → Wr (s.mem i) p w
  coFill : ∀ t i p w, s.pc t = .fill i p w true → Complete s i p
  coSub : ∀ t i p w, s.pc t = .sub i p w true → Complete s i p
  coChk : ∀ t i p w, s.pc t = .chk i p w true → Complete s i p
  meSub : ∀ t i p w f, s.pc t = .sub i p w f → Meta s i
  meChk : ∀ t i p w f, s.pc t = .chk i p w f → Meta s i
  ready : ∀ i, s.inner i = true → txRel s.tx ≠ some i → Ready s i
  send : ∀ i e e' l, s.tx = .send i e e' l → (s.pkt i).order = e ∧ e' = nextOrder e (s.pkt i).next ∧
    l.length ≤ s.lengthCnt i ∧ l = (List.range l.length).map (s.pkt i).sample
  sent : ∀ x ∈ s.sent, ∃ p ∈ s.submitted, p.order = x.1 ∧ x.2.1 = nextOrder x.1 p.next ∧ x.2.2 = (List.range p.len).map p.sample
  linked : Linked 0 s.sent
  tgt : target s.tx = expected 0 s.sent

theorem dinv_init : DInv init := by
  constructor <;> simp [init, Linked, target, expected]

theorem read_step {s : Sys} {i : Nat} {l : List Nat} (hr : Ready s i) (h1 : l = (List.range l.length).map (s.pkt i).sample)
    (h2 : l.length < s.lengthCnt i) :
    l ++ [s.mem i l.length] = (List.range (l ++ [s.mem i l.length]).length).map (s.pkt i).sample := by
  have : (l ++ [s.mem i l.length]).length = l.length + 1 := by simp
  rw [this, List.range_succ, List.map_append, ← h1, hr.2.2.2 l.length h2]
  rfl

set_option maxHeartbeats 4000000 in
theorem dinv_step {n : Nat} {s s' : Sys} (hl : LInv s) (h : DInv s) (hs : Step n s s') : DInv s' := by
  obtain ⟨wrFill, wrSub, wrChk, wrPend, wrRest, coFill, coSub, coChk, meSub, meChk, ready, send, sent, linked, tgt⟩ := h
  have uniq := hl.uniq
  have outer := hl.outer
  have aOwns := hl.aOwns
  have aInner := hl.aInner
  have aTx := hl.aTx
  have fFill := hl.wrFill
  have fSub := hl.wrSub
  have fChk := hl.wrChk
  have fPend := hl.wrPend
  have fRest := hl.wrRest
  have relAt : ∀ i, txRel s.tx = some i → txAt s.tx = some i := fun i => txRel_txAt
  have relNoOwner := hl.relNoOwner
  have txOuter := hl.txOuter
  have txInn := hl.txInn
  have innerOuter := hl.innerOuter
  have wz := wr_zero
  clear hl
  cases hs with
  | fail t hf => exact ⟨wrFill, wrSub, wrChk, wrPend, wrRest, coFill, coSub, coChk, meSub, meChk, ready, send, sent, linked, tgt⟩
  | failTx hf => exact ⟨wrFill, wrSub, wrChk, wrPend, wrRest, coFill, coSub, coChk, meSub, meChk, ready, send, sent, linked, tgt⟩
  | call t p hp h0 => constructor <;> grind [Function.update_apply, Writing, Meta, Ready, Complete, target]
  | take t i p hp hi ho => constructor <;> grind [Function.update_apply, Writing, Meta, Ready, Complete, target]
  | skip t i p hp hi ho => constructor <;> grind [Function.update_apply, Writing, Meta, Ready, Complete, target]
  | none t i p hp hi => constructor <;> grind [Function.update_apply, Writing, Meta, Ready, Complete, target]
  | streams t i p hp ho hi => constructor <;> grind [Function.update_apply, Writing, Meta, Ready, Complete, target]
  | write t i p w hp hw =>
    have u1 : ∀ t', owns (s.pc t') = some i → t' = t := fun t' h' => uniq t' t i h' (by rw [hp]; rfl)
    have u2 : owns (s.pc t) = some i := by rw [hp]; rfl
    have e1 := wr_succ (wrFill t i p w hp)
    constructor <;> grind [Function.update_apply, Writing, Meta, Ready, Complete, target]
  | publish t i p w hp hw =>
    have e1 := wrFill t i p w hp
    constructor <;> grind [Function.update_apply, Writing, Meta, Ready, Complete, target]
  | publishAll t i p hp =>
    have e1 := wrFill t i p p.len hp
    have e2 := fFill t i p p.len hp
    constructor <;> grind [Function.update_apply, Writing, Meta, Ready, Complete, target]
  | submit t i p w fin hp ho hi =>
    have e4 : s.pkt i = p := by
      cases fin
      · exact (fFill t i p w hp).2.1
      · exact (coFill t i p w hp).2.1
    constructor <;> grind [Function.update_apply, Writing, Meta, Ready, Complete, target]
  | check t i p w fin hp ho hi => constructor <;> grind [Function.update_apply, Writing, Meta, Ready, Complete, target]
  | lock t i p w fin hp =>
    have e5 : s.length i = p.len ∧ s.lengthCnt i ≤ p.len := by
      cases fin
      · exact ⟨(fChk t i p w hp).1, by have := fChk t i p w hp; simp only [Writing] at this; omega⟩
      · exact ⟨(coChk t i p w hp).1, le_of_eq (coChk t i p w hp).2.2.1⟩
    have e1 : fin = true → Wr (s.mem i) p p.len := by rintro rfl; exact (coChk t i p w hp).2.2.2
    have e2 : fin = false → Wr (s.mem i) p (s.lengthCnt i) := by
      rintro rfl; exact wr_le (wrChk t i p w hp) (fChk t i p w hp).2.2.2.1
    have e3 := meChk t i p w fin hp
    have e4 : s.pkt i = p := by
      cases fin
      · exact (fChk t i p w hp).2.1
      · exact (coChk t i p w hp).2.1
    constructor <;> grind [Function.update_apply, Writing, Meta, Ready, Complete, target]
  | announce t i p w fin hp hm => constructor <;> grind [Function.update_apply, Writing, Meta, Ready, Complete, target]
  | writeRest t i p w hp hw =>
    have u1 : ∀ t', owns (s.pc t') = some i → t' = t := fun t' h' => uniq t' t i h' (by rw [hp]; rfl)
    have u2 : owns (s.pc t) = some i := by rw [hp]; rfl
    have e1 := wr_succ (wrRest t i p w hp)
    have e2 := fRest t i p w hp
    have e3 : Wr (Function.update (s.mem i) w (p.sample w)) p (s.lengthCnt i) := wr_le e1 (by have := e2.2.2.2.1; omega)
    have e4 : Wr (Function.update (s.mem i) w (p.sample w)) (s.pkt i) (s.lengthCnt i) := by rw [e2.2.1]; exact e3
    constructor <;> grind [Function.update_apply, Writing, Meta, Ready, Complete, target]
  | publishRest t i p w hp hw =>
    have e1 := wrRest t i p w hp
    have e2 := fRest t i p w hp
    have e3 : s.pkt i = p := e2.2.1
    constructor <;> grind [Function.update_apply, Writing, Meta, Ready, Complete, target]
  | publishRestAll t i p hp =>
    have e1 := wrRest t i p p.len hp
    have e2 := fRest t i p p.len hp
    have e3 : s.pkt i = p := e2.2.1
    constructor <;> grind [Function.update_apply, Writing, Meta, Ready, Complete, target]
  | txCall e hp => constructor <;> grind [Function.update_apply, Writing, Meta, Ready, Complete, target]
  | txSkip1 i e hp hi hn => constructor <;> grind [Function.update_apply, Writing, Meta, Ready, Complete, target]
  | txFound1 i e hp hi hn ho => constructor <;> grind [Function.update_apply, Writing, Meta, Ready, Complete, target]
  | txLock i e hp hi => constructor <;> grind [Function.update_apply, Writing, Meta, Ready, Complete, target]
  | txWait ref ch e hp hc => constructor <;> grind [Function.update_apply, Writing, Meta, Ready, Complete, target]
  | txWake ref ch e hp => constructor <;> grind [Function.update_apply, Writing, Meta, Ready, Complete, target]
  | txTimeout ref ch e hp => constructor <;> grind [Function.update_apply, Writing, Meta, Ready, Complete, target]
  | txSearch ref ch e hp hc => constructor <;> grind [Function.update_apply, Writing, Meta, Ready, Complete, target]
  | txSkip2 i e hp hi hn => constructor <;> grind [Function.update_apply, Writing, Meta, Ready, Complete, target]
  | txFound2 i e hp hi hn ho => constructor <;> grind [Function.update_apply, Writing, Meta, Ready, Complete, target]
  | txRef i e hp hi => constructor <;> grind [Function.update_apply, Writing, Meta, Ready, Complete, target]
  | txRead i e e' l hp h1 h2 =>
    have e0 : Ready s i := ready i (txInn i (by rw [hp]; rfl)) (by rw [hp]; simp [txRel])
    have e1 := read_step (i := i) (l := l) e0 (send i e e' l hp).2.2.2 h2
    have e2 : (l ++ [s.mem i l.length]).length = l.length + 1 := by simp
    have e3 := send i e e' l hp
    generalize l ++ [s.mem i l.length] = l' at e1 e2 ⊢
    constructor <;> grind [Function.update_apply, Writing, Meta, Ready, Complete, target]
  | txDone i e e' l hp h1 h2 ho hi =>
    have e0 : Ready s i := ready i hi (by rw [hp]; simp [txRel])
    obtain ⟨s1, s2, s3, s4⟩ := send i e e' l hp
    have e1 := linked_append linked (x := (e, e', l)) (by rw [← tgt, hp]; rfl)
    have e2 : ∃ p ∈ s.submitted, p.order = e ∧ e' = nextOrder e p.next ∧ l = (List.range p.len).map p.sample :=
      ⟨s.pkt i, e0.1.2.2, s1, s2, by rw [← e0.2.1, ← h1]; exact s4⟩
    constructor <;> grind [Function.update_apply, Writing, Meta, Ready, Complete, target]
  | txInner i e' hp ho hi => constructor <;> grind [Function.update_apply, Writing, Meta, Ready, Complete, target]
  | txOuter i e' hp ho hi => constructor <;> grind [Function.update_apply, Writing, Meta, Ready, Complete, target]
  | txCnt i e' hp => constructor <;> grind [Function.update_apply, Writing, Meta, Ready, Complete, target]

end Verif.Radio.BufferTx
