import Verif.Lemma.BufferTx
import Mathlib.Data.List.Nodup

set_option linter.unusedSimpArgs false

/-!
# Wake-up invariants of the TX buffer pool, used for C21
-/

namespace Verif.Radio.BufferTx

/-- Some producer is between the inner lock of buffer `i` and the increment. -/
def Announcing (pc : Nat → PPc) (i : Nat) : Prop := ∃ t, pendAt (pc t) = some i

theorem announcing_update {pc : Nat → PPc} {t : Nat} {q : PPc} {i : Nat} (h : Announcing pc i) (hn : pendAt (pc t) = none) :
    Announcing (Function.update pc t q) i := by
  obtain ⟨u, hu⟩ := h
  refine ⟨u, ?_⟩
  rw [Function.update_of_ne (by rintro rfl; rw [hn] at hu; cases hu)]
  exact hu

theorem announcing_lock (pc : Nat → PPc) (t i : Nat) (p : Pkt) (w : Nat) (fin : Bool) :
    Announcing (Function.update pc t (.pend i p w fin)) i := ⟨t, by rw [Function.update_self]; rfl⟩

/-- Balance of the counter -/
structure CInv (s : Sys) : Prop where
  pendNodup : s.pending.Nodup
  pendMem : ∀ t, t ∈ s.pending ↔ (pendAt (s.pc t)).isSome = true
  lockNodup : s.lockedB.Nodup
  lockMem : ∀ i, i ∈ s.lockedB ↔ s.inner i = true
  bal : s.cnt + (s.pending.length : Int) = (s.lockedB.length : Int) + owed s.tx

theorem cinv_init : CInv init := by
  constructor <;> simp [init, pendAt, owed]

theorem cinv_same {s s' : Sys} (h : CInv s) (h1 : s'.pending = s.pending) (h2 : s'.lockedB = s.lockedB)
    (h3 : ∀ t, (pendAt (s'.pc t)).isSome = (pendAt (s.pc t)).isSome) (h4 : s'.inner = s.inner) (h5 : s'.cnt = s.cnt)
    (h6 : owed s'.tx = owed s.tx) : CInv s' := by
  constructor
  · rw [h1]; exact h.pendNodup
  · intro t; rw [h1, h3]; exact h.pendMem t
  · rw [h2]; exact h.lockNodup
  · intro i; rw [h2, h4]; exact h.lockMem i
  · rw [h5, h1, h2, h6]; exact h.bal

theorem pend_update {s : Sys} {t : Nat} {q : PPc} (h1 : pendAt (s.pc t) = none) (h2 : pendAt q = none) (u : Nat) :
    (pendAt (Function.update s.pc t q u)).isSome = (pendAt (s.pc u)).isSome := by
  rw [Function.update_apply]
  split
  · rename_i e; rw [e, h1, h2]
  · rfl

theorem cinv_step {n : Nat} {s s' : Sys} (hl : LInv s) (h : CInv s) (hs : Step n s s') : CInv s' := by
  cases hs with
  | fail t hf => exact ⟨h.pendNodup, h.pendMem, h.lockNodup, h.lockMem, h.bal⟩
  | failTx hf => exact ⟨h.pendNodup, h.pendMem, h.lockNodup, h.lockMem, h.bal⟩
  | call t p hp h0 => exact cinv_same h rfl rfl (pend_update (by rw [hp]; rfl) rfl) rfl rfl rfl
  | take t i p hp hi ho => exact cinv_same h rfl rfl (pend_update (by rw [hp]; rfl) rfl) rfl rfl rfl
  | skip t i p hp hi ho => exact cinv_same h rfl rfl (pend_update (by rw [hp]; rfl) rfl) rfl rfl rfl
  | none t i p hp hi => exact cinv_same h rfl rfl (pend_update (by rw [hp]; rfl) rfl) rfl rfl rfl
  | streams t i p hp ho hi => exact cinv_same h rfl rfl (pend_update (by rw [hp]; rfl) rfl) rfl rfl rfl
  | write t i p w hp hw => exact cinv_same h rfl rfl (pend_update (by rw [hp]; rfl) rfl) rfl rfl rfl
  | publish t i p w hp hw => exact cinv_same h rfl rfl (fun _ => rfl) rfl rfl rfl
  | publishAll t i p hp => exact cinv_same h rfl rfl (pend_update (by rw [hp]; rfl) rfl) rfl rfl rfl
  | submit t i p w fin hp ho hi => exact cinv_same h rfl rfl (pend_update (by rw [hp]; rfl) rfl) rfl rfl rfl
  | check t i p w fin hp ho hi => exact cinv_same h rfl rfl (pend_update (by rw [hp]; rfl) rfl) rfl rfl rfl
  | lock t i p w fin hp =>
    have hi : s.inner i = false := hl.aInner t i (by rw [hp]; rfl)
    have hni : i ∉ s.lockedB := by rw [h.lockMem, hi]; simp
    have hnt : t ∉ s.pending := by rw [h.pendMem, hp]; simp [pendAt]
    constructor
    · exact List.nodup_cons.2 ⟨hnt, h.pendNodup⟩
    · intro u
      have := h.pendMem u
      simp only [List.mem_cons, Function.update_apply]
      by_cases e : u = t
      · simp [e, pendAt]
      · simp [e, this]
    · exact List.nodup_cons.2 ⟨hni, h.lockNodup⟩
    · intro j
      have := h.lockMem j
      simp only [List.mem_cons, Function.update_apply]
      by_cases e : j = i
      · simp [e]
      · simp [e, this]
    · have := h.bal
      simp only [List.length_cons]
      push_cast
      omega
  | announce t i p w fin hp hm =>
    have hnt : t ∈ s.pending := by rw [h.pendMem, hp]; simp [pendAt]
    have hpos : 0 < s.pending.length := List.length_pos_of_mem hnt
    constructor
    · exact h.pendNodup.erase t
    · intro u
      have := h.pendMem u
      simp only [h.pendNodup.mem_erase_iff, Function.update_apply]
      by_cases e : u = t
      · cases fin <;> simp [e, pendAt, afterPend]
      · simp [e, this]
    · exact h.lockNodup
    · exact h.lockMem
    · have := h.bal
      have e := List.length_erase_of_mem hnt
      simp only [e]
      omega
  | writeRest t i p w hp hw => exact cinv_same h rfl rfl (pend_update (by rw [hp]; rfl) rfl) rfl rfl rfl
  | publishRest t i p w hp hw => exact cinv_same h rfl rfl (fun _ => rfl) rfl rfl rfl
  | publishRestAll t i p hp => exact cinv_same h rfl rfl (pend_update (by rw [hp]; rfl) rfl) rfl rfl rfl
  | txCall e hp => exact cinv_same h rfl rfl (fun _ => rfl) rfl rfl (by rw [hp]; rfl)
  | txSkip1 i e hp hi hn => exact cinv_same h rfl rfl (fun _ => rfl) rfl rfl (by rw [hp]; rfl)
  | txFound1 i e hp hi hn ho => exact cinv_same h rfl rfl (fun _ => rfl) rfl rfl (by rw [hp]; rfl)
  | txLock i e hp hi => exact cinv_same h rfl rfl (fun _ => rfl) rfl rfl (by rw [hp]; rfl)
  | txWait ref ch e hp hc => exact cinv_same h rfl rfl (fun _ => rfl) rfl rfl (by rw [hp]; rfl)
  | txWake ref ch e hp => exact cinv_same h rfl rfl (fun _ => rfl) rfl rfl (by rw [hp]; rfl)
  | txTimeout ref ch e hp => exact cinv_same h rfl rfl (fun _ => rfl) rfl rfl (by rw [hp]; rfl)
  | txSearch ref ch e hp hc => exact cinv_same h rfl rfl (fun _ => rfl) rfl rfl (by rw [hp]; rfl)
  | txSkip2 i e hp hi hn => exact cinv_same h rfl rfl (fun _ => rfl) rfl rfl (by rw [hp]; rfl)
  | txFound2 i e hp hi hn ho => exact cinv_same h rfl rfl (fun _ => rfl) rfl rfl (by rw [hp]; rfl)
  | txRef i e hp hi => exact cinv_same h rfl rfl (fun _ => rfl) rfl rfl (by rw [hp]; rfl)
  | txRead i e e' l hp h1 h2 => exact cinv_same h rfl rfl (fun _ => rfl) rfl rfl (by rw [hp]; rfl)
  | txDone i e e' l hp h1 h2 ho hi => exact cinv_same h rfl rfl (fun _ => rfl) rfl rfl (by rw [hp]; rfl)
  | txInner i e' hp ho hi =>
    have hm : i ∈ s.lockedB := by rw [h.lockMem]; exact hi
    have hpos : 0 < s.lockedB.length := List.length_pos_of_mem hm
    constructor
    · exact h.pendNodup
    · exact h.pendMem
    · exact h.lockNodup.erase i
    · intro j
      have := h.lockMem j
      simp only [h.lockNodup.mem_erase_iff, Function.update_apply]
      by_cases e : j = i
      · simp [e]
      · simp [e, this]
    · have := h.bal
      have e := List.length_erase_of_mem hm
      simp only [e, owed]
      rw [hp] at this
      simp only [owed] at this
      omega
  | txOuter i e' hp ho hi => exact cinv_same h rfl rfl (fun _ => rfl) rfl rfl (by rw [hp]; rfl)
  | txCnt i e' hp =>
    refine ⟨h.pendNodup, h.pendMem, h.lockNodup, h.lockMem, ?_⟩
    have := h.bal
    rw [hp] at this
    simp only [owed] at this ⊢
    omega

/-- The search of the TX thread misses no announced packet. -/
structure WInv (n : Nat) (s : Sys) : Prop where
  first : ∀ ref e, s.tx = .loop ref false e ∨ s.tx = .wait ref false e → ref = 0
  scan : ∀ k e, s.tx = .scan2 k e → ∀ i < k, s.inner i = true → s.order i = e → Announcing s.pc i
  bound : ∀ ref e, s.tx = .loop ref true e ∨ s.tx = .wait ref true e → ref ≤ s.cnt
  seen : ∀ ref e, s.tx = .loop ref true e ∨ s.tx = .wait ref true e → ∀ i < n, s.inner i = true → s.order i = e →
    ref < s.cnt ∨ Announcing s.pc i

theorem winv_init (n : Nat) : WInv n init := by
  constructor <;> simp [init]

set_option maxHeartbeats 4000000 in
theorem winv_step {n : Nat} {s s' : Sys} (hl : LInv s) (h : WInv n s) (hs : Step n s s') : WInv n s' := by
  obtain ⟨first, scan, bound, seen⟩ := h
  have aInner := hl.aInner
  have au := @announcing_update
  have al := @announcing_lock
  clear hl
  cases hs with
  | fail t hf => exact ⟨first, scan, bound, seen⟩
  | failTx hf => exact ⟨first, scan, bound, seen⟩
  | call t p hp h0 =>
    have m1 : pendAt (s.pc t) = none := by rw [hp]; rfl
    have m2 : ∀ j q, Announcing s.pc j → Announcing (Function.update s.pc t q) j := fun j q h => announcing_update h m1
    constructor <;> grind [Function.update_apply]
  | take t i p hp hi ho =>
    have m1 : pendAt (s.pc t) = none := by rw [hp]; rfl
    have m2 : ∀ j q, Announcing s.pc j → Announcing (Function.update s.pc t q) j := fun j q h => announcing_update h m1
    constructor <;> grind [Function.update_apply]
  | skip t i p hp hi ho =>
    have m1 : pendAt (s.pc t) = none := by rw [hp]; rfl
    have m2 : ∀ j q, Announcing s.pc j → Announcing (Function.update s.pc t q) j := fun j q h => announcing_update h m1
    constructor <;> grind [Function.update_apply]
  | none t i p hp hi =>
    have m1 : pendAt (s.pc t) = none := by rw [hp]; rfl
    have m2 : ∀ j q, Announcing s.pc j → Announcing (Function.update s.pc t q) j := fun j q h => announcing_update h m1
    constructor <;> grind [Function.update_apply]
  | streams t i p hp ho hi =>
    have m1 : pendAt (s.pc t) = none := by rw [hp]; rfl
    have m2 : ∀ j q, Announcing s.pc j → Announcing (Function.update s.pc t q) j := fun j q h => announcing_update h m1
    constructor <;> grind [Function.update_apply]
  | write t i p w hp hw =>
    have m1 : pendAt (s.pc t) = none := by rw [hp]; rfl
    have m2 : ∀ j q, Announcing s.pc j → Announcing (Function.update s.pc t q) j := fun j q h => announcing_update h m1
    constructor <;> grind [Function.update_apply]
  | publish t i p w hp hw => constructor <;> grind [Function.update_apply]
  | publishAll t i p hp =>
    have m1 : pendAt (s.pc t) = none := by rw [hp]; rfl
    have m2 : ∀ j q, Announcing s.pc j → Announcing (Function.update s.pc t q) j := fun j q h => announcing_update h m1
    constructor <;> grind [Function.update_apply]
  | submit t i p w fin hp ho hi =>
    have m1 : pendAt (s.pc t) = none := by rw [hp]; rfl
    have m2 : ∀ j q, Announcing s.pc j → Announcing (Function.update s.pc t q) j := fun j q h => announcing_update h m1
    have m3 : s.inner i = false := hi
    constructor <;> grind [Function.update_apply]
  | check t i p w fin hp ho hi =>
    have m1 : pendAt (s.pc t) = none := by rw [hp]; rfl
    have m2 : ∀ j q, Announcing s.pc j → Announcing (Function.update s.pc t q) j := fun j q h => announcing_update h m1
    constructor <;> grind [Function.update_apply]
  | lock t i p w fin hp =>
    have m1 : pendAt (s.pc t) = none := by rw [hp]; rfl
    have m2 : ∀ j q, Announcing s.pc j → Announcing (Function.update s.pc t q) j := fun j q h => announcing_update h m1
    constructor <;> grind [Function.update_apply]
  | announce t i p w fin hp hm =>
    have m1 : ∀ k e, s.tx ≠ .scan2 k e := by rintro k e h; rw [h] at hm; cases hm
    constructor <;> grind [Function.update_apply]
  | writeRest t i p w hp hw =>
    have m1 : pendAt (s.pc t) = none := by rw [hp]; rfl
    have m2 : ∀ j q, Announcing s.pc j → Announcing (Function.update s.pc t q) j := fun j q h => announcing_update h m1
    constructor <;> grind [Function.update_apply]
  | publishRest t i p w hp hw => constructor <;> grind [Function.update_apply]
  | publishRestAll t i p hp =>
    have m1 : pendAt (s.pc t) = none := by rw [hp]; rfl
    have m2 : ∀ j q, Announcing s.pc j → Announcing (Function.update s.pc t q) j := fun j q h => announcing_update h m1
    constructor <;> grind [Function.update_apply]
  | txCall e hp => constructor <;> grind [Function.update_apply]
  | txSkip1 i e hp hi hn => constructor <;> grind [Function.update_apply]
  | txFound1 i e hp hi hn ho => constructor <;> grind [Function.update_apply]
  | txLock i e hp hi => constructor <;> grind [Function.update_apply]
  | txWait ref ch e hp hc => constructor <;> grind [Function.update_apply]
  | txWake ref ch e hp => constructor <;> grind [Function.update_apply]
  | txTimeout ref ch e hp => constructor <;> grind [Function.update_apply]
  | txSearch ref ch e hp hc => constructor <;> grind [Function.update_apply]
  | txSkip2 i e hp hi hn => constructor <;> grind [Function.update_apply]
  | txFound2 i e hp hi hn ho => constructor <;> grind [Function.update_apply]
  | txRef i e hp hi => constructor <;> grind [Function.update_apply]
  | txRead i e e' l hp h1 h2 => constructor <;> grind [Function.update_apply]
  | txDone i e e' l hp h1 h2 ho hi =>
    constructor <;> grind [Function.update_apply]
  | txInner i e' hp ho hi => constructor <;> grind [Function.update_apply]
  | txOuter i e' hp ho hi => constructor <;> grind [Function.update_apply]
  | txCnt i e' hp => constructor <;> grind [Function.update_apply]

end Verif.Radio.BufferTx
