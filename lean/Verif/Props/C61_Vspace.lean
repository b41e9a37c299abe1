import Verif.Model.Vspace
import Mathlib.Tactic.Ring
import Mathlib.Tactic.Linarith
import Mathlib.Algebra.BigOperators.Group.Finset.Basic
import Mathlib.Algebra.Order.BigOperators.Group.Finset

/-!
# C61: virtual space of the simulator -/

namespace Verif.Sim

variable {α : Type}

theorem allSet_iff (n : Nat) (f : Nat → Bool) : allSet n f = true ↔ ∀ i < n, f i = true := by simp [allSet]

theorem allSet_false (n : Nat) (f : Nat → Bool) : allSet n f = false ↔ ∃ i < n, f i = false := by
  rw [← Bool.not_eq_true, allSet_iff]; simp

theorem noneSet_iff (n : Nat) (f : Nat → Bool) : noneSet n f = true ↔ ∀ i < n, f i = false := by simp [noneSet]

theorem noneSet_false (n : Nat) (f : Nat → Bool) : noneSet n f = false ↔ ∃ i < n, f i = true := by
  rw [← Bool.not_eq_true, noneSet_iff]; simp

/-- State while the threads exchange samples; `K` spp have been exchanged by all. -/
structure Phase (c : Cfg) (T : Int) (s : Sys α) (K : Nat) : Prop where
  now : s.sp.now = T + K * c.spp
  sentLen : ∀ i < c.n, (s.sent i).length = K + if s.sp.written i then 1 else 0
  recvLen : ∀ i < c.n, (s.recv i).length = K + if allSet c.n s.sp.written ∧ s.sp.rd i then 1 else 0
  rdW : allSet c.n s.sp.written = false → ∀ i < c.n, s.sp.rd i = true
  rdR : allSet c.n s.sp.written = true → allSet c.n s.sp.rd = false
  txLoop : ∀ i < c.n, ∀ t b, s.tx i = .loop t b → t = T + (s.sent i).length * c.spp
  txReady : ∀ i < c.n, ∀ t v, s.tx i = .ready t v → t = T + (s.sent i).length * c.spp ∧ s.sp.written i = false
  txReg : ∀ i < c.n, s.tx i = .reg → s.sent i = []
  rxLoop : ∀ i < c.n, ∀ t, s.rx i = .loop t → t = T + (s.recv i).length * c.spp
  rxReady : ∀ i < c.n, ∀ t, s.rx i = .ready t → t = T + (s.recv i).length * c.spp ∧ s.sp.rd i = false
  rxReg : ∀ i < c.n, s.rx i = .reg → s.recv i = []
  slot : ∀ i < c.n, s.sp.written i = true → ((s.sent i)[K]?).map Prod.snd = some (s.sp.slot i)
  sentLog : ∀ i < c.n, ∀ (k : Nat) p, (s.sent i)[k]? = some p → p.1 = T + k * c.spp
  recvLog : ∀ i < c.n, ∀ (k : Nat) p, (s.recv i)[k]? = some p →
    p.1 = T + k * c.spp ∧ p.2.length = c.n ∧ ∀ j < c.n, p.2[j]? = ((s.sent j)[k]?).map Prod.snd

structure Inv (c : Cfg) (T : Int) (s : Sys α) : Prop where
  nab : s.aborted = false
  tx1 : ∀ i < c.n, (s.tx i = .start ↔ s.sp.txReg i = false)
  allTx : s.sp.allTx = allSet c.n s.sp.txReg
  rx1 : ∀ i < c.n, (s.sp.rxReg i = true ↔ s.rx i ≠ .start ∧ s.rx i ≠ .timed)
  allRx : s.sp.allRx = allSet c.n s.sp.rxReg
  rx2 : ∀ i < c.n, s.rx i ≠ .start → s.sp.allTx = true
  tx2 : s.sp.allRx = false → ∀ i < c.n, s.tx i = .start ∨ s.tx i = .reg
  rx3 : s.sp.allRx = false → ∀ i < c.n, s.rx i = .start ∨ s.rx i = .timed ∨ s.rx i = .reg
  now0 : s.sp.allRx = false → s.sp.allTx = true → noneSet c.n s.sp.rxReg = true → s.sp.now = 0
  nowT : s.sp.allRx = false → noneSet c.n s.sp.rxReg = false → s.sp.now = T
  empty : s.sp.allRx = false → ∀ i, s.sent i = [] ∧ s.recv i = []
  phase : s.sp.allRx = true → ∃ K, Phase c T s K

theorem inv_init (c : Cfg) (T : Int) (junk : Nat → α) (hn : 0 < c.n) : Inv c T (Sys.init junk) where
  nab := rfl
  tx1 := by intro i _; simp [Sys.init]
  allTx := by
    symm; show allSet c.n _ = false
    rw [allSet_false]; exact ⟨0, hn, rfl⟩
  rx1 := by intro i _; simp [Sys.init]
  allRx := by
    symm; show allSet c.n _ = false
    rw [allSet_false]; exact ⟨0, hn, rfl⟩
  rx2 := by intro i _ h; exact absurd rfl h
  tx2 := by intro _ i _; exact Or.inl rfl
  rx3 := by intro _ i _; exact Or.inl rfl
  now0 := by intros; rfl
  nowT := by
    intro _ h; rw [noneSet_false] at h
    obtain ⟨i, _, h⟩ := h; simp [Sys.init] at h
  empty := by intro _ i; exact ⟨rfl, rfl⟩
  phase := by intro h; simp [Sys.init] at h

/-! ## What the functions return in the states that occur -/

theorem registerTx_ok {n i : Nat} {sp : Space α} (hi : i < n) (h : sp.txReg i = false) :
    sp.registerTx n i = .ok (if allSet n (Function.update sp.txReg i true) then
      { sp with txReg := Function.update sp.txReg i true, now := 0, allTx := true }
      else { sp with txReg := Function.update sp.txReg i true }) := by
  simp only [Space.registerTx, h, hi, decide_true, Bool.not_false, Res.assert_true, Res.ok_bind]
  split <;> rfl

theorem write_ok {n i : Nat} {t : Int} {v : α} {sp : Space α} (h : sp.written i = false) (ht : t = sp.now) :
    sp.write n i t v = .ok (if allSet n (Function.update sp.written i true) then
      { sp with slot := Function.update sp.slot i v, written := Function.update sp.written i true, rd := fun _ => false }
      else { sp with slot := Function.update sp.slot i v, written := Function.update sp.written i true }) := by
  simp only [Space.write, h, ht, decide_true, Bool.not_false, Res.assert_true, Res.ok_bind]
  split <;> rfl

theorem read_ok {n i : Nat} {t spp : Int} {sp : Space α} (h : sp.rd i = false) (ht : t = sp.now) :
    sp.read n spp i t = .ok (if allSet n (Function.update sp.rd i true) then
      { sp with rd := Function.update sp.rd i true, now := sp.now + spp, written := fun _ => false }
      else { sp with rd := Function.update sp.rd i true }, (List.range n).map sp.slot) := by
  simp only [Space.read, h, ht, decide_true, Bool.not_false, Res.assert_true, Res.ok_bind]
  split <;> rfl

theorem registerRx_ok {n i : Nat} {T : Int} {sp : Space α} (h1 : sp.txReg i = true) (h2 : sp.rxReg i = false)
    (h3 : sp.allTx = true) (h4 : noneSet n sp.rxReg = true → sp.now = 0) (h5 : noneSet n sp.rxReg = false → sp.now = T) :
    sp.registerRx n i T = .ok (if allSet n (Function.update sp.rxReg i true) then
      { sp with now := T, rxReg := Function.update sp.rxReg i true, written := fun _ => false, rd := fun _ => true, allRx := true }
      else { sp with now := T, rxReg := Function.update sp.rxReg i true }) := by
  cases hb : noneSet n sp.rxReg
  · have := h5 hb
    simp only [Space.registerRx, h1, h2, h3, hb, this, decide_true, Bool.not_false, Bool.not_true, Bool.true_or, Res.assert_true,
      Res.ok_bind, if_false, Bool.false_eq_true, if_false]
    cases sp; simp only at this ⊢; subst this; split <;> rfl
  · have := h4 hb
    simp only [Space.registerRx, h1, h2, h3, hb, this, decide_true, Bool.not_false, Bool.not_true, Bool.false_or, Res.assert_true,
      Res.ok_bind, if_true, Bool.false_eq_true, if_false]
    split <;> rfl

theorem Inv.running {c : Cfg} {T : Int} {s : Sys α} (h : Inv c T s) {i : Nat} (hi : i < c.n)
    (ht : s.tx i ≠ .start ∧ s.tx i ≠ .reg) : ∃ K, Phase c T s K := by
  cases ha : s.sp.allRx
  · rcases h.tx2 ha i hi with h | h
    · exact absurd h ht.1
    · exact absurd h ht.2
  · exact h.phase ha

theorem Inv.running_rx {c : Cfg} {T : Int} {s : Sys α} (h : Inv c T s) {i : Nat} (hi : i < c.n)
    (ht : s.rx i ≠ .start ∧ s.rx i ≠ .timed ∧ s.rx i ≠ .reg) : s.sp.allRx = true := by
  cases ha : s.sp.allRx
  · rcases h.rx3 ha i hi with h | h | h
    · exact absurd h ht.1
    · exact absurd h ht.2.1
    · exact absurd h ht.2.2
  · rfl

theorem Inv.running_tx {c : Cfg} {T : Int} {s : Sys α} (h : Inv c T s) {i : Nat} (hi : i < c.n)
    (ht : s.tx i ≠ .start ∧ s.tx i ≠ .reg) : s.sp.allRx = true := by
  cases ha : s.sp.allRx
  · rcases h.tx2 ha i hi with h | h
    · exact absurd h ht.1
    · exact absurd h ht.2
  · rfl

theorem Phase.txNow {c : Cfg} {T : Int} {s : Sys α} {K : Nat} (p : Phase c T s K) {i : Nat} (hi : i < c.n) {t : Int} {v : α}
    (h : s.tx i = .ready t v) : t = s.sp.now ∧ s.sp.written i = false := by
  obtain ⟨h1, h2⟩ := p.txReady i hi t v h
  have := p.sentLen i hi
  simp only [h2, Bool.false_eq_true, if_false, Nat.add_zero] at this
  rw [h1, this, p.now]; exact ⟨rfl, h2⟩

theorem Phase.rxNow {c : Cfg} {T : Int} {s : Sys α} {K : Nat} (p : Phase c T s K) {i : Nat} (hi : i < c.n) {t : Int}
    (h : s.rx i = .ready t) : t = s.sp.now ∧ s.sp.rd i = false ∧ allSet c.n s.sp.written = true ∧ (s.recv i).length = K := by
  obtain ⟨h1, h2⟩ := p.rxReady i hi t h
  have h3 : allSet c.n s.sp.written = true := by
    cases ha : allSet c.n s.sp.written
    · rw [p.rdW ha i hi] at h2; cases h2
    · rfl
  have := p.recvLen i hi
  simp only [h2, Bool.false_eq_true, and_false, if_false, Nat.add_zero] at this
  rw [h1, this, p.now]; exact ⟨rfl, h2, h3, rfl⟩

/-- Registration of an RX thread in the states that occur -/
theorem Inv.registerRx {c : Cfg} {T : Int} {s : Sys α} (h : Inv c T s) {i : Nat} (hi : i < c.n) (hr : s.rx i = .timed) :
    s.sp.registerRx c.n i T = .ok (if allSet c.n (Function.update s.sp.rxReg i true) then
      { s.sp with now := T, rxReg := Function.update s.sp.rxReg i true, written := fun _ => false, rd := fun _ => true, allRx := true }
      else { s.sp with now := T, rxReg := Function.update s.sp.rxReg i true }) ∧ s.sp.allRx = false ∧ s.sp.rxReg i = false := by
  have hreg : s.sp.rxReg i = false := by
    rw [← Bool.not_eq_true, h.rx1 i hi]; simp [hr]
  have hna : s.sp.allRx = false := by rw [h.allRx, allSet_false]; exact ⟨i, hi, hreg⟩
  have hat := h.rx2 i hi (by rw [hr]; simp)
  refine ⟨registerRx_ok ?_ hreg hat (h.now0 hna hat) (h.nowT hna), hna, hreg⟩
  have := hat; rw [h.allTx, allSet_iff] at this; exact this i hi

theorem Inv.not_fails {c : Cfg} {T : Int} {s : Sys α} (h : Inv c T s) (hT : ∀ i < c.n, c.start i = T) {i : Nat} (hi : i < c.n) :
    ¬ s.fails c i := by
  rintro (⟨h1, h2⟩ | ⟨h1, h2⟩ | ⟨t, v, h1, h2⟩ | ⟨t, h1, h2⟩)
  · rw [registerTx_ok hi ((h.tx1 i hi).1 h1)] at h2; cases h2
  · rw [hT i hi, (h.registerRx hi h1).1] at h2; cases h2
  · obtain ⟨K, p⟩ := h.running hi (by rw [h1]; simp)
    obtain ⟨h3, h4⟩ := p.txNow hi h1
    rw [write_ok h4 h3] at h2; cases h2
  · obtain ⟨K, p⟩ := h.phase (h.running_rx hi (by rw [h1]; simp))
    obtain ⟨h3, h4, _⟩ := p.rxNow hi h1
    rw [read_ok h4 h3] at h2; cases h2

/-- Steps which change only program counters after registration keep what concerns registration. -/
theorem Inv.of_phase {c : Cfg} {T : Int} {s s' : Sys α} (h : Inv c T s) (ha : s.sp.allRx = true)
    (e0 : s'.aborted = s.aborted) (e1 : s'.sp.txReg = s.sp.txReg) (e2 : s'.sp.rxReg = s.sp.rxReg) (e3 : s'.sp.allTx = s.sp.allTx)
    (e4 : s'.sp.allRx = s.sp.allRx) (e5 : ∀ i < c.n, (s'.tx i = .start ↔ s.tx i = .start))
    (e6 : ∀ i < c.n, (s'.rx i = .start ↔ s.rx i = .start)) (e7 : ∀ i < c.n, (s'.rx i = .timed ↔ s.rx i = .timed))
    (hp : ∃ K, Phase c T s' K) : Inv c T s' where
  nab := by rw [e0]; exact h.nab
  tx1 := by intro i hi; rw [e5 i hi, e1]; exact h.tx1 i hi
  allTx := by rw [e3, e1]; exact h.allTx
  rx1 := by
    intro i hi
    rw [e2, h.rx1 i hi, ne_eq, ne_eq, ne_eq, ne_eq, e6 i hi, e7 i hi]
  allRx := by rw [e4, e2]; exact h.allRx
  rx2 := by intro i hi hr; rw [e3]; exact h.rx2 i hi (fun h => hr ((e6 i hi).2 h))
  tx2 := by intro hc; rw [e4, ha] at hc; cases hc
  rx3 := by intro hc; rw [e4, ha] at hc; cases hc
  now0 := by intro hc; rw [e4, ha] at hc; cases hc
  nowT := by intro hc; rw [e4, ha] at hc; cases hc
  empty := by intro hc; rw [e4, ha] at hc; cases hc
  phase := fun _ => hp

theorem upd_iff {β : Type} {f : Nat → β} {i : Nat} {x y : β} (h1 : f i ≠ y) (h2 : x ≠ y) (j : Nat) :
    (Function.update f i x j = y ↔ f j = y) := by
  by_cases h : j = i
  · subst h; simp [h1, h2]
  · simp [h]

theorem phase_write {c : Cfg} {T : Int} {s : Sys α} {K : Nat} (hn : 0 < c.n) (p : Phase c T s K) {i : Nat} (hi : i < c.n) {t : Int}
    {v : α} (h : s.tx i = .ready t v) (b : Bool) (sp' : Space α) (hw : s.sp.write c.n i t v = .ok sp') :
    Phase c T { s with
        sp := sp', tx := Function.update s.tx i (.loop (t + c.spp) b)
        sent := Function.update s.sent i (s.sent i ++ [(t, v)]) } K := by
  obtain ⟨h3, h4⟩ := p.txNow hi h
  have hlen : (s.sent i).length = K := by simpa [h4] using p.sentLen i hi
  have hna : allSet c.n s.sp.written = false := by rw [allSet_false]; exact ⟨i, hi, h4⟩
  have hrl : ∀ j < c.n, (s.recv j).length = K := by intro j hj; simpa [hna] using p.recvLen j hj
  rw [write_ok h4 h3] at hw
  simp only [Res.ok.injEq] at hw
  have hwr : sp'.written = Function.update s.sp.written i true := by rw [← hw]; split <;> rfl
  have hsl : sp'.slot = Function.update s.sp.slot i v := by rw [← hw]; split <;> rfl
  have hnow : sp'.now = s.sp.now := by rw [← hw]; split <;> rfl
  have hrd : allSet c.n sp'.written = true → sp'.rd = fun _ => false := by
    intro ha; rw [hwr] at ha; rw [← hw, if_pos ha]
  have hrd' : allSet c.n sp'.written = false → sp'.rd = s.sp.rd := by
    intro ha; rw [hwr] at ha; rw [← hw, if_neg (by simp [ha])]
  refine ⟨?_, ?_, ?_, ?_, ?_, ?_, ?_, ?_, ?_, ?_, ?_, ?_, ?_, ?_⟩
  · simp only [hnow]; exact p.now
  · intro j hj
    by_cases e : j = i
    · subst e; simp [hwr, hlen]
    · simp only [hwr, Function.update_of_ne e]; exact p.sentLen j hj
  · intro j hj
    simp only [hrl j hj]
    cases ha : allSet c.n sp'.written
    · simp
    · simp [hrd ha]
  · intro ha j hj
    simp only [hrd' ha]; exact p.rdW hna j hj
  · intro ha
    simp only [hrd ha]; rw [allSet_false]; exact ⟨0, hn, rfl⟩
  · intro j hj t' b' e'
    by_cases e : j = i
    · subst e
      simp only [Function.update_self, TxPc.loop.injEq, List.length_append, List.length_singleton] at e' ⊢
      rw [← e'.1, h3, p.now, hlen]; push_cast; ring
    · simp only [Function.update_of_ne e] at e' ⊢; exact p.txLoop j hj t' b' e'
  · intro j hj t' v' e'
    by_cases e : j = i
    · subst e; simp at e'
    · simp only [Function.update_of_ne e, hwr] at e' ⊢; exact p.txReady j hj t' v' e'
  · intro j hj e'
    by_cases e : j = i
    · subst e; simp at e'
    · simp only [Function.update_of_ne e] at e' ⊢; exact p.txReg j hj e'
  · exact p.rxLoop
  · intro j hj t' e'
    have := p.rxNow hj e'
    rw [hna] at this; simp at this
  · exact p.rxReg
  · intro j hj e'
    by_cases e : j = i
    · subst e; simp [hsl, ← hlen]
    · simp only [Function.update_of_ne e, hwr, hsl] at e' ⊢; exact p.slot j hj e'
  · intro j hj k q e'
    by_cases e : j = i
    · subst e
      simp only [Function.update_self] at e'
      rcases Nat.lt_or_ge k (s.sent j).length with hk | hk
      · rw [List.getElem?_append_left hk] at e'; exact p.sentLog j hj k q e'
      · rw [List.getElem?_append_right hk] at e'
        have : k - (s.sent j).length = 0 := by
          by_contra hne
          rw [List.getElem?_eq_none (by simp; omega)] at e'; cases e'
        rw [this] at e'; simp only [List.getElem?_cons_zero, Option.some.injEq] at e'
        rw [← e']; simp only [h3, p.now]; congr 2; omega
    · simp only [Function.update_of_ne e] at e'; exact p.sentLog j hj k q e'
  · intro j hj k q e'
    have hk : k < K := by
      rw [← hrl j hj]; exact (List.getElem?_eq_some_iff.1 e').1
    obtain ⟨r1, r2, r3⟩ := p.recvLog j hj k q e'
    refine ⟨r1, r2, ?_⟩
    intro l hl
    rw [r3 l hl]
    by_cases e : l = i
    · subst e; simp only [Function.update_self]; rw [List.getElem?_append_left (by omega)]
    · simp only [Function.update_of_ne e]

theorem phase_read {c : Cfg} {T : Int} {s : Sys α} {K : Nat} (p : Phase c T s K) {i : Nat} (hi : i < c.n) {t : Int}
    (h : s.rx i = .ready t) (sp' : Space α) (out : List α) (hw : s.sp.read c.n c.spp i t = .ok (sp', out)) :
    ∃ K', Phase c T { s with
        sp := sp', rx := Function.update s.rx i (.loop (t + c.spp))
        recv := Function.update s.recv i (s.recv i ++ [(t, out)]) } K' := by
  obtain ⟨h3, h4, h5, hlen⟩ := p.rxNow hi h
  have hall := (allSet_iff _ _).1 h5
  have hsl : ∀ j < c.n, (s.sent j).length = K + 1 := by
    intro j hj; simpa [hall j hj] using p.sentLen j hj
  rw [read_ok h4 h3] at hw
  simp only [Res.ok.injEq, Prod.mk.injEq] at hw
  obtain ⟨hw, hout⟩ := hw
  have hlog : ∀ j < c.n, ∀ (k : Nat) q, (Function.update s.recv i (s.recv i ++ [(t, out)]) j)[k]? = some q →
      q.1 = T + k * c.spp ∧ q.2.length = c.n ∧ ∀ l < c.n, q.2[l]? = ((s.sent l)[k]?).map Prod.snd := by
    intro j hj k q e'
    by_cases e : j = i
    · subst e
      simp only [Function.update_self] at e'
      rcases Nat.lt_or_ge k (s.recv j).length with hk | hk
      · rw [List.getElem?_append_left hk] at e'; exact p.recvLog j hj k q e'
      · rw [List.getElem?_append_right hk] at e'
        have : k - (s.recv j).length = 0 := by
          by_contra hne
          rw [List.getElem?_eq_none (by simp; omega)] at e'; cases e'
        rw [this] at e'; simp only [List.getElem?_cons_zero, Option.some.injEq] at e'
        have hkK : k = K := by omega
        subst hkK
        rw [← e', ← hout]
        refine ⟨by simp only [h3, p.now], by simp, ?_⟩
        intro l hl
        rw [p.slot l hl (hall l hl)]
        simp [hl]
    · simp only [Function.update_of_ne e] at e'; exact p.recvLog j hj k q e'
  have hrl : ∀ (b : Bool) (K' : Nat), (∀ j < c.n, j ≠ i → (s.recv j).length = K' + if b ∧ sp'.rd j then 1 else 0) →
      K + 1 = K' + (if b ∧ sp'.rd i then 1 else 0) → ∀ j < c.n,
      (Function.update s.recv i (s.recv i ++ [(t, out)]) j).length = K' + if b ∧ sp'.rd j then 1 else 0 := by
    intro b K' h1 h2 j hj
    by_cases e : j = i
    · subst e; simp only [Function.update_self, List.length_append, List.length_singleton, hlen, h2]
    · simp only [Function.update_of_ne e]; exact h1 j hj e
  have hloop : ∀ j < c.n, ∀ t', Function.update s.rx i (.loop (t + c.spp)) j = .loop t' →
      t' = T + (Function.update s.recv i (s.recv i ++ [(t, out)]) j).length * c.spp := by
    intro j hj t' e'
    by_cases e : j = i
    · subst e
      simp only [Function.update_self, RxPc.loop.injEq, List.length_append, List.length_singleton] at e' ⊢
      rw [← e', h3, p.now, hlen]; push_cast; ring
    · simp only [Function.update_of_ne e] at e' ⊢; exact p.rxLoop j hj t' e'
  have hrg : ∀ j < c.n, Function.update s.rx i (.loop (t + c.spp)) j = .reg →
      Function.update s.recv i (s.recv i ++ [(t, out)]) j = [] := by
    intro j hj e'
    by_cases e : j = i
    · subst e; simp at e'
    · simp only [Function.update_of_ne e] at e' ⊢; exact p.rxReg j hj e'
  have hrdy : ∀ j < c.n, ∀ t', Function.update s.rx i (.loop (t + c.spp)) j = .ready t' → j ≠ i ∧ s.rx j = .ready t' := by
    intro j hj t' e'
    by_cases e : j = i
    · subst e; simp at e'
    · simp only [Function.update_of_ne e] at e'; exact ⟨e, e'⟩
  cases ha : allSet c.n (Function.update s.sp.rd i true)
  · rw [if_neg (by simp [ha])] at hw
    subst hw
    refine ⟨K, ⟨p.now, p.sentLen, ?_, ?_, ?_, p.txLoop, p.txReady, p.txReg, hloop, ?_, hrg, p.slot, p.sentLog, hlog⟩⟩
    · have := hrl true K (fun j hj e => by
        simp only [Function.update_of_ne e]; have := p.recvLen j hj; simpa [h5] using this) (by simp)
      intro j hj; have := this j hj; simpa [h5] using this
    · intro hc; rw [h5] at hc; cases hc
    · intro _; exact ha
    · intro j hj t' e'
      obtain ⟨e, e'⟩ := hrdy j hj t' e'
      simp only [Function.update_of_ne e]; exact p.rxReady j hj t' e'
  · rw [if_pos ha] at hw
    subst hw
    have har := (allSet_iff _ _).1 ha
    have hn0 : 0 < c.n := by omega
    have hnf : allSet c.n (fun _ => false) = false := by rw [allSet_false]; exact ⟨0, hn0, rfl⟩
    refine ⟨K + 1, ⟨?_, ?_, ?_, ?_, ?_, p.txLoop, ?_, p.txReg, hloop, ?_, hrg, ?_, p.sentLog, hlog⟩⟩
    · simp only [p.now]; push_cast; ring
    · intro j hj; simp only [hsl j hj]; simp
    · have := hrl false (K + 1) (fun j hj e => by
        have := p.recvLen j hj
        have h' := har j hj
        rw [Function.update_of_ne e] at h'
        simpa [h5, h'] using this) (by simp)
      intro j hj; have := this j hj; simpa [hnf] using this
    · intro _; exact har
    · intro hc; rw [hnf] at hc; cases hc
    · intro j hj t' v' e'; exact ⟨(p.txReady j hj t' v' e').1, rfl⟩
    · intro j hj t' e'
      obtain ⟨e, e'⟩ := hrdy j hj t' e'
      have h' := har j hj
      rw [Function.update_of_ne e, (p.rxReady j hj t' e').2] at h'; cases h'
    · intro j hj hc; simp at hc

theorem inv_step {c : Cfg} {T : Int} (hn : 0 < c.n) (hT : ∀ i < c.n, c.start i = T) {s s' : Sys α} (h : Inv c T s)
    (st : Step c s s') : Inv c T s' := by
  cases st with
  | fail i hi hf => exact absurd hf (h.not_fails hT hi)
  | txRegister i sp' hi h1 h2 =>
    have hr := (h.tx1 i hi).1 h1
    have hat : s.sp.allTx = false := by rw [h.allTx, allSet_false]; exact ⟨i, hi, hr⟩
    have hrx : ∀ j < c.n, s.rx j = .start := by
      intro j hj; by_contra hc; rw [h.rx2 j hj hc] at hat; cases hat
    have hrr : ∀ j < c.n, s.sp.rxReg j = false := by
      intro j hj; rw [← Bool.not_eq_true, h.rx1 j hj]; simp [hrx j hj]
    have har : s.sp.allRx = false := by rw [h.allRx, allSet_false]; exact ⟨i, hi, hrr i hi⟩
    rw [registerTx_ok hi hr] at h2
    simp only [Res.ok.injEq] at h2
    have e1 : sp'.txReg = Function.update s.sp.txReg i true := by rw [← h2]; split <;> rfl
    have e2 : sp'.rxReg = s.sp.rxReg := by rw [← h2]; split <;> rfl
    have e3 : sp'.allRx = s.sp.allRx := by rw [← h2]; split <;> rfl
    have e4 : sp'.allTx = allSet c.n sp'.txReg := by
      rw [e1, ← h2]
      split
      · rename_i hh; exact hh.symm
      · rename_i hh; simp only [hat]; simpa using hh
    have e5 : sp'.allTx = true → sp'.now = 0 := by
      intro ha; rw [e4, e1] at ha; rw [← h2, if_pos ha]
    refine ⟨h.nab, ?_, e4, ?_, ?_, ?_, ?_, ?_, ?_, ?_, ?_, ?_⟩
    · intro j hj
      by_cases e : j = i
      · subst e; simp [e1]
      · simp only [Function.update_of_ne e, e1]; exact h.tx1 j hj
    · intro j hj; simp only [e2]; exact h.rx1 j hj
    · simp only [e2, e3]; exact h.allRx
    · intro j hj hc; exact absurd (hrx j hj) hc
    · intro _ j hj
      by_cases e : j = i
      · subst e; simp
      · simp only [Function.update_of_ne e]; exact h.tx2 har j hj
    · intro _ j hj; exact Or.inl (hrx j hj)
    · intro _ ha _; exact e5 ha
    · intro _ hc; simp only [e2] at hc; rw [noneSet_false] at hc
      obtain ⟨j, hj, hc⟩ := hc; rw [hrr j hj] at hc; cases hc
    · intro _; exact h.empty har
    · intro hc; simp only [e3, har] at hc; cases hc
  | txGo i hi h1 h2 =>
    obtain ⟨K, p⟩ := h.phase h2
    refine h.of_phase h2 rfl rfl rfl rfl rfl (fun j _ => upd_iff (by rw [h1]; simp) (by simp) j) (fun _ _ => Iff.rfl) (fun _ _ => Iff.rfl)
      ⟨K, ⟨p.now, p.sentLen, p.recvLen, p.rdW, p.rdR, ?_, ?_, ?_, p.rxLoop, p.rxReady, p.rxReg, p.slot, p.sentLog, p.recvLog⟩⟩
    · intro j hj t b e'
      by_cases e : j = i
      · subst e; simp only [Function.update_self, TxPc.loop.injEq] at e'
        rw [← e'.1, hT j hj, p.txReg j hj h1]; simp
      · simp only [Function.update_of_ne e] at e'; exact p.txLoop j hj t b e'
    · intro j hj t b e'
      by_cases e : j = i
      · subst e; simp at e'
      · simp only [Function.update_of_ne e] at e'; exact p.txReady j hj t b e'
    · intro j hj e'
      by_cases e : j = i
      · subst e; simp at e'
      · simp only [Function.update_of_ne e] at e'; exact p.txReg j hj e'
  | txSee i t b v hi h1 _ h3 =>
    have ha := h.running_tx hi (by rw [h1]; simp)
    obtain ⟨K, p⟩ := h.phase ha
    refine h.of_phase ha rfl rfl rfl rfl rfl (fun j _ => upd_iff (by rw [h1]; simp) (by simp) j) (fun _ _ => Iff.rfl) (fun _ _ => Iff.rfl)
      ⟨K, ⟨p.now, p.sentLen, p.recvLen, p.rdW, p.rdR, ?_, ?_, ?_, p.rxLoop, p.rxReady, p.rxReg, p.slot, p.sentLog, p.recvLog⟩⟩
    · intro j hj t' b' e'
      by_cases e : j = i
      · subst e; simp at e'
      · simp only [Function.update_of_ne e] at e'; exact p.txLoop j hj t' b' e'
    · intro j hj t' b' e'
      by_cases e : j = i
      · subst e; simp only [Function.update_self, TxPc.ready.injEq] at e'
        rw [← e'.1]; exact ⟨p.txLoop j hj t b h1, h3⟩
      · simp only [Function.update_of_ne e] at e'; exact p.txReady j hj t' b' e'
    · intro j hj e'
      by_cases e : j = i
      · subst e; simp at e'
      · simp only [Function.update_of_ne e] at e'; exact p.txReg j hj e'
  | txWrite i t v sp' b hi h1 h2 =>
    have ha := h.running_tx hi (by rw [h1]; simp)
    obtain ⟨K, p⟩ := h.phase ha
    obtain ⟨h3, h4⟩ := p.txNow hi h1
    have hw := h2
    rw [write_ok h4 h3] at hw
    simp only [Res.ok.injEq] at hw
    refine h.of_phase ha rfl (by rw [← hw]; split <;> rfl) (by rw [← hw]; split <;> rfl) (by rw [← hw]; split <;> rfl)
      (by rw [← hw]; split <;> rfl) (fun j _ => upd_iff (by rw [h1]; simp) (by simp) j) (fun _ _ => Iff.rfl) (fun _ _ => Iff.rfl)
      ⟨K, phase_write hn p hi h1 b sp' h2⟩
  | txStop i t hi h1 _ =>
    have ha := h.running_tx hi (by rw [h1]; simp)
    obtain ⟨K, p⟩ := h.phase ha
    refine h.of_phase ha rfl rfl rfl rfl rfl (fun j _ => upd_iff (by rw [h1]; simp) (by simp) j) (fun _ _ => Iff.rfl) (fun _ _ => Iff.rfl)
      ⟨K, ⟨p.now, p.sentLen, p.recvLen, p.rdW, p.rdR, ?_, ?_, ?_, p.rxLoop, p.rxReady, p.rxReg, p.slot, p.sentLog, p.recvLog⟩⟩
    · intro j hj t' b' e'
      by_cases e : j = i
      · subst e; simp at e'
      · simp only [Function.update_of_ne e] at e'; exact p.txLoop j hj t' b' e'
    · intro j hj t' b' e'
      by_cases e : j = i
      · subst e; simp at e'
      · simp only [Function.update_of_ne e] at e'; exact p.txReady j hj t' b' e'
    · intro j hj e'
      by_cases e : j = i
      · subst e; simp at e'
      · simp only [Function.update_of_ne e] at e'; exact p.txReg j hj e'
  | rxTime i hi h1 h2 =>
    have hr : s.sp.rxReg i = false := by rw [← Bool.not_eq_true, h.rx1 i hi]; simp [h1]
    have har : s.sp.allRx = false := by rw [h.allRx, allSet_false]; exact ⟨i, hi, hr⟩
    refine ⟨h.nab, h.tx1, h.allTx, ?_, h.allRx, ?_, h.tx2, ?_, h.now0, h.nowT, h.empty, ?_⟩
    · intro j hj
      by_cases e : j = i
      · subst e; simp [hr]
      · simp only [Function.update_of_ne e]; exact h.rx1 j hj
    · intro j hj _; exact h2
    · intro _ j hj
      by_cases e : j = i
      · subst e; simp
      · simp only [Function.update_of_ne e]; exact h.rx3 har j hj
    · intro hc; simp only [har] at hc; cases hc
  | rxRegister i sp' hi h1 h2 =>
    obtain ⟨hreg, har, hr⟩ := h.registerRx hi h1
    have hat := h.rx2 i hi (by rw [h1]; simp)
    rw [hT i hi, hreg] at h2
    simp only [Res.ok.injEq] at h2
    have e1 : sp'.txReg = s.sp.txReg := by rw [← h2]; split <;> rfl
    have e2 : sp'.rxReg = Function.update s.sp.rxReg i true := by rw [← h2]; split <;> rfl
    have e3 : sp'.allTx = s.sp.allTx := by rw [← h2]; split <;> rfl
    have e4 : sp'.allRx = allSet c.n sp'.rxReg := by
      rw [e2, ← h2]
      split
      · rename_i hh; exact hh.symm
      · rename_i hh; simp only [har]; simpa using hh
    have e5 : sp'.now = T := by rw [← h2]; split <;> rfl
    have e6 : sp'.allRx = true → sp'.written = (fun _ => false) ∧ sp'.rd = fun _ => true := by
      intro ha; rw [e4, e2] at ha; rw [← h2, if_pos ha]; exact ⟨rfl, rfl⟩
    refine ⟨h.nab, ?_, ?_, ?_, e4, ?_, ?_, ?_, ?_, ?_, ?_, ?_⟩
    · intro j hj; simp only [e1]; exact h.tx1 j hj
    · simp only [e3, e1]; exact h.allTx
    · intro j hj
      by_cases e : j = i
      · subst e; simp [e2]
      · simp only [Function.update_of_ne e, e2]; exact h.rx1 j hj
    · intro j hj _; simp only [e3]; exact hat
    · intro _; exact h.tx2 har
    · intro _ j hj
      by_cases e : j = i
      · subst e; simp
      · simp only [Function.update_of_ne e]; exact h.rx3 har j hj
    · intro _ _ hc
      simp only [e2] at hc
      have := (noneSet_iff _ _).1 hc i hi
      simp at this
    · intro _ _; exact e5
    · intro _; exact h.empty har
    · intro ha
      simp only at ha
      obtain ⟨f1, f2⟩ := e6 ha
      have hnf : allSet c.n (fun _ => false) = false := by rw [allSet_false]; exact ⟨0, hn, rfl⟩
      have htx := h.tx2 har
      refine ⟨0, ⟨?_, ?_, ?_, ?_, ?_, ?_, ?_, ?_, ?_, ?_, ?_, ?_, ?_, ?_⟩⟩
      · simp [e5]
      · intro j hj; simp [f1, (h.empty har j).1]
      · intro j hj; simp [f1, hnf, (h.empty har j).2]
      · intro _ j hj; simp [f2]
      · intro hc; simp only [f1, hnf] at hc; cases hc
      · intro j hj t b e'; rcases htx j hj with e | e <;> rw [show s.tx j = _ from e'] at e <;> cases e
      · intro j hj t b e'; rcases htx j hj with e | e <;> rw [show s.tx j = _ from e'] at e <;> cases e
      · intro j hj _; exact (h.empty har j).1
      · intro j hj t e'
        by_cases e : j = i
        · subst e; simp at e'
        · simp only [Function.update_of_ne e] at e'
          rcases h.rx3 har j hj with e | e | e <;> rw [e'] at e <;> cases e
      · intro j hj t e'
        by_cases e : j = i
        · subst e; simp at e'
        · simp only [Function.update_of_ne e] at e'
          rcases h.rx3 har j hj with e | e | e <;> rw [e'] at e <;> cases e
      · intro j hj _; exact (h.empty har j).2
      · intro j hj hc; simp [f1] at hc
      · intro j hj k q e'; rw [show s.sent j = [] from (h.empty har j).1] at e'; simp at e'
      · intro j hj k q e'; rw [show s.recv j = [] from (h.empty har j).2] at e'; simp at e'
  | rxGo i hi h1 h2 =>
    obtain ⟨K, p⟩ := h.phase h2
    refine h.of_phase h2 rfl rfl rfl rfl rfl (fun _ _ => Iff.rfl) (fun j _ => upd_iff (by rw [h1]; simp) (by simp) j)
      (fun j _ => upd_iff (by rw [h1]; simp) (by simp) j)
      ⟨K, ⟨p.now, p.sentLen, p.recvLen, p.rdW, p.rdR, p.txLoop, p.txReady, p.txReg, ?_, ?_, ?_, p.slot, p.sentLog, p.recvLog⟩⟩
    · intro j hj t e'
      by_cases e : j = i
      · subst e; simp only [Function.update_self, RxPc.loop.injEq] at e'
        rw [← e', hT j hj, p.rxReg j hj h1]; simp
      · simp only [Function.update_of_ne e] at e'; exact p.rxLoop j hj t e'
    · intro j hj t e'
      by_cases e : j = i
      · subst e; simp at e'
      · simp only [Function.update_of_ne e] at e'; exact p.rxReady j hj t e'
    · intro j hj e'
      by_cases e : j = i
      · subst e; simp at e'
      · simp only [Function.update_of_ne e] at e'; exact p.rxReg j hj e'
  | rxSee i t hi h1 _ h3 =>
    have ha := h.running_rx hi (by rw [h1]; simp)
    obtain ⟨K, p⟩ := h.phase ha
    refine h.of_phase ha rfl rfl rfl rfl rfl (fun _ _ => Iff.rfl) (fun j _ => upd_iff (by rw [h1]; simp) (by simp) j)
      (fun j _ => upd_iff (by rw [h1]; simp) (by simp) j)
      ⟨K, ⟨p.now, p.sentLen, p.recvLen, p.rdW, p.rdR, p.txLoop, p.txReady, p.txReg, ?_, ?_, ?_, p.slot, p.sentLog, p.recvLog⟩⟩
    · intro j hj t' e'
      by_cases e : j = i
      · subst e; simp at e'
      · simp only [Function.update_of_ne e] at e'; exact p.rxLoop j hj t' e'
    · intro j hj t' e'
      by_cases e : j = i
      · subst e; simp only [Function.update_self, RxPc.ready.injEq] at e'
        rw [← e']; exact ⟨p.rxLoop j hj t h1, h3⟩
      · simp only [Function.update_of_ne e] at e'; exact p.rxReady j hj t' e'
    · intro j hj e'
      by_cases e : j = i
      · subst e; simp at e'
      · simp only [Function.update_of_ne e] at e'; exact p.rxReg j hj e'
  | rxRead i t sp' out hi h1 h2 =>
    have ha := h.running_rx hi (by rw [h1]; simp)
    obtain ⟨K, p⟩ := h.phase ha
    obtain ⟨h3, h4, _⟩ := p.rxNow hi h1
    have hw := h2
    rw [read_ok h4 h3] at hw
    simp only [Res.ok.injEq, Prod.mk.injEq] at hw
    refine h.of_phase ha rfl (by rw [← hw.1]; split <;> rfl) (by rw [← hw.1]; split <;> rfl) (by rw [← hw.1]; split <;> rfl)
      (by rw [← hw.1]; split <;> rfl) (fun _ _ => Iff.rfl) (fun j _ => upd_iff (by rw [h1]; simp) (by simp) j)
      (fun j _ => upd_iff (by rw [h1]; simp) (by simp) j) (phase_read p hi h1 sp' out h2)
  | rxStop i t hi h1 _ =>
    have ha := h.running_rx hi (by rw [h1]; simp)
    obtain ⟨K, p⟩ := h.phase ha
    refine h.of_phase ha rfl rfl rfl rfl rfl (fun _ _ => Iff.rfl) (fun j _ => upd_iff (by rw [h1]; simp) (by simp) j)
      (fun j _ => upd_iff (by rw [h1]; simp) (by simp) j)
      ⟨K, ⟨p.now, p.sentLen, p.recvLen, p.rdW, p.rdR, p.txLoop, p.txReady, p.txReg, ?_, ?_, ?_, p.slot, p.sentLog, p.recvLog⟩⟩
    · intro j hj t' e'
      by_cases e : j = i
      · subst e; simp at e'
      · simp only [Function.update_of_ne e] at e'; exact p.rxLoop j hj t' e'
    · intro j hj t' e'
      by_cases e : j = i
      · subst e; simp at e'
      · simp only [Function.update_of_ne e] at e'; exact p.rxReady j hj t' e'
    · intro j hj e'
      by_cases e : j = i
      · subst e; simp at e'
      · simp only [Function.update_of_ne e] at e'; exact p.rxReg j hj e'
  | halt i hi _ =>
    refine ⟨h.nab, h.tx1, h.allTx, h.rx1, h.allRx, h.rx2, h.tx2, h.rx3, h.now0, h.nowT, h.empty, ?_⟩
    intro ha
    obtain ⟨K, p⟩ := h.phase ha
    exact ⟨K, ⟨p.now, p.sentLen, p.recvLen, p.rdW, p.rdR, p.txLoop, p.txReady, p.txReg, p.rxLoop, p.rxReady, p.rxReg, p.slot, p.sentLog,
      p.recvLog⟩⟩

theorem inv_reach {c : Cfg} {T : Int} {junk : Nat → α} (hn : 0 < c.n) (hT : ∀ i < c.n, c.start i = T) {k : Nat} {s : Sys α}
    (r : Reach c junk k s) : Inv c T s := by
  induction r with
  | init => exact inv_init c T junk hn
  | step _ st ih => exact inv_step hn hT ih st

/-- A thread which has left its loop was told to. -/
theorem stopped_reach {c : Cfg} {junk : Nat → α} {k : Nat} {s : Sys α} (r : Reach c junk k s) :
    ∀ i, (s.tx i = .stopped ∨ s.rx i = .stopped) → s.running i = false := by
  induction r with
  | init => intro i h; simp [Sys.init] at h
  | step _ st ih =>
    intro j h
    cases st with
    | fail i hi hf => exact ih j h
    | halt i hi h1 =>
      by_cases e : j = i
      · subst e; simp
      · simp only [Function.update_of_ne e]; exact ih j h
    | txRegister i sp' hi h1 h2 =>
      by_cases e : j = i
      · subst e; simp at h; exact ih j (Or.inr h)
      · simp only [Function.update_of_ne e] at h; exact ih j h
    | txGo i hi h1 h2 =>
      by_cases e : j = i
      · subst e; simp at h; exact ih j (Or.inr h)
      · simp only [Function.update_of_ne e] at h; exact ih j h
    | txSee i t b v hi h1 h2 h3 =>
      by_cases e : j = i
      · subst e; simp at h; exact ih j (Or.inr h)
      · simp only [Function.update_of_ne e] at h; exact ih j h
    | txWrite i t v sp' b hi h1 h2 =>
      by_cases e : j = i
      · subst e; simp at h; exact ih j (Or.inr h)
      · simp only [Function.update_of_ne e] at h; exact ih j h
    | txStop i t hi h1 h2 =>
      by_cases e : j = i
      · subst e; exact h2
      · simp only [Function.update_of_ne e] at h; exact ih j h
    | rxTime i hi h1 h2 =>
      by_cases e : j = i
      · subst e; simp at h; exact ih j (Or.inl h)
      · simp only [Function.update_of_ne e] at h; exact ih j h
    | rxRegister i sp' hi h1 h2 =>
      by_cases e : j = i
      · subst e; simp at h; exact ih j (Or.inl h)
      · simp only [Function.update_of_ne e] at h; exact ih j h
    | rxGo i hi h1 h2 =>
      by_cases e : j = i
      · subst e; simp at h; exact ih j (Or.inl h)
      · simp only [Function.update_of_ne e] at h; exact ih j h
    | rxSee i t hi h1 h2 h3 =>
      by_cases e : j = i
      · subst e; simp at h; exact ih j (Or.inl h)
      · simp only [Function.update_of_ne e] at h; exact ih j h
    | rxRead i t sp' out hi h1 h2 =>
      by_cases e : j = i
      · subst e; simp at h; exact ih j (Or.inl h)
      · simp only [Function.update_of_ne e] at h; exact ih j h
    | rxStop i t hi h1 h2 =>
      by_cases e : j = i
      · subst e; exact h2
      · simp only [Function.update_of_ne e] at h; exact ih j h

/-- Work done by the TX thread of a device -/
def txRank (s : Sys α) (i : Nat) : Nat :=
  match s.tx i with
  | .start => 0
  | .reg => 1
  | .loop _ _ => 2 + 2 * (s.sent i).length
  | .ready _ _ => 3 + 2 * (s.sent i).length
  | .stopped => 0

/-- Work done by the RX thread of a device -/
def rxRank (s : Sys α) (i : Nat) : Nat :=
  match s.rx i with
  | .start => 0
  | .timed => 1
  | .reg => 2
  | .loop _ => 3 + 2 * (s.recv i).length
  | .ready _ => 4 + 2 * (s.recv i).length
  | .stopped => 0

theorem sum_succ {n i : Nat} (hi : i < n) {f g : Nat → Nat} (h1 : ∀ j, j ≠ i → g j = f j) (h2 : g i = f i + 1) :
    ∑ j ∈ Finset.range n, g j = ∑ j ∈ Finset.range n, f j + 1 := by
  rw [← Finset.add_sum_erase _ g (Finset.mem_range.2 hi), ← Finset.add_sum_erase _ f (Finset.mem_range.2 hi), h2,
    Finset.sum_congr rfl (fun j hj => h1 j (Finset.ne_of_mem_erase hj))]
  exact Nat.add_right_comm _ _ _

theorem rank_reach {c : Cfg} {T : Int} {junk : Nat → α} (hn : 0 < c.n) (hT : ∀ i < c.n, c.start i = T) {k : Nat} {s : Sys α}
    (r : Reach c junk k s) : (∀ i < c.n, s.running i = true) → ∑ i ∈ Finset.range c.n, (txRank s i + rxRank s i) = k := by
  induction r with
  | init => intro _; simp [txRank, rxRank, Sys.init]
  | @step k s s' r st ih =>
    intro hr
    have hinv := inv_reach hn hT r
    have key : (∀ i < c.n, s.running i = true) → ∀ i < c.n,
        (∀ j, j ≠ i → txRank s' j + rxRank s' j = txRank s j + rxRank s j) →
        txRank s' i + rxRank s' i = txRank s i + rxRank s i + 1 →
        ∑ i ∈ Finset.range c.n, (txRank s' i + rxRank s' i) = k + 1 := by
      intro h0 i hi h1 h2
      rw [← ih h0]; exact sum_succ hi h1 h2
    cases st with
    | fail i hi hf => exact absurd hf (hinv.not_fails hT hi)
    | halt i hi h1 => have := hr i hi; simp at this
    | txStop i t hi h1 h2 => have := hr i hi; simp only [h2] at this; cases this
    | rxStop i t hi h1 h2 => have := hr i hi; simp only [h2] at this; cases this
    | txRegister i sp' hi h1 h2 =>
      refine key hr i hi (fun j e => by simp [txRank, rxRank, e]) ?_
      simp only [txRank, rxRank, Function.update_self, h1]; omega
    | txGo i hi h1 h2 =>
      obtain ⟨K, p⟩ := hinv.phase h2
      refine key hr i hi (fun j e => by simp [txRank, rxRank, e]) ?_
      simp only [txRank, rxRank, Function.update_self, h1, p.txReg i hi h1, List.length_nil]; omega
    | txSee i t b v hi h1 h2 h3 =>
      refine key hr i hi (fun j e => by simp [txRank, rxRank, e]) ?_
      simp only [txRank, rxRank, Function.update_self, h1]; omega
    | txWrite i t v sp' b hi h1 h2 =>
      refine key hr i hi (fun j e => by simp [txRank, rxRank, e]) ?_
      simp only [txRank, rxRank, Function.update_self, h1, List.length_append, List.length_singleton]; omega
    | rxTime i hi h1 h2 =>
      refine key hr i hi (fun j e => by simp [txRank, rxRank, e]) ?_
      simp only [txRank, rxRank, Function.update_self, h1]
    | rxRegister i sp' hi h1 h2 =>
      refine key hr i hi (fun j e => by simp [txRank, rxRank, e]) ?_
      simp only [txRank, rxRank, Function.update_self, h1]
    | rxGo i hi h1 h2 =>
      obtain ⟨K, p⟩ := hinv.phase h2
      refine key hr i hi (fun j e => by simp [txRank, rxRank, e]) ?_
      simp only [txRank, rxRank, Function.update_self, h1, p.rxReg i hi h1, List.length_nil]
    | rxSee i t hi h1 h2 h3 =>
      refine key hr i hi (fun j e => by simp [txRank, rxRank, e]) ?_
      simp only [txRank, rxRank, Function.update_self, h1]; omega
    | rxRead i t sp' out hi h1 h2 =>
      refine key hr i hi (fun j e => by simp [txRank, rxRank, e]) ?_
      simp only [txRank, rxRank, Function.update_self, h1, List.length_append, List.length_singleton]; omega

/-! ## Theorems -/

/-- No assert of the virtual space fails, in no schedule of the 2n threads, if all devices start at the same time. -/
theorem C61_no_assert_fails {c : Cfg} {T : Int} {junk : Nat → α} (hn : 0 < c.n) (hT : ∀ i < c.n, c.start i = T) {k : Nat} {s : Sys α}
    (r : Reach c junk k s) : s.aborted = false ∧ ∀ i < c.n, ¬ s.fails c i :=
  ⟨(inv_reach hn hT r).nab, fun _ hi => (inv_reach hn hT r).not_fails hT hi⟩

/-- The k-th reading of a device starts at time `T + k * spp` and consists of exactly what each device has written for the same
time, its k-th writing. -/
theorem C61_lockstep {c : Cfg} {T : Int} {junk : Nat → α} (hn : 0 < c.n) (hT : ∀ i < c.n, c.start i = T) {k : Nat} {s : Sys α}
    (r : Reach c junk k s) {i : Nat} (hi : i < c.n) {m : Nat} {t : Int} {l : List α} (h : (s.recv i)[m]? = some (t, l)) :
    t = T + m * c.spp ∧ l.length = c.n ∧ ∀ j < c.n, ∃ v, l[j]? = some v ∧ (s.sent j)[m]? = some (t, v) := by
  have hinv := inv_reach hn hT r
  have ha : s.sp.allRx = true := by
    cases ha : s.sp.allRx
    · rw [(hinv.empty ha i).2] at h; simp at h
    · rfl
  obtain ⟨K, p⟩ := hinv.phase ha
  obtain ⟨h1, h2, h3⟩ := p.recvLog i hi m (t, l) h
  refine ⟨h1, h2, fun j hj => ?_⟩
  have h4 := h3 j hj
  have hj' : j < l.length := by simp only at h2; omega
  rw [List.getElem?_eq_getElem hj'] at h4
  cases hs : (s.sent j)[m]? with
  | none => rw [hs] at h4; simp at h4
  | some q =>
    rw [hs] at h4
    simp only [Option.map_some, Option.some.injEq] at h4
    refine ⟨q.2, by rw [List.getElem?_eq_getElem hj', h4], ?_⟩
    have h5 := p.sentLog j hj m q hs
    simp only at h1
    rw [h1, ← h5]

/-- What a device writes is for consecutive times, and no device is ahead of another one by more than one spp. -/
theorem C61_times {c : Cfg} {T : Int} {junk : Nat → α} (hn : 0 < c.n) (hT : ∀ i < c.n, c.start i = T) {k : Nat} {s : Sys α}
    (r : Reach c junk k s) {i : Nat} (hi : i < c.n) :
    (∀ (m : Nat) p, (s.sent i)[m]? = some p → p.1 = T + m * c.spp) ∧
    (∀ j < c.n, (s.recv i).length ≤ (s.sent j).length ∧ (s.sent j).length ≤ (s.recv i).length + 1) := by
  have hinv := inv_reach hn hT r
  cases ha : s.sp.allRx
  · have h1 := hinv.empty ha
    refine ⟨by intro m p h; rw [(h1 i).1] at h; simp at h, ?_⟩
    intro j hj; rw [(h1 j).1, (h1 i).2]; simp
  · obtain ⟨K, p⟩ := hinv.phase ha
    refine ⟨p.sentLog i hi, ?_⟩
    intro j hj
    have h1 := p.sentLen j hj
    have h2 := p.recvLen i hi
    cases hw : s.sp.written j
    · have : allSet c.n s.sp.written = false := by rw [allSet_false]; exact ⟨j, hj, hw⟩
      simp only [hw, this, Bool.false_eq_true, false_and, if_false] at h1 h2
      omega
    · simp only [hw, if_true] at h1
      split at h2 <;> omega

/-- As long as no device is stopped there is always a thread which can go on. -/
theorem C61_no_deadlock {c : Cfg} {T : Int} {junk : Nat → α} (hn : 0 < c.n) (hT : ∀ i < c.n, c.start i = T) {k : Nat} {s : Sys α}
    (r : Reach c junk k s) (hr : ∀ i < c.n, s.running i = true) : ∃ s', Step c s s' ∧ s'.running = s.running := by
  have h := inv_reach hn hT r
  have hstop := stopped_reach r
  by_cases c1 : ∃ i < c.n, s.tx i = .start
  · obtain ⟨i, hi, h1⟩ := c1
    exact ⟨_, .txRegister s i _ hi h1 (registerTx_ok hi ((h.tx1 i hi).1 h1)), rfl⟩
  have hat : s.sp.allTx = true := by
    rw [h.allTx, allSet_iff]; intro i hi
    by_contra hc
    exact c1 ⟨i, hi, (h.tx1 i hi).2 (by simpa using hc)⟩
  by_cases c2 : ∃ i < c.n, s.rx i = .start
  · obtain ⟨i, hi, h1⟩ := c2
    exact ⟨_, .rxTime s i hi h1 hat, rfl⟩
  by_cases c3 : ∃ i < c.n, s.rx i = .timed
  · obtain ⟨i, hi, h1⟩ := c3
    exact ⟨_, .rxRegister s i _ hi h1 (by rw [hT i hi]; exact (h.registerRx hi h1).1), rfl⟩
  have har : s.sp.allRx = true := by
    rw [h.allRx, allSet_iff]; intro i hi
    exact (h.rx1 i hi).2 ⟨fun hc => c2 ⟨i, hi, hc⟩, fun hc => c3 ⟨i, hi, hc⟩⟩
  obtain ⟨K, p⟩ := h.phase har
  by_cases c4 : ∃ i < c.n, s.tx i = .reg
  · obtain ⟨i, hi, h1⟩ := c4; exact ⟨_, .txGo s i hi h1 har, rfl⟩
  by_cases c5 : ∃ i < c.n, s.rx i = .reg
  · obtain ⟨i, hi, h1⟩ := c5; exact ⟨_, .rxGo s i hi h1 har, rfl⟩
  by_cases c6 : ∃ i < c.n, ∃ t v, s.tx i = .ready t v
  · obtain ⟨i, hi, t, v, h1⟩ := c6
    obtain ⟨h3, h4⟩ := p.txNow hi h1
    exact ⟨_, .txWrite s i t v _ false hi h1 (write_ok h4 h3), rfl⟩
  by_cases c7 : ∃ i < c.n, ∃ t, s.rx i = .ready t
  · obtain ⟨i, hi, t, h1⟩ := c7
    obtain ⟨h3, h4, _⟩ := p.rxNow hi h1
    exact ⟨_, .rxRead s i t _ _ hi h1 (read_ok h4 h3), rfl⟩
  cases hw : allSet c.n s.sp.written
  · rw [allSet_false] at hw
    obtain ⟨i, hi, hw⟩ := hw
    cases ht : s.tx i with
    | start => exact absurd ⟨i, hi, ht⟩ c1
    | reg => exact absurd ⟨i, hi, ht⟩ c4
    | ready t v => exact absurd ⟨i, hi, t, v, ht⟩ c6
    | stopped => have := hstop i (Or.inl ht); rw [hr i hi] at this; cases this
    | loop t b => exact ⟨_, .txSee s i t b (junk 0) hi ht (Or.inl (hr i hi)) hw, rfl⟩
  · have := p.rdR hw
    rw [allSet_false] at this
    obtain ⟨i, hi, hw⟩ := this
    cases ht : s.rx i with
    | start => exact absurd ⟨i, hi, ht⟩ c2
    | timed => exact absurd ⟨i, hi, ht⟩ c3
    | reg => exact absurd ⟨i, hi, ht⟩ c5
    | ready t => exact absurd ⟨i, hi, t, ht⟩ c7
    | stopped => have := hstop i (Or.inr ht); rw [hr i hi] at this; cases this
    | loop t => exact ⟨_, .rxSee s i t hi ht (hr i hi) hw, rfl⟩

/-- As long as no device is stopped every device gets on: whatever the schedule, after `k` steps each one has read at least
`k / (4n) - 9/4` spp. With `C61_no_deadlock`, all of them read without end. Partial: missing is that all threads end after they
were told to stop, which is false (`C61_stop_finding`). -/
theorem C61_everybody_gets_on_partial {c : Cfg} {T : Int} {junk : Nat → α} (hn : 0 < c.n) (hT : ∀ i < c.n, c.start i = T) {k : Nat} {s : Sys α}
    (r : Reach c junk k s) (hr : ∀ i < c.n, s.running i = true) {i : Nat} (hi : i < c.n) :
    k ≤ c.n * (4 * (s.recv i).length + 9) := by
  have h := inv_reach hn hT r
  rw [← rank_reach hn hT r hr]
  have bound : ∀ B : Nat, (∀ j < c.n, txRank s j + rxRank s j ≤ B) →
      ∑ j ∈ Finset.range c.n, (txRank s j + rxRank s j) ≤ c.n * B := by
    intro B hB
    have := Finset.sum_le_card_nsmul (Finset.range c.n) (fun j => txRank s j + rxRank s j) B
      (fun j hj => hB j (Finset.mem_range.1 hj))
    simpa using this
  cases ha : s.sp.allRx
  · refine le_trans (bound 9 ?_) (Nat.mul_le_mul_left _ (by omega))
    intro j hj
    have h1 := h.tx2 ha j hj
    have h2 := h.rx3 ha j hj
    rcases h1 with h1 | h1 <;> rcases h2 with h2 | h2 | h2 <;> simp [txRank, rxRank, h1, h2]
  · obtain ⟨K, p⟩ := h.phase ha
    refine le_trans (bound (4 * K + 9) ?_) (Nat.mul_le_mul_left _ ?_)
    · intro j hj
      have h1 := p.sentLen j hj
      have h2 := p.recvLen j hj
      have h3 : txRank s j ≤ 2 * K + 4 := by
        unfold txRank
        cases ht : s.tx j with
        | start => simp
        | reg => simp only; omega
        | stopped => simp
        | loop t b => simp only; split at h1 <;> omega
        | ready t v =>
          have := (p.txReady j hj t v ht).2
          simp only [this, Bool.false_eq_true, if_false] at h1
          simp only; omega
      have h4 : rxRank s j ≤ 2 * K + 5 := by
        unfold rxRank
        cases ht : s.rx j with
        | start => simp
        | timed => simp only; omega
        | reg => simp only; omega
        | stopped => simp
        | loop t => simp only; split at h2 <;> omega
        | ready t =>
          have := (p.rxNow hj ht).2.2.2
          simp only; omega
      omega
    · have := p.recvLen i hi
      split at this <;> omega

/-- An RX thread has stopped without having read what all have written. -/
def Blocked (c : Cfg) (s : Sys α) (i : Nat) : Prop :=
  s.rx i = .stopped ∧ s.sp.rd i = false ∧ allSet c.n s.sp.written = true

theorem blocked_step {c : Cfg} {T : Int} {s s' : Sys α} (h : Inv c T s) (hT : ∀ i < c.n, c.start i = T) {i : Nat} (hi : i < c.n)
    (hb : Blocked c s i) (st : Step c s s') :
    Blocked c s' i ∧ ∀ j < c.n, ∀ t, s.tx j = .loop t true → s'.tx j = .loop t true := by
  obtain ⟨b1, b2, b3⟩ := hb
  have hall := (allSet_iff _ _).1 b3
  have ha := h.running_rx hi (by rw [b1]; simp)
  obtain ⟨K, p⟩ := h.phase ha
  have hne : ∀ (x : TxPc α) m, (∀ t, s.tx m ≠ .loop t true) → ∀ j < c.n, ∀ t, s.tx j = .loop t true →
      Function.update s.tx m x j = .loop t true := by
    intro x m hm j _ t hj
    by_cases e : j = m
    · subst e; exact absurd hj (hm t)
    · simp only [Function.update_of_ne e]; exact hj
  have hrxne : ∀ (x : RxPc) m, s.rx m ≠ .stopped → Function.update s.rx m x i = .stopped := by
    intro x m hm
    by_cases e : i = m
    · subst e; exact absurd b1 hm
    · simp only [Function.update_of_ne e]; exact b1
  cases st with
  | fail m hm hf => exact absurd hf (h.not_fails hT hm)
  | halt m hm h1 => exact ⟨⟨b1, b2, b3⟩, fun j _ t hj => hj⟩
  | txRegister m sp' hm h1 h2 =>
    have h3 := (h.tx1 m hm).1 h1
    have h4 := h.rx2 i hi (by rw [b1]; simp)
    rw [h.allTx, allSet_iff] at h4
    rw [h4 m hm] at h3; cases h3
  | txGo m hm h1 h2 => exact ⟨⟨b1, b2, b3⟩, hne _ _ (by intro t; rw [h1]; simp)⟩
  | txSee m t b v hm h1 h2 h3 => rw [hall m hm] at h3; cases h3
  | txWrite m t v sp' b hm h1 h2 => have := (p.txReady m hm t v h1).2; rw [hall m hm] at this; cases this
  | txStop m t hm h1 h2 => exact ⟨⟨b1, b2, b3⟩, hne _ _ (by intro t'; rw [h1]; simp)⟩
  | rxTime m hm h1 h2 => exact ⟨⟨hrxne _ _ (by rw [h1]; simp), b2, b3⟩, fun j _ t hj => hj⟩
  | rxRegister m sp' hm h1 h2 =>
    have := (h.registerRx hm h1).2.1
    rw [ha] at this; cases this
  | rxGo m hm h1 h2 => exact ⟨⟨hrxne _ _ (by rw [h1]; simp), b2, b3⟩, fun j _ t hj => hj⟩
  | rxSee m t hm h1 h2 h3 => exact ⟨⟨hrxne _ _ (by rw [h1]; simp), b2, b3⟩, fun j _ t hj => hj⟩
  | rxStop m t hm h1 h2 => exact ⟨⟨hrxne _ _ (by rw [h1]; simp), b2, b3⟩, fun j _ t hj => hj⟩
  | rxRead m t sp' out hm h1 h2 =>
    obtain ⟨h3, h4, _⟩ := p.rxNow hm h1
    have hmi : i ≠ m := by rintro rfl; rw [b1] at h1; cases h1
    have hrd : allSet c.n (Function.update s.sp.rd m true) = false := by
      rw [allSet_false]; exact ⟨i, hi, by simp only [Function.update_of_ne hmi]; exact b2⟩
    rw [read_ok h4 h3] at h2
    simp only [hrd, Bool.false_eq_true, if_false, Res.ok.injEq, Prod.mk.injEq] at h2
    refine ⟨⟨hrxne _ _ (by rw [h1]; simp), ?_, ?_⟩, fun j _ t hj => hj⟩
    · simp only [← h2.1, Function.update_of_ne hmi]; exact b2
    · simp only [← h2.1]; exact b3

/-- Continuations of a state -/
inductive Later (c : Cfg) : Sys α → Sys α → Prop
  | refl (s) : Later c s s
  | step {a b d} : Later c a b → Step c b d → Later c a d

/-- A TX thread in the middle of a packet does not look at `keep_running`. Once the RX thread of any device has stopped without
having read the current spp, such a TX thread never ends, whatever happens, so that `work_stop` of that device (`pthread_join`,
hw_simulator.cpp:311) does not return. -/
theorem C61_stop_finding {c : Cfg} {T : Int} {junk : Nat → α} (hn : 0 < c.n) (hT : ∀ i < c.n, c.start i = T) {k : Nat} {s : Sys α}
    (r : Reach c junk k s) {i : Nat} (hi : i < c.n) (hb : Blocked c s i) {j : Nat} (hj : j < c.n) {t : Int}
    (ht : s.tx j = .loop t true) {s' : Sys α} (l : Later c s s') : s'.tx j = .loop t true ∧ (s'.recv i).length = (s.recv i).length := by
  have key : ∀ {a b : Sys α}, Later c a b → ∀ m, Reach c junk m a → (∃ m', Reach c junk m' b) := by
    intro a b l
    induction l with
    | refl => intro m r; exact ⟨m, r⟩
    | step _ st ih => intro m r; obtain ⟨m', r'⟩ := ih m r; exact ⟨m' + 1, .step r' st⟩
  have main : Blocked c s' i ∧ s'.tx j = .loop t true ∧ (s'.recv i).length = (s.recv i).length := by
    induction l with
    | refl => exact ⟨hb, ht, rfl⟩
    | @step b d l st ih =>
      obtain ⟨h1, h2, h4⟩ := ih
      obtain ⟨m', r'⟩ := key l _ r
      obtain ⟨h5, h6⟩ := blocked_step (inv_reach hn hT r') hT hi h1 st
      refine ⟨h5, h6 j hj t h2, ?_⟩
      rw [← h4]
      cases st with
      | rxRead m t sp' out hm e1 e2 =>
        have hmi : i ≠ m := by rintro rfl; rw [h1.1] at e1; cases e1
        simp only [Function.update_of_ne hmi]
      | _ => rfl
  exact main.2

/-- Once all devices are told to stop and no thread can go on any more, every RX thread has ended, and every TX thread has ended or is
in the middle of a packet with its spp of that time already written. With `C61_stop_finding`, the latter does happen. -/
theorem C61_stop_partial {c : Cfg} {T : Int} {junk : Nat → α} (hn : 0 < c.n) (hT : ∀ i < c.n, c.start i = T) {k : Nat} {s : Sys α}
    (r : Reach c junk k s) (hr : ∀ i < c.n, s.running i = false) (hs : ∀ s', ¬ Step c s s') {i : Nat} (hi : i < c.n) :
    s.rx i = .stopped ∧ (s.tx i = .stopped ∨ ∃ t, s.tx i = .loop t true ∧ s.sp.written i = true) := by
  have h := inv_reach hn hT r
  have c1 : ∀ i < c.n, s.tx i ≠ .start := by
    intro i hi h1
    exact hs _ (.txRegister s i _ hi h1 (registerTx_ok hi ((h.tx1 i hi).1 h1)))
  have hat : s.sp.allTx = true := by
    rw [h.allTx, allSet_iff]; intro i hi
    by_contra hc
    exact c1 i hi ((h.tx1 i hi).2 (by simpa using hc))
  have c2 : ∀ i < c.n, s.rx i ≠ .start := fun i hi h1 => hs _ (.rxTime s i hi h1 hat)
  have c3 : ∀ i < c.n, s.rx i ≠ .timed := fun i hi h1 =>
    hs _ (.rxRegister s i _ hi h1 (by rw [hT i hi]; exact (h.registerRx hi h1).1))
  have har : s.sp.allRx = true := by
    rw [h.allRx, allSet_iff]; intro i hi
    exact (h.rx1 i hi).2 ⟨c2 i hi, c3 i hi⟩
  obtain ⟨K, p⟩ := h.phase har
  constructor
  · cases ht : s.rx i with
    | start => exact absurd ht (c2 i hi)
    | timed => exact absurd ht (c3 i hi)
    | reg => exact absurd (.rxGo s i hi ht har) (hs _)
    | ready t =>
      obtain ⟨h3, h4, _⟩ := p.rxNow hi ht
      exact absurd (.rxRead s i t _ _ hi ht (read_ok h4 h3)) (hs _)
    | stopped => rfl
    | loop t => exact absurd (.rxStop s i t hi ht (hr i hi)) (hs _)
  · cases ht : s.tx i with
    | start => exact absurd ht (c1 i hi)
    | reg => exact absurd (.txGo s i hi ht har) (hs _)
    | ready t v =>
      obtain ⟨h3, h4⟩ := p.txNow hi ht
      exact absurd (.txWrite s i t v _ false hi ht (write_ok h4 h3)) (hs _)
    | stopped => exact Or.inl rfl
    | loop t b =>
      cases b with
      | false => exact absurd (.txStop s i t hi ht (hr i hi)) (hs _)
      | true =>
        refine Or.inr ⟨t, rfl, ?_⟩
        by_contra hw
        exact hs _ (.txSee s i t true (junk 0) hi ht (Or.inr rfl) (by simpa using hw))

/-- What the space refuses: a device or an RX thread registered twice, an spp written or read twice, or at another time than that of
the space. -/
theorem C61_refused (n : Nat) (spp : Int) (i : Nat) (t : Int) (v : α) (s : Space α) :
    (s.txReg i = true ∨ n ≤ i → s.registerTx n i = .abort) ∧
    (s.txReg i = true → s.rxReg i = true ∨ s.allTx = false → s.registerRx n i t = .abort) ∧
    (s.written i = true ∨ t ≠ s.now → s.write n i t v = .abort) ∧
    (s.rd i = true ∨ t ≠ s.now → s.read n spp i t = .abort) := by
  refine ⟨?_, ?_, ?_, ?_⟩
  · intro h
    unfold Space.registerTx
    rcases h with h | h
    · by_cases hi : i < n <;> simp [h, hi]
    · simp [Nat.not_lt.2 h]
  · intro h1 h
    unfold Space.registerRx
    rcases h with h | h
    · simp [h, h1]
    · cases hc : s.rxReg i <;> simp [h, h1]
  · intro h
    unfold Space.write
    rcases h with h | h
    · simp [h]
    · cases hc : s.written i <;> simp [h]
  · intro h
    unfold Space.read
    rcases h with h | h
    · simp [h]
    · cases hc : s.rd i <;> simp [h]

/-- Such a state is reached by one device which is stopped while its TX thread is sending a packet. -/
theorem C61_stop_witness (T spp : Int) : ∃ k, ∃ s : Sys Unit, Reach ⟨1, spp, fun _ => T⟩ (fun _ => ()) k s ∧
    Blocked ⟨1, spp, fun _ => T⟩ s 0 ∧ s.tx 0 = .loop (T + spp) true ∧ s.running 0 = false ∧ s.aborted = false := by
  refine ⟨_, _, .step (.step (.step (.step (.step (.step (.step (.step (.step .init
    (.txRegister _ 0 _ (by simp) rfl rfl)) (.rxTime _ 0 (by simp) rfl rfl))
    (.rxRegister _ 0 _ (by simp) (by simp) (registerRx_ok (by simp [allSet]) rfl (by simp [allSet]) (fun _ => by simp [allSet]) ?_)))
    (.txGo _ 0 (by simp) ?_ ?_)) (.rxGo _ 0 (by simp) ?_ ?_)) (.txSee _ 0 T false () (by simp) ?_ (Or.inl rfl) ?_))
    (.txWrite _ 0 T () _ true (by simp) ?_ (write_ok ?_ ?_))) (.halt _ 0 (by simp) rfl)) (.rxStop _ 0 T (by simp) ?_ ?_), ?_⟩
  all_goals simp [allSet, noneSet, Sys.init, Blocked]

end Verif.Sim
