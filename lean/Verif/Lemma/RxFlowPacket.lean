import Verif.Lemma.RxFlowLoops
import Verif.Lemma.CellsSize

/-!
# Receiver: a whole packet
-/

set_option linter.unusedSimpArgs false

namespace Verif.Phy.RxFlow
open Verif.Sp3 Verif.Sp3.Cells Verif.Sp3.Cells.Spec Spec

/-- Last OFDM symbol with PCC -/
def lastPcc (b : Nat) (L : List Nat) : Nat := L.getLastD 0 / (64 * b)

/-- PCC ends in one of the first four OFDM symbols, with eight streams after the second; the symbols in front of the last one
have no PDC. -/
def flowGood (b nTs : Nat) (r : Res (List Nat)) : Bool :=
  match r with
  | .ok L => decide (1 ≤ lastPcc b L ∧ lastPcc b L ≤ 4 ∧ 0 < pccCount b L (lastPcc b L) ∧ (nTs = 8 → 2 ≤ lastPcc b L) ∧
      (nTs ≤ 2 → lastPcc b L = if b = 1 then nTs + 1 else if b = 2 then 2 else 1) ∧
      ∀ l ∈ List.range (lastPcc b L), 1 ≤ l → freeCount b nTs l = pccCount b L l)
  | _ => false

theorem flowGood_all : ∀ b ∈ [1, 2, 4, 8, 16, 12], ∀ nTs ∈ [1, 2, 4, 8],
    flowGood b nTs (Cells.pccLoop (fastFree b (drsPat nTs)) 19 1 98 []) = true := by
  decide +kernel

theorem flow_good {b nTs : Nat} (hb : bOk b = true) (hn : TsOk nTs) {L : List Nat} (hL : pccLinear b nTs = .ok L) :
    1 ≤ lastPcc b L ∧ lastPcc b L ≤ 4 ∧ 0 < pccCount b L (lastPcc b L) ∧ (nTs = 8 → 2 ≤ lastPcc b L) ∧
      (nTs ≤ 2 → lastPcc b L = if b = 1 then nTs + 1 else if b = 2 then 2 else 1) ∧
      ∀ l < lastPcc b L, 1 ≤ l → freeCount b nTs l = pccCount b L l := by
  have hg : flowGood b nTs (pccLinear b nTs) = true := by
    rw [pccLinear_eq hb hn]
    refine flowGood_all b ?_ nTs ?_
    · rcases b_cases hb with rfl | rfl | rfl | rfl | rfl | rfl <;> decide
    · rcases hn with rfl | rfl | rfl | rfl <;> decide
  rw [hL] at hg
  unfold flowGood at hg
  rw [decide_eq_true_eq] at hg
  obtain ⟨h1, h2, h3, h4, h5, h6⟩ := hg
  exact ⟨h1, h2, h3, h4, h5, fun l hl => h6 l (List.mem_range.mpr hl)⟩

theorem groups_last {dim off : Nat} : ∀ L : List Nat, L ≠ [] → ∃ e, (groups dim off L).getLast? = some e ∧ e.1 = L.getLastD 0 / dim := by
  intro L
  induction L with
  | nil => intro h; exact absurd rfl h
  | cons x xs ih =>
    intro _
    simp only [groups]
    by_cases hx : xs = []
    · subst hx
      exact ⟨_, rfl, rfl⟩
    · obtain ⟨e, h1, h2⟩ := ih hx
      have hl : (x :: xs).getLastD 0 = xs.getLastD 0 := by
        rw [List.getLastD_eq_getLast?, List.getLastD_eq_getLast?, List.getLast?_cons]
        obtain ⟨y, hy⟩ : ∃ y, xs.getLast? = some y := ⟨_, List.getLast?_eq_some_getLast hx⟩
        rw [hy]
        rfl
      rw [hl]
      match hG : groups dim off xs with
      | [] => rw [hG] at h1; cases h1
      | (c, ks) :: rest =>
        dsimp only
        rw [hG] at h1
        by_cases hc : x / dim = c
        · rw [if_pos hc]
          cases rest with
          | nil =>
            have : e = (c, ks) := by simpa using h1.symm
            subst this
            exact ⟨_, rfl, h2⟩
          | cons r rs =>
            refine ⟨e, ?_, h2⟩
            rw [List.getLast?_cons_cons] at h1 ⊢
            exact h1
        · rw [if_neg hc]
          exact ⟨e, by rw [List.getLast?_cons_cons]; exact h1, h2⟩

theorem pccMax_groups {b : Nat} {L : List Nat} {o : Nat} (h : L ≠ []) : pccMax (groups (64 * b) o L) = lastPcc b L := by
  obtain ⟨e, h1, h2⟩ := groups_last (dim := 64 * b) (off := o) L h
  unfold pccMax lastPcc
  rw [List.getLastD_eq_getLast?, h1, ← h2]
  rfl

theorem pccTable_ok {b nTs : Nat} (hb : bOk b = true) {L : List Nat} (hL : pccLinear b nTs = .ok L) (h : PccOk b nTs L) :
    pccTable b nTs = .ok (groups (64 * b) (4 * b) L) := by
  obtain ⟨e1, e2, -, e4, hpos⟩ := luts hb
  obtain ⟨-, -, -, -, hsum⟩ := groups_ok (dim := 64 * b) (off := 4 * b) h.sorted
  unfold pccTable
  rw [hL, Res.ok_bind, h.len, decide_eq_true rfl, Res.assert_true, Res.ok_bind, e1, e4]
  dsimp only
  rw [hsum, h.len, decide_eq_true rfl, Res.assert_true, Res.ok_bind]

theorem pccAt_start {b nTs : Nat} {L : List Nat} (hpos : 0 < b) (h : PccOk b nTs L) : PccAt (groups (64 * b) (4 * b) L) 1 0 := by
  refine ⟨fun i e hi => by omega, ?_⟩
  intro i e _ he
  obtain ⟨-, -, -, h4, -⟩ := groups_ok (dim := 64 * b) (off := 4 * b) h.sorted
  obtain ⟨x, hx, hxe⟩ := h4 e (List.mem_of_getElem? he)
  obtain ⟨l, p, h1, -, -, hp, rfl, -⟩ := h.cell x hx
  rw [hxe, symb_eq hpos hp]
  exact h1

/-! ## PCC -/

structure PccInv (c : Cfg) (L : List Nat) (k : Nat) (s : St) : Prop where
  idx : s.idx = k + 1
  rel : s.rel = k
  ps : s.ps = 0
  lr : s.lr = false
  drs : s.drs = dAt c.nTs (if k = 0 then 0 else 1)
  drsIdx : s.drsIdx = if k = 0 then 0 else 14 * c.b * c.nTs
  cnt : PccAt (groups (64 * c.b) (4 * c.b) L) (k + 1) s.cnt
  stage : ∀ j < k, s.stage j = some (1 + j)
  now : k ≠ 0 → s.now + 1 = k
  last : k ≠ 0 → s.tsLast = c.nTs - 1
  inter : k ≠ 0 → InterAt c 0 s.inter
  est : k ≠ 0 → EstAll c (fun t e => Matches c.b c.nTs t 1 e ∧ e.n = 0 ∧ e.row = 0) s.est
  got : Got c (pccSpec (64 * c.b) (4 * c.b) L) (Left c) k s.pcc
  pdc : s.pdc = []

theorem pccStep_ok {c : Cfg} (hc : Hyp c) {L : List Nat} (hsort : L.Pairwise (· < ·))
    (heven : ∀ l, 1 ≤ l → (pccSpec (64 * c.b) (4 * c.b) L l).length % 2 = 0) {k : Nat} (hk : k < 4) {s : St} (h : PccInv c L k s) :
    ∃ s', pccStep c (groups (64 * c.b) (4 * c.b) L) s = .ok s' ∧ PccInv c L (k + 1) s' := by
  have hN : 5 ≤ nStep c.nTs := by rcases nStep_cases c.nTs with h | h <;> omega
  obtain ⟨idx, rel, ps, lr, drs, drsIdx, cnt, stage, now, last, inter, est, got, pdc⟩ := h
  obtain ⟨s2, e2, hs2, hinter2, hest2⟩ : ∃ s2, (do let s ← take c s; drsFull c s) = .ok s2 ∧
      (s2.idx = k + 1 ∧ s2.rel = k ∧ s2.ps = 0 ∧ s2.lr = false ∧ s2.drs = dAt c.nTs 1 ∧ s2.drsIdx = 14 * c.b * c.nTs ∧ s2.cnt = s.cnt ∧
        (∀ j < k + 1, s2.stage j = some (1 + j)) ∧ s2.now = k ∧ s2.tsLast = c.nTs - 1 ∧ s2.pcc = s.pcc ∧ s2.pdc = s.pdc) ∧
      InterAt c 0 s2.inter ∧ EstAll c (fun t e => Matches c.b c.nTs t 1 e ∧ e.n = 0 ∧ e.row = 0) s2.est := by
    rw [take_ok (by rw [psLen_eq hc]; omega), Res.ok_bind]
    have hst : ∀ j < k + 1, (if j = s.rel then some s.idx else s.stage j) = some (1 + j) := by
      intro j hj
      by_cases h : j = s.rel
      · rw [if_pos h]; congr 1; omega
      · rw [if_neg h]; exact stage j (by omega)
    by_cases h0 : k = 0
    · obtain ⟨zf, inter', est', g1, g2, g3⟩ := drsFull_ok hc (s := { s with stage := fun j => if j = s.rel then some s.idx else s.stage j, now := s.rel })
        (m := 0) (by show s.idx = _; omega) (by show s.drs = _; rw [drs, if_pos h0]) (by dsimp only; rw [if_pos rfl]; congr 1; omega) lr (by show s.rel = 0; omega) ps
      refine ⟨_, g1, ⟨idx, rel, ps, lr, rfl, ?_, rfl, hst, rel, rfl, rfl, rfl⟩, g2, ?_⟩
      · dsimp only
        rw [drsIdx, if_pos h0, Nat.zero_add]
      · rw [Nat.zero_mul, Nat.add_zero] at g3
        exact g3
    · unfold drsFull
      rw [if_neg (by dsimp only; rw [drs, if_neg h0]; show ¬ s.idx = 1 + 1 * nStep c.nTs; omega)]
      refine ⟨_, rfl, ⟨idx, rel, ps, lr, ?_, ?_, rfl, hst, rel, last h0, rfl, rfl⟩, inter h0, est h0⟩
      · dsimp only; rw [drs, if_neg h0]
      · dsimp only; rw [drsIdx, if_neg h0]
  obtain ⟨a1, a2, a3, a4, a5, a6, a7, a8, a9, a10, a11, a12⟩ := hs2
  obtain ⟨p, n, f1, f2, f3⟩ := readPcc_ok (c := c) (P := Left c) (k := k) (s := s2) hsort a1 (by rw [a7]; exact cnt) (heven _ (by omega)) (by rw [a11]; exact got)
    (by rw [a9, a8 k (by omega)]; congr 1; omega) (fun t ht => by
      obtain ⟨e, g1, g2, g3, g4⟩ := hest2 t ht
      exact ⟨e, g1, 1, g2, g3, g4, Nat.le_refl _, by omega, by rw [step_eq]; omega⟩)
  refine ⟨{ s2 with cnt := n, pcc := p, idx := k + 1 + 1, rel := k + 1 }, ?_, ⟨rfl, rfl, a3, a4, ?_, ?_, f3, a8, fun _ => ?_, fun _ => a10,
    fun _ => hinter2, fun _ => hest2, f2, ?_⟩⟩
  · rw [pccStep, ← bind_assoc, e2, Res.ok_bind, f1, Res.ok_bind]
    dsimp only
    rw [a1, a2]
  · rw [if_neg (by omega)]; exact a5
  · rw [if_neg (by omega)]; exact a6
  · show s2.now + 1 = k + 1
    rw [a9]
  · show s2.pdc = []
    rw [a12, pdc]

theorem pccLoop_ok {c : Cfg} (hc : Hyp c) {L : List Nat} (hsort : L.Pairwise (· < ·))
    (heven : ∀ l, 1 ≤ l → (pccSpec (64 * c.b) (4 * c.b) L l).length % 2 = 0) : ∀ n k s, k + n ≤ 4 → PccInv c L k s →
    ∃ s', pccLoop c (groups (64 * c.b) (4 * c.b) L) n s = .ok s' ∧ PccInv c L (k + n) s' := by
  intro n
  induction n with
  | zero => intro k s _ h; exact ⟨s, rfl, h⟩
  | succ n ih =>
    intro k s hk h
    obtain ⟨s1, e1, i1⟩ := pccStep_ok hc hsort heven (by omega) h
    unfold pccLoop
    rw [e1, Res.ok_bind, show k + (n + 1) = k + 1 + n by omega]
    exact ih (k + 1) s1 (by omega) i1

/-- Number of cells read -/
theorem cells_got {c : Cfg} {sp : Nat → List Nat} {P : Nat → Nat → Est → Prop} {k : Nat} {rs : List Rd} (h : Got c sp P k rs) :
    cellsRead rs = ((List.range' 1 k).map fun l => (sp l).length).sum := by
  have e : cellsRead rs = ((rs.map fun r => (r.l, r.ks)).map fun x => x.2.length).sum := by
    unfold cellsRead
    rw [List.map_map]
    rfl
  rw [e, h.1]
  generalize List.range' 1 k = l
  induction l with
  | nil => rfl
  | cons a t ih =>
    rw [List.map_cons, List.filter_cons]
    by_cases ha : sp a = []
    · rw [if_neg (by simp [ha]), ih, List.map_cons, List.sum_cons, ha]
      simp
    · rw [if_pos (by simp [ha]), List.map_cons, List.sum_cons, ih, List.map_cons, List.sum_cons]

theorem pcc_got {b nTs : Nat} {L : List Nat} (hb : 0 < b) (h : PccOk b nTs L) {n : Nat} (hn : lastPcc b L ≤ n) :
    ((List.range' 1 n).map fun l => (pccSpec (64 * b) (4 * b) L l).length).sum = 98 := by
  have h0 : ∀ x ∈ L, 1 ≤ x / (64 * b) := by
    intro x hx
    obtain ⟨l, p, h1, -, -, hp, rfl, -⟩ := h.cell x hx
    rw [symb_eq hb hp]; exact h1
  rw [← pcc_le_last hb h hn, ← pcc_sum b L _ h0]
  congr 1
  exact List.map_congr_left fun l _ => pccSpec_length _ _ _

theorem runPcc_ok {c : Cfg} (hc : Hyp c) {L : List Nat} (hL : pccLinear c.b c.nTs = .ok L) (h : PccOk c.b c.nTs L)
    (heven : ∀ l, 1 ≤ l → (pccSpec (64 * c.b) (4 * c.b) L l).length % 2 = 0) (est : Nat → Option Est) :
    ∃ s, runPcc c est = .ok s ∧ PccInv c L (lastPcc c.b L) s := by
  obtain ⟨-, -, -, -, hpos⟩ := luts hc.b
  have hts : TsOk c.nTs := by rcases hc.ts with h | h | h <;> simp [TsOk, h]
  obtain ⟨m1, m2, -⟩ := flow_good hc.b hts hL
  have hne : L ≠ [] := by
    intro hx
    have := h.len
    rw [hx] at this
    cases this
  obtain ⟨s, e, i⟩ := pccLoop_ok hc h.sorted heven (lastPcc c.b L) 0 (start est) (by omega)
    { idx := rfl, rel := rfl, ps := rfl, lr := rfl, drs := by rw [if_pos rfl, dAt_zero]; rfl, drsIdx := by rw [if_pos rfl]; rfl,
      cnt := pccAt_start hpos h, stage := fun j hj => by omega, now := fun h => absurd rfl h, last := fun h => absurd rfl h,
      inter := fun h => absurd rfl h, est := fun h => absurd rfl h, got := ⟨rfl, fun r hr => by cases hr⟩, pdc := rfl }
  rw [Nat.zero_add] at i
  refine ⟨s, ?_, i⟩
  unfold runPcc
  rw [pccTable_ok hc.b hL h, Res.ok_bind, pccMax_groups hne, e, Res.ok_bind, decide_eq_true, Res.assert_true, Res.ok_bind]
  rw [cells_got i.got, pcc_got hpos h (Nat.le_refl _)]

/-! ## PDC -/

theorem again_ok {c : Cfg} {tab : List (List Nat)} {sp : Nat → List Nat}
    (htab : ∀ l, 1 ≤ l → pdcSymbol tab c.nTs l = .ok (sp l)) (heven : ∀ l, 1 ≤ l → (sp l).length % 2 = 0)
    {P : Nat → Nat → Est → Prop} {M : Nat} (hno : ∀ l, 1 ≤ l → l < M → sp l = []) : ∀ n k s, k + n = M → Got c sp P k s.pdc →
    s.stage s.now = some M → EstAll c (P M) s.est →
    ∃ p, againLoop c tab n (k + 1) s = .ok { s with rel := s.rel + n, pdc := p } ∧ Got c sp P M p := by
  intro n
  induction n with
  | zero =>
    intro k s hk hg _ _
    obtain rfl : k = M := by omega
    exact ⟨s.pdc, rfl, hg⟩
  | succ n ih =>
    intro k s hk hg hsrc hest
    have hM : sp (k + 1) ≠ [] → k + 1 = M := by
      intro h
      by_contra hne
      exact h (hno _ (by omega) (by omega))
    obtain ⟨p, f1, f2⟩ := readPdc_ok (tab := tab) (sp := sp) (P := P) (k := k) (s := s) (htab _ (by omega)) (heven _ (by omega)) hg
      (fun h => by rw [hM h]; exact hsrc) (fun h => by rw [hM h]; exact hest)
    unfold againLoop
    rw [f1, Res.ok_bind]
    obtain ⟨p', g1, g2⟩ := ih (k + 1) { s with pdc := p, rel := s.rel + 1 } (by omega) f2 hsrc hest
    refine ⟨p', ?_, g2⟩
    rw [g1]
    dsimp only
    rw [show s.rel + (n + 1) = s.rel + 1 + n by omega]

/-- All OFDM symbols with pilots from the left -/
theorem left_ok {c : Cfg} (hc : Hyp c) {tab : List (List Nat)} {sp : Nat → List Nat}
    (htab : ∀ l, 1 ≤ l → pdcSymbol tab c.nTs l = .ok (sp l)) (heven : ∀ l, 1 ≤ l → (sp l).length % 2 = 0)
    {P : Nat → Nat → Est → Prop} (hP : ∀ l t e, Left c l t e → P l t e) {L : List Nat} {M : Nat} (hM : 1 ≤ M) (hM4 : M ≤ 4)
    (hno : ∀ l, 1 ≤ l → l < M → sp l = []) {s : St} (h : PccInv c L M s) {df : Nat} (hdf : M ≤ df) :
    ∃ s', lrF c tab df s = .ok s' ∧ Got c sp P df s'.pdc ∧ s'.drsIdx = 14 * c.b * c.nTs * ((df - 1) / nStep c.nTs + 1) ∧
      s'.tsLast = c.nTs - 1 ∧ s'.pcc = s.pcc := by
  have hN : 5 ≤ nStep c.nTs := by rcases nStep_cases c.nTs with h | h <;> omega
  obtain ⟨idx, rel, ps, lr, drs, drsIdx, -, stage, now, last, -, est, got, pdc⟩ := h
  have hM0 : M ≠ 0 := by omega
  obtain ⟨p, a1, a2⟩ := again_ok htab heven (P := P) hno M 0 { s with lr := false, rel := 0 } (by omega)
    (by show Got c sp P 0 s.pdc; rw [pdc]; exact ⟨rfl, fun r hr => by cases hr⟩)
    (by show s.stage s.now = some M; rw [stage s.now (by have := now hM0; omega)]; congr 1; have := now hM0; omega)
    (fun t ht => by
      obtain ⟨e, g1, g2, g3, g4⟩ := est hM0 t ht
      exact ⟨e, g1, hP _ _ _ ⟨1, g2, g3, g4, Nat.le_refl _, hM, by rw [step_eq]; omega⟩⟩)
  have e : again c tab { s with lr := false } = .ok { s with lr := false, rel := M, pdc := p } := by
    unfold again
    rw [if_pos (by exact ps)]
    dsimp only
    rw [show s.idx - 1 = M by omega, show (1 : Nat) = 0 + 1 from rfl, a1]
    dsimp only
    rw [Nat.zero_add]
  unfold lrF
  rw [e, Res.ok_bind]
  dsimp only
  obtain ⟨s', r1, r2⟩ := rest_ok hc htab heven hP (pcc := s.pcc) (df + 1 - s.idx) M { s with lr := false, rel := M, pdc := p }
    { idx := idx, lr := rfl, rel := by show M = s.ps * nStep c.nTs + M; rw [ps]; omega, lt := by show M < _; omega,
      drs := by show s.drs = dAt c.nTs (if M = 0 then s.ps else s.ps + 1); rw [drs, if_neg hM0, if_neg hM0, ps],
      drsIdx := by show s.drsIdx = _ * (if M = 0 then s.ps else s.ps + 1); rw [drsIdx, if_neg hM0, if_neg hM0, ps]; ring,
      est := fun _ => by show EstAll c (fun t e => Matches c.b c.nTs t (1 + s.ps * nStep c.nTs) e ∧ e.n = 0 ∧ e.row = 0) s.est; rw [ps, Nat.zero_mul, Nat.add_zero]; exact est hM0,
      last := last hM0, got := a2, pcc := rfl }
  rw [show M + (df + 1 - s.idx) = df by omega] at r2
  refine ⟨s', r1, r2.got, ?_, r2.last, r2.pcc⟩
  rw [r2.drsIdx]
  congr 1
  have h1 := r2.rel
  have h2 := r2.lt
  by_cases h0 : s'.rel = 0
  · rw [if_pos h0]
    have hp : 0 < s'.ps := by
      by_contra hx
      rw [show s'.ps = 0 by omega] at h1
      omega
    have : df - 1 = (s'.ps - 1) * nStep c.nTs + (nStep c.nTs - 1) := by
      obtain ⟨m, hm⟩ : ∃ m, s'.ps = m + 1 := ⟨s'.ps - 1, by omega⟩
      rw [hm] at h1 ⊢
      rw [Nat.add_mul] at h1
      rw [Nat.add_sub_cancel]
      omega
    rw [this, Nat.add_comm (_ * _), Nat.add_mul_div_right _ _ (by omega), Nat.div_eq_of_lt (by omega)]
    omega
  · rw [if_neg h0]
    have : df - 1 = (s'.rel - 1) + s'.ps * nStep c.nTs := by omega
    rw [this, Nat.add_mul_div_right _ _ (by omega), Nat.div_eq_of_lt (by omega)]
    omega

/-- All OFDM symbols with pilots from left and right -/
theorem both_ok {c : Cfg} (hc : Hyp c) (hs : 0 < c.stride) {tab : List (List Nat)} {sp : Nat → List Nat}
    (htab : ∀ l, 1 ≤ l → pdcSymbol tab c.nTs l = .ok (sp l)) (heven : ∀ l, 1 ≤ l → (sp l).length % 2 = 0)
    {L : List Nat} {M : Nat} (hM : 1 ≤ M) (hM4 : M ≤ 4) {s : St} (h : PccInv c L M s) {df full : Nat} (hf : full = (df - 1) / nStep c.nTs)
    (hf0 : 0 < full) (h32 : df < 2 ^ 32) {P : Nat → Nat → Est → Prop} (hP : ∀ l t e, Between c (min l (1 + full * nStep c.nTs)) t e → P l t e) :
    ∃ s', (lrT c tab df s >>= lrF c tab df) = .ok s' ∧ Got c sp P df s'.pdc ∧
      s'.drsIdx = 14 * c.b * c.nTs * (full + 1) ∧ s'.tsLast = c.nTs - 1 ∧ s'.pcc = s.pcc := by
  have hN : 5 ≤ nStep c.nTs := by rcases nStep_cases c.nTs with h | h <;> omega
  obtain ⟨idx, rel, ps, lr, drs, drsIdx, -, stage, now, last, inter, est, got, pdc⟩ := h
  have hM0 : M ≠ 0 := by omega
  have hdm := Nat.div_add_mod (df - 1) (nStep c.nTs)
  have hlt := Nat.mod_lt (df - 1) (show 0 < nStep c.nTs by omega)
  rw [← hf, Nat.mul_comm] at hdm
  have hdf1 : 1 ≤ df := by
    by_contra hx
    have : df = 0 := by omega
    rw [this] at hf
    simp at hf
    omega
  have e1 : lrT c tab df s = stagesLoop c tab full { s with lr := true } := by
    unfold lrT
    rw [psLen_eq hc, show nStep c.nTs + 1 - nStep c.nTs = 1 by omega]
    have : sub32 df 1 = df - 1 := by unfold sub32; omega
    rw [this, ← hf]
    dsimp only
    rw [if_neg (by omega), ps, Nat.sub_zero]
  obtain ⟨s1, r1, r2, r3⟩ := stages_ok hc hs htab heven (P := P) (full := full) hM (by omega) (pcc := s.pcc)
    (fun l t e hl hb => hP l t e (by rw [Nat.min_eq_left hl]; exact hb)) full 0 { s with lr := true } (by omega)
    { ps := ps, lr := rfl, idx := by rw [if_pos rfl]; exact idx, first := fun _ => ⟨rel, stage⟩,
      drs := by show s.drs = _; rw [drs, if_neg hM0], inter := inter hM0,
      got := by rw [if_pos rfl]; show Got c sp P 0 s.pdc; rw [pdc]; exact ⟨rfl, fun r hr => by cases hr⟩,
      drsIdx := by show s.drsIdx = _; rw [drsIdx, if_neg hM0]; omega, est := fun h => by omega, last := fun h => by omega, pcc := rfl } (Or.inl rfl)
  have hr0 : s1.rel = 0 := by omega
  have hidx := r2.idx
  have hgot := r2.got
  rw [if_neg (by omega)] at hidx hgot
  rw [e1, r1, Res.ok_bind]
  unfold lrF again
  rw [if_neg (by show ¬ s1.ps = 0; rw [r2.ps]; omega), Res.ok_bind]
  dsimp only
  have hnext : s1.drs.lNext = 1 + (full + 1) * nStep c.nTs := by rw [r2.drs]; rfl
  rw [Nat.add_mul, Nat.one_mul] at hnext
  obtain ⟨s', t1, t2, t3, t4, t5⟩ := tail_ok hc htab heven (P := P) (df + 1 - s1.idx)
    (1 + full * nStep c.nTs) { s1 with lr := false } (by show s1.idx = _; omega) (by dsimp only; omega)
    (by show s1.rel + _ < _; omega)
    (fun l hl t ht => by
      obtain ⟨e, g1, g2⟩ := r2.est hf0 t ht
      refine ⟨e, g1, hP l t e ?_⟩
      rw [Nat.min_eq_right (by omega)]
      exact g2) hgot
  rw [show 1 + full * nStep c.nTs + (df + 1 - s1.idx) = df by omega] at t2
  exact ⟨s', t1, t2, by rw [t3, ← r2.drsIdx], by rw [t4]; exact r2.last hf0, by rw [t5, ← r2.pcc]⟩

/-- Both phases -/
theorem receive_ok {c : Cfg} (hc : Hyp c) (hs : 0 < c.stride) {L : List Nat} (hL : pccLinear c.b c.nTs = .ok L) (h : PccOk c.b c.nTs L)
    {tab : List (List Nat)} (htab0 : pdcTable c.b c.nTs = .ok tab) (htab : ∀ l, 1 ≤ l → pdcSymbol tab c.nTs l = .ok (pdcSpec c.b c.nTs L l))
    (heven : ∀ l, 1 ≤ l → (pccSpec (64 * c.b) (4 * c.b) L l).length % 2 = 0) (heven' : ∀ l, 1 ≤ l → (pdcSpec c.b c.nTs L l).length % 2 = 0)
    {df nDrs nPdc : Nat} (hdf : lastPcc c.b L < df) (h32 : df < 2 ^ 32) (hd : nDrs = 14 * c.b * c.nTs * ((df - 1) / nStep c.nTs + 1))
    (hp : ((List.range' 1 df).map fun l => (pdcSpec c.b c.nTs L l).length).sum = nPdc) (est : Nat → Option Est) :
    ∃ s, receive c df nDrs nPdc est = .ok s ∧ Got c (pccSpec (64 * c.b) (4 * c.b) L) (Left c) (lastPcc c.b L) s.pcc ∧
      Got c (pdcSpec c.b c.nTs L) (EstOk c df) df s.pdc := by
  obtain ⟨-, -, -, -, hpos⟩ := luts hc.b
  have hN : 5 ≤ nStep c.nTs := by rcases nStep_cases c.nTs with h | h <;> omega
  have hts : TsOk c.nTs := by rcases hc.ts with h | h | h <;> simp [TsOk, h]
  obtain ⟨m1, m2, -, -, -, m5⟩ := flow_good hc.b hts hL
  obtain ⟨s0, e0, i0⟩ := runPcc_ok hc hL h heven est
  have hno : ∀ l, 1 ≤ l → l < lastPcc c.b L → pdcSpec c.b c.nTs L l = [] := by
    intro l h1 h2
    have h3 := m5 l h2 h1
    have h4 := pdc_count hpos h l
    exact List.length_eq_zero_iff.mp (by omega)
  have hlast : lastDrs (step c.nTs) df = 1 + (df - 1) / nStep c.nTs * nStep c.nTs := rfl
  obtain ⟨s, e1, g1, g2, g3, g4⟩ : ∃ s, (lrMaybe c tab df s0 >>= lrF c tab df) = .ok s ∧
      Got c (pdcSpec c.b c.nTs L) (EstOk c df) df s.pdc ∧ s.drsIdx = nDrs ∧ s.tsLast = c.nTs - 1 ∧ s.pcc = s0.pcc := by
    by_cases hlr : c.lrDefault = true ∧ 1 < lastDrs (step c.nTs) df
    · have hf0 : 0 < (df - 1) / nStep c.nTs := by
        refine Nat.pos_of_ne_zero fun hx => ?_
        rw [hlast, hx] at hlr
        omega
      obtain ⟨s, r1, r2, r3, r4, r5⟩ := both_ok hc hs htab heven' m1 m2 i0 (full := (df - 1) / nStep c.nTs) rfl hf0 h32 (P := EstOk c df)
        (fun l t e hb => by unfold EstOk; rw [if_pos hlr, hlast]; exact hb)
      unfold lrMaybe
      rw [if_pos hlr.1]
      exact ⟨s, r1, r2, by rw [r3, hd], r4, r5⟩
    · have hP : ∀ l t e, Left c l t e → EstOk c df l t e := by
        intro l t e hb
        unfold EstOk
        rw [if_neg hlr]
        exact hb
      obtain ⟨s, r1, r2, r3, r4, r5⟩ := left_ok hc htab heven' hP m1 m2 hno i0 (df := df) (by omega)
      refine ⟨s, ?_, r2, by rw [r3, hd], r4, r5⟩
      have : lrMaybe c tab df s0 = .ok s0 := by
        unfold lrMaybe
        by_cases hx : c.lrDefault = true
        · rw [if_pos hx]
          have hf : (df - 1) / nStep c.nTs = 0 := by
            by_contra hy
            apply hlr
            refine ⟨hx, ?_⟩
            rw [hlast]
            have : 1 * 1 ≤ (df - 1) / nStep c.nTs * nStep c.nTs := Nat.mul_le_mul (Nat.pos_of_ne_zero hy) (by omega)
            omega
          unfold lrT
          rw [psLen_eq hc, show nStep c.nTs + 1 - nStep c.nTs = 1 by omega, show sub32 df 1 = df - 1 by unfold sub32; omega, hf]
          rfl
        · rw [if_neg hx]
      rw [this, Res.ok_bind]
      exact r1
  refine ⟨s, ?_, by rw [g4]; exact i0.got, g1⟩
  unfold receive runPdc
  rw [e0, Res.ok_bind, htab0, Res.ok_bind, decide_eq_true (by rw [i0.idx]; omega), Res.assert_true, Res.ok_bind]
  have e2 : ∀ (x : Res St) (f : St → Res St), (x >>= fun s => lrF c tab df s >>= f) = (x >>= lrF c tab df) >>= f := by
    intro x f
    rw [bind_assoc]
  rw [e2, e1, Res.ok_bind, g4, cells_got i0.got, pcc_got hpos h (Nat.le_refl _), cells_got g1, hp, g2, g3]
  simp

end Verif.Phy.RxFlow
