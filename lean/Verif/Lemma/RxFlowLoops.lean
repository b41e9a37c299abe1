import Verif.Lemma.RxFlow

/-!
# Receiver: loops over the OFDM symbols
-/

set_option linter.unusedSimpArgs false

namespace Verif.Phy.RxFlow
open Verif.Sp3 Verif.Sp3.Cells Verif.Sp3.Cells.Spec Spec

/-- Pilots of DRS symbol number `m` are where they belong in the interlaced vectors. -/
def InterAt (c : Cfg) (m : Nat) (inter : Nat → Nat → Option Pilot) : Prop :=
  ∀ t < c.nTs, ∀ i < 14 * c.b, inter t (2 * i + off m t) = pil c.b c.nTs m t i

theorem collect_ok {c : Cfg} (hc : Hyp c) {m : Nat} : ∀ n s, s.ps = m → s.lr = true → s.idx = 1 + m * nStep c.nTs + s.rel → 1 ≤ s.rel →
    s.rel + n = nStep c.nTs → s.drs = dAt c.nTs (m + 1) → InterAt c m s.inter →
    ∃ zf inter, collectLoop c (n + 1) s = .ok { s with
        idx := 2 + (m + 1) * nStep c.nTs, rel := nStep c.nTs + 1, drs := dAt c.nTs (m + 2), now := nStep c.nTs,
        stage := fun j => if s.rel ≤ j ∧ j ≤ nStep c.nTs then some (1 + m * nStep c.nTs + j) else s.stage j,
        tsFirst := 0, tsLast := c.nTs - 1, drsIdx := s.drsIdx + 14 * c.b * c.nTs, zf := zf, inter := inter } ∧
      InterAt c m inter ∧ InterAt c (m + 1) inter := by
  have hN : 5 ≤ nStep c.nTs := by rcases nStep_cases c.nTs with h | h <;> omega
  have hts := hc.ts
  intro n
  induction n with
  | zero =>
    intro s hps hlr hidx hrel hn hd hi
    have hm : (m + 1) * nStep c.nTs = m * nStep c.nTs + nStep c.nTs := by rw [Nat.add_mul, Nat.one_mul]
    have hr : s.rel = nStep c.nTs := by omega
    rw [collectLoop, take_ok (by rw [psLen_eq hc]; omega), Res.ok_bind]
    unfold drsOnly
    rw [if_pos (by dsimp only; rw [hd]; show s.idx = 1 + (m + 1) * nStep c.nTs; omega)]
    obtain ⟨zf, inter, e, -, h2, h3⟩ := drsZf_ok hc (s := { s with stage := fun j => if j = s.rel then some s.idx else s.stage j, now := s.rel })
      (m := m + 1) hd (by dsimp only; rw [if_pos rfl]; congr 1; omega) (Or.inl hlr)
    rw [e, Res.ok_bind]
    dsimp only at h2 h3
    have hw : ∀ t < c.nTs, writeOffset s.ps s.rel t = off (m + 1) t := by
      intro t ht
      rw [writeOffset_right (by omega) (by omega), hps]
    refine ⟨zf, inter, ?_, ?_, ?_⟩
    · unfold collectLoop
      dsimp only
      rw [hr, hidx]
      congr 2
      · omega
      · funext j
        by_cases hj : j = nStep c.nTs
        · subst hj
          rw [if_pos rfl, if_pos (by omega), hr]
        · rw [if_neg hj, if_neg (by omega)]
    · intro t ht i hi'
      have ho := off_le m t
      have hos := off_succ m t
      have := h3 t i (by rw [hw t ht]; omega)
      rw [hw t ht, show 1 - off (m + 1) t = off m t by omega] at this
      rw [this]
      exact hi t ht i hi'
    · intro t ht i hi'
      have := h2 t ht i hi'
      rw [hw t ht] at this
      exact this
  | succ n ih =>
    intro s hps hlr hidx hrel hn hd hi
    have hm : (m + 1) * nStep c.nTs = m * nStep c.nTs + nStep c.nTs := by rw [Nat.add_mul, Nat.one_mul]
    rw [collectLoop, take_ok (by rw [psLen_eq hc]; omega), Res.ok_bind]
    unfold drsOnly
    rw [if_neg (by dsimp only; rw [hd]; show ¬ s.idx = 1 + (m + 1) * nStep c.nTs; omega), Res.ok_bind]
    obtain ⟨zf, inter, e, h1, h2⟩ := ih { s with
        stage := fun j => if j = s.rel then some s.idx else s.stage j, now := s.rel, idx := s.idx + 1, rel := s.rel + 1 }
      hps hlr (by show s.idx + 1 = 1 + m * nStep c.nTs + (s.rel + 1); omega) (by show 1 ≤ s.rel + 1; omega)
      (by show s.rel + 1 + n = nStep c.nTs; omega) hd hi
    refine ⟨zf, inter, ?_, h1, h2⟩
    rw [e]
    congr 2
    funext j
    dsimp only
    by_cases hj : j = s.rel
    · subst hj
      rw [if_neg (by omega), if_pos rfl, if_pos (by omega), hidx]
    · by_cases hj2 : s.rel + 1 ≤ j ∧ j ≤ nStep c.nTs
      · rw [if_pos hj2, if_pos (by omega)]
      · rw [if_neg hj2, if_neg hj, if_neg (by omega)]

/-- The estimate made at position `r` of stage `m` -/
def Made (c : Cfg) (m start r : Nat) (e : Est) (t : Nat) : Prop :=
  Matches c.b c.nTs t (1 + m * nStep c.nTs) e ∧ e.n = nStep c.nTs ∧ e.row = r ∧ start ≤ r ∧ (r - start) % c.stride = 0

theorem Made.between {c : Cfg} {m start r t l : Nat} {e : Est} (h : Made c m start r e t) (h1 : 1 + m * nStep c.nTs + r ≤ l)
    (h2 : l < 1 + m * nStep c.nTs + r + c.stride) (h3 : l ≤ 1 + m * nStep c.nTs + nStep c.nTs) : Between c l t e := by
  obtain ⟨a1, a2, a3, a4, a5⟩ := h
  refine ⟨_, a1, by rw [a2, step_eq], by omega, by omega, by rw [step_eq]; exact h3, by rw [a3]; exact h1, by rw [a3]; exact h2⟩

theorem strideInterp_ok {c : Cfg} (hc : Hyp c) (hs : 0 < c.stride) {m start : Nat} {s : St} (hps : s.ps = m) (hlr : s.lr = true)
    (hr : s.rel ≤ nStep c.nTs) (hst : start ≤ s.rel) (h1 : s.tsFirst = 0) (h2 : s.tsLast = c.nTs - 1) (hl : InterAt c m s.inter)
    (hi : InterAt c (m + 1) s.inter)
    (he : s.rel = start ∨ ∃ r, r < s.rel ∧ s.rel ≤ r + c.stride ∧ EstAll c (fun t e => Made c m start r e t) s.est) :
    ∃ est r, strideInterp c start s = .ok { s with est := est } ∧ r ≤ s.rel ∧ s.rel < r + c.stride ∧
      EstAll c (fun t e => Made c m start r e t) est := by
  have hts := hc.ts
  unfold strideInterp
  by_cases h : (s.rel - start) % c.stride = 0
  · rw [if_pos h]
    obtain ⟨est, e1, e2⟩ := interp_ok hc (s := s) (by unfold lutStep; rw [hlr]; unfold nStep at hr; simp only [if_true]; omega) h1 h2
    refine ⟨est, s.rel, e1, Nat.le_refl _, by omega, ?_⟩
    intro t ht
    refine ⟨_, e2 t ht, ?_⟩
    rw [estNow_both hlr, hps]
    exact ⟨matches_both hc.b (by omega) ht (hl t ht) (hi t ht) _, rfl, rfl, hst, h⟩
  · rw [if_neg h]
    rcases he with he | ⟨r, g1, g2, g3⟩
    · exfalso
      apply h
      rw [he, Nat.sub_self, Nat.zero_mod]
    · refine ⟨s.est, r, rfl, by omega, ?_, g3⟩
      rcases Nat.lt_or_eq_of_le g2 with g | g
      · exact g
      · exfalso
        apply h
        obtain ⟨e, -, -, -, -, g4, g5⟩ := g3 0 (by omega)
        rw [g, show r + c.stride - start = (r - start) + c.stride by omega, Nat.add_mod_right]
        exact g5

theorem stageLoop_ok {c : Cfg} (hc : Hyp c) (hs : 0 < c.stride) {tab : List (List Nat)} {sp : Nat → List Nat}
    (htab : ∀ l, 1 ≤ l → pdcSymbol tab c.nTs l = .ok (sp l)) (heven : ∀ l, 1 ≤ l → (sp l).length % 2 = 0)
    {P : Nat → Nat → Est → Prop} {m start : Nat}
    (hP : ∀ l t e, l ≤ 1 + m * nStep c.nTs + nStep c.nTs → Between c l t e → P l t e) : ∀ n s, s.ps = m → s.lr = true →
    s.rel + n = nStep c.nTs → start ≤ s.rel → s.tsFirst = 0 → s.tsLast = c.nTs - 1 → InterAt c m s.inter → InterAt c (m + 1) s.inter →
    (s.rel = start ∨ ∃ r, r < s.rel ∧ s.rel ≤ r + c.stride ∧ EstAll c (fun t e => Made c m start r e t) s.est) →
    (∀ j, start ≤ j → j ≤ nStep c.nTs → s.stage j = some (1 + m * nStep c.nTs + j)) →
    Got c sp P (m * nStep c.nTs + s.rel) s.pdc →
    ∃ est pdc, stageLoop c tab (1 + m * nStep c.nTs) start (n + 1) s = .ok { s with
        rel := nStep c.nTs + 1, now := nStep c.nTs, est := est, pdc := pdc } ∧
      EstAll c (Between c (1 + m * nStep c.nTs + nStep c.nTs)) est ∧ Got c sp P (1 + m * nStep c.nTs + nStep c.nTs) pdc := by
  intro n
  induction n with
  | zero =>
    intro s hps hlr hn hst h1 h2 hl hi he hsg hg
    have hr : s.rel = nStep c.nTs := by omega
    unfold stageLoop
    rw [decide_eq_true (by rw [psLen_eq hc]; omega), Res.assert_true, Res.ok_bind]
    obtain ⟨est, r, e1, e2, e3, e4⟩ := strideInterp_ok hc hs (s := { s with now := s.rel }) hps hlr (by show s.rel ≤ nStep c.nTs; omega) hst h1 h2 hl hi he
    rw [e1, Res.ok_bind]
    dsimp only at e2 e3 e4 ⊢
    have hall : EstAll c (Between c (1 + m * nStep c.nTs + nStep c.nTs)) est := by
      intro t ht
      obtain ⟨e, g1, g2⟩ := e4 t ht
      exact ⟨e, g1, g2.between (by omega) (by omega) (Nat.le_refl _)⟩
    have hk : 1 + m * nStep c.nTs + s.rel = m * nStep c.nTs + s.rel + 1 := by omega
    rw [hk]
    obtain ⟨p, f1, f2⟩ := readPdc_ok (tab := tab) (sp := sp) (P := P) (s := { s with now := s.rel, est := est }) (htab _ (by omega)) (heven _ (by omega)) hg
      (fun _ => by show s.stage s.rel = _; rw [hsg _ hst (by omega)]; congr 1)
      (fun _ t ht => by
        obtain ⟨e, g1, g2⟩ := hall t ht
        refine ⟨e, g1, hP _ t e (by omega) ?_⟩
        rw [show m * nStep c.nTs + s.rel + 1 = 1 + m * nStep c.nTs + nStep c.nTs by omega]
        exact g2)
    rw [f1, Res.ok_bind]
    refine ⟨est, p, ?_, hall, ?_⟩
    · unfold stageLoop
      dsimp only
      rw [hr]
    · rw [show m * nStep c.nTs + s.rel + 1 = 1 + m * nStep c.nTs + nStep c.nTs by omega] at f2
      exact f2
  | succ n ih =>
    intro s hps hlr hn hst h1 h2 hl hi he hsg hg
    unfold stageLoop
    rw [decide_eq_true (by rw [psLen_eq hc]; omega), Res.assert_true, Res.ok_bind]
    obtain ⟨est, r, e1, e2, e3, e4⟩ := strideInterp_ok hc hs (s := { s with now := s.rel }) hps hlr (by show s.rel ≤ nStep c.nTs; omega) hst h1 h2 hl hi he
    rw [e1, Res.ok_bind]
    dsimp only at e2 e3 e4 ⊢
    have hk : 1 + m * nStep c.nTs + s.rel = m * nStep c.nTs + s.rel + 1 := by omega
    rw [hk]
    obtain ⟨p, f1, f2⟩ := readPdc_ok (tab := tab) (sp := sp) (P := P) (s := { s with now := s.rel, est := est }) (htab _ (by omega)) (heven _ (by omega)) hg
      (fun _ => by show s.stage s.rel = _; rw [hsg _ hst (by omega)]; congr 1)
      (fun _ t ht => by
        obtain ⟨e, g1, g2⟩ := e4 t ht
        refine ⟨e, g1, hP _ t e (by omega) (g2.between (by omega) (by omega) (by omega))⟩)
    rw [f1, Res.ok_bind]
    exact ih { s with now := s.rel, est := est, pdc := p, rel := s.rel + 1 } hps hlr (by show s.rel + 1 + n = nStep c.nTs; omega)
      (by show start ≤ s.rel + 1; omega) h1 h2 hl hi (Or.inr ⟨r, by show r < s.rel + 1; omega, by show s.rel + 1 ≤ r + c.stride; omega, e4⟩) hsg f2

/-- In front of stage `m`; PCC ends in OFDM symbol `M` -/
structure StageInv (c : Cfg) (sp : Nat → List Nat) (P : Nat → Nat → Est → Prop) (M : Nat) (pcc : List Rd) (m : Nat) (s : St) : Prop where
  ps : s.ps = m
  lr : s.lr = true
  idx : s.idx = if m = 0 then M + 1 else 2 + m * nStep c.nTs
  first : m = 0 → s.rel = M ∧ ∀ j < M, s.stage j = some (1 + j)
  drs : s.drs = dAt c.nTs (m + 1)
  inter : InterAt c m s.inter
  got : Got c sp P (if m = 0 then 0 else 1 + m * nStep c.nTs) s.pdc
  drsIdx : s.drsIdx = 14 * c.b * c.nTs * (m + 1)
  est : 0 < m → EstAll c (Between c (1 + m * nStep c.nTs)) s.est
  last : 0 < m → s.tsLast = c.nTs - 1
  pcc : s.pcc = pcc

theorem stageFull_ok {c : Cfg} (hc : Hyp c) (hs : 0 < c.stride) {tab : List (List Nat)} {sp : Nat → List Nat}
    (htab : ∀ l, 1 ≤ l → pdcSymbol tab c.nTs l = .ok (sp l)) (heven : ∀ l, 1 ≤ l → (sp l).length % 2 = 0)
    {P : Nat → Nat → Est → Prop} {m M : Nat} (hM : 1 ≤ M) (hM5 : M ≤ 5) {pcc : List Rd}
    (hP : ∀ l t e, l ≤ 1 + m * nStep c.nTs + nStep c.nTs → Between c l t e → P l t e) {s : St} (h : StageInv c sp P M pcc m s) :
    ∃ s', stageFull c tab s = .ok s' ∧ StageInv c sp P M pcc (m + 1) s' ∧ s'.rel = 0 := by
  have hN : 5 ≤ nStep c.nTs := by rcases nStep_cases c.nTs with h | h <;> omega
  have hm : (m + 1) * nStep c.nTs = m * nStep c.nTs + nStep c.nTs := by rw [Nat.add_mul, Nat.one_mul]
  obtain ⟨ps, lr, idx, first, drs, inter, got, drsIdx, est, last, hpcc⟩ := h
  obtain ⟨start, hstart⟩ : ∃ start, start = if m = 0 then 0 else 1 := ⟨_, rfl⟩
  obtain ⟨rel0, hrel⟩ : ∃ rel0, rel0 = if m = 0 then M else 1 := ⟨_, rfl⟩
  have hidx : s.idx = 1 + m * nStep c.nTs + rel0 := by
    rw [idx, hrel]
    split
    · rename_i h; rw [h]; omega
    · omega
  have hrel1 : 1 ≤ rel0 ∧ rel0 ≤ nStep c.nTs := by rw [hrel]; split <;> omega
  have e1 : (if 0 < s.ps then { s with rel := 1 } else s) = { s with rel := rel0 } := by
    by_cases h : m = 0
    · rw [if_neg (by omega), hrel, if_pos h, ← (first h).1]
    · rw [if_pos (by omega), hrel, if_neg h]
  unfold stageFull
  rw [e1]
  dsimp only
  have e2 : (if s.ps = 0 then 0 else 1) = start := by rw [ps, hstart]
  rw [e2, show s.ps * nStep c.nTs = m * nStep c.nTs by rw [ps], show psLen c.nTs + m * nStep c.nTs + 1 - s.idx = nStep c.nTs - rel0 + 1 by rw [psLen_eq hc]; omega]
  obtain ⟨zf, int, c1, c2, c3⟩ := collect_ok hc (m := m) (nStep c.nTs - rel0) { s with rel := rel0 } ps lr hidx hrel1.1
    (by show rel0 + (nStep c.nTs - rel0) = nStep c.nTs; omega) drs inter
  rw [c1, Res.ok_bind]
  dsimp only
  have hs01 : start = 0 ∨ start = 1 := by rw [hstart]; split <;> simp
  rw [show nStep c.nTs + 1 - start = nStep c.nTs - start + 1 by omega]
  obtain ⟨est', pdc', d1, d2, d3⟩ := stageLoop_ok hc hs htab heven (P := P) (m := m) (start := start) hP (nStep c.nTs - start) { s with
      idx := 2 + (m + 1) * nStep c.nTs, rel := start, drs := dAt c.nTs (m + 2), now := nStep c.nTs,
      stage := fun j => if rel0 ≤ j ∧ j ≤ nStep c.nTs then some (1 + m * nStep c.nTs + j) else s.stage j,
      tsFirst := 0, tsLast := c.nTs - 1, drsIdx := s.drsIdx + 14 * c.b * c.nTs, zf := zf, inter := int } ps lr
    (by show start + (nStep c.nTs - start) = nStep c.nTs; omega) (Nat.le_refl _) rfl rfl c2 c3 (Or.inl rfl)
    (by
      intro j h1 h2
      dsimp only
      by_cases hj : rel0 ≤ j
      · rw [if_pos ⟨hj, h2⟩]
      · rw [if_neg (by omega)]
        by_cases h0 : m = 0
        · rw [(first h0).2 j (by rw [if_pos h0] at hrel; omega), h0]
          simp
        · rw [if_neg h0] at hrel hstart
          omega)
    (by
      show Got c sp P (m * nStep c.nTs + start) s.pdc
      have : m * nStep c.nTs + start = if m = 0 then 0 else 1 + m * nStep c.nTs := by
        rw [hstart]
        split
        · rename_i h; rw [h]; simp
        · omega
      rw [this]
      exact got)
  rw [d1, Res.ok_bind]
  refine ⟨_, rfl, ⟨by show s.ps + 1 = m + 1; rw [ps], lr, ?_, ?_, rfl, c3, ?_, ?_, ?_, fun _ => rfl, hpcc⟩, rfl⟩
  · rw [if_neg (by omega)]
  · intro h; omega
  · rw [if_neg (by omega), hm, ← Nat.add_assoc]
    exact d3
  · show s.drsIdx + 14 * c.b * c.nTs = _
    rw [drsIdx, Nat.mul_add _ (m + 1) 1, Nat.mul_one]
  · intro _
    rw [hm, ← Nat.add_assoc]
    exact d2

theorem stages_ok {c : Cfg} (hc : Hyp c) (hs : 0 < c.stride) {tab : List (List Nat)} {sp : Nat → List Nat}
    (htab : ∀ l, 1 ≤ l → pdcSymbol tab c.nTs l = .ok (sp l)) (heven : ∀ l, 1 ≤ l → (sp l).length % 2 = 0)
    {P : Nat → Nat → Est → Prop} {M : Nat} (hM : 1 ≤ M) (hM5 : M ≤ 5) {pcc : List Rd} {full : Nat}
    (hP : ∀ l t e, l ≤ 1 + full * nStep c.nTs → Between c l t e → P l t e) : ∀ n m s, m + n = full → StageInv c sp P M pcc m s →
    (m = 0 ∨ s.rel = 0) →
    ∃ s', stagesLoop c tab n s = .ok s' ∧ StageInv c sp P M pcc full s' ∧ (full = 0 ∨ s'.rel = 0) := by
  intro n
  induction n with
  | zero =>
    intro m s hn h hr
    obtain rfl : m = full := by omega
    exact ⟨s, rfl, h, hr⟩
  | succ n ih =>
    intro m s hn h hr
    have hle : 1 + m * nStep c.nTs + nStep c.nTs ≤ 1 + full * nStep c.nTs := by
      have : (m + 1) * nStep c.nTs ≤ full * nStep c.nTs := Nat.mul_le_mul_right _ (by omega)
      rw [Nat.add_mul, Nat.one_mul] at this
      omega
    obtain ⟨s1, e1, i1, r1⟩ := stageFull_ok hc hs htab heven hM hM5 (fun l t e hl hb => hP l t e (by omega) hb) h
    unfold stagesLoop
    rw [e1, Res.ok_bind]
    exact ih (m + 1) s1 (by omega) i1 (Or.inr r1)

/-- OFDM symbols behind the last one with DRS -/
theorem tail_ok {c : Cfg} (hc : Hyp c) {tab : List (List Nat)} {sp : Nat → List Nat}
    (htab : ∀ l, 1 ≤ l → pdcSymbol tab c.nTs l = .ok (sp l)) (heven : ∀ l, 1 ≤ l → (sp l).length % 2 = 0)
    {P : Nat → Nat → Est → Prop} : ∀ n k s, s.idx = k + 1 → k + 1 + n ≤ s.drs.lNext →
    s.rel + n < nStep c.nTs → (∀ l, k < l → EstAll c (P l) s.est) → Got c sp P k s.pdc →
    ∃ s', restLoop c tab n s = .ok s' ∧ Got c sp P (k + n) s'.pdc ∧ s'.drsIdx = s.drsIdx ∧ s'.tsLast = s.tsLast ∧ s'.pcc = s.pcc := by
  intro n
  induction n with
  | zero =>
    intro k s _ _ _ _ hg
    exact ⟨s, rfl, hg, rfl, rfl, rfl⟩
  | succ n ih =>
    intro k s hidx hnext hrel hest hg
    unfold restLoop
    rw [take_ok (by rw [psLen_eq hc]; omega), Res.ok_bind]
    unfold drsFull
    rw [if_neg (by dsimp only; omega), Res.ok_bind]
    dsimp only
    rw [hidx]
    obtain ⟨p, f1, f2⟩ := readPdc_ok (tab := tab) (sp := sp) (P := P) (k := k)
      (s := { s with stage := fun j => if j = s.rel then some s.idx else s.stage j, now := s.rel }) (htab _ (by omega)) (heven _ (by omega)) hg
      (fun _ => by dsimp only; rw [if_pos rfl, hidx]) (fun _ => hest _ (by omega))
    simp only [hidx] at f1
    rw [f1, Res.ok_bind]
    unfold wrap
    dsimp only
    rw [if_neg (by omega)]
    obtain ⟨s', g1, g2, g3, g4, g5⟩ := ih (k + 1) { s with
        idx := k + 1 + 1, rel := s.rel + 1, now := s.rel, stage := fun j => if j = s.rel then some (k + 1) else s.stage j, pdc := p }
      rfl (by dsimp only; omega) (by dsimp only; omega) (fun l hl => hest l (by omega)) f2
    refine ⟨s', ?_, ?_, g3, g4, g5⟩
    · rw [← g1]
    · rw [show k + (n + 1) = k + 1 + n by omega]
      exact g2

/-- State between OFDM symbols when pilots are taken from the left, `k` symbols have been processed -/
structure LeftInv (c : Cfg) (sp : Nat → List Nat) (P : Nat → Nat → Est → Prop) (pcc : List Rd) (k : Nat) (s : St) : Prop where
  idx : s.idx = k + 1
  lr : s.lr = false
  rel : k = s.ps * nStep c.nTs + s.rel
  lt : s.rel < nStep c.nTs
  drs : s.drs = dAt c.nTs (if s.rel = 0 then s.ps else s.ps + 1)
  drsIdx : s.drsIdx = 14 * c.b * c.nTs * (if s.rel = 0 then s.ps else s.ps + 1)
  est : s.rel ≠ 0 → EstAll c (fun t e => Matches c.b c.nTs t (1 + s.ps * nStep c.nTs) e ∧ e.n = 0 ∧ e.row = 0) s.est
  last : s.tsLast = c.nTs - 1
  got : Got c sp P k s.pdc
  pcc : s.pcc = pcc

theorem drsFull_ok {c : Cfg} (hc : Hyp c) {s : St} {m : Nat} (hi : s.idx = 1 + m * nStep c.nTs) (hd : s.drs = dAt c.nTs m)
    (hnow : s.stage s.now = some (1 + m * nStep c.nTs)) (hlr : s.lr = false) (hrel : s.rel = 0) (hps : s.ps = m) :
    ∃ zf inter est, drsFull c s = .ok { s with
        tsFirst := 0, tsLast := c.nTs - 1, drs := dAt c.nTs (m + 1), drsIdx := s.drsIdx + 14 * c.b * c.nTs, zf := zf, inter := inter, est := est } ∧
      InterAt c m inter ∧ EstAll c (fun t e => Matches c.b c.nTs t (1 + m * nStep c.nTs) e ∧ e.n = 0 ∧ e.row = 0) est := by
  have hts := hc.ts
  obtain ⟨zf, inter, e, h1, h2, -⟩ := drsZf_ok hc hd hnow (Or.inr hrel)
  unfold drsFull
  rw [if_pos (by rw [hi, hd]; rfl), e, Res.ok_bind]
  obtain ⟨est, f1, f2⟩ := interp_ok hc (s := { s with
        tsFirst := 0, tsLast := c.nTs - 1, drs := dAt c.nTs (m + 1), drsIdx := s.drsIdx + 14 * c.b * c.nTs, zf := zf, inter := inter })
    (by show s.rel < _; rw [hrel]; omega) rfl rfl
  refine ⟨zf, inter, est, f1, ?_, ?_⟩
  · intro t ht i hi
    have := h2 t ht i hi
    rw [hrel, writeOffset_left (by omega), hps] at this
    exact this
  · intro t ht
    refine ⟨_, f2 t ht, ?_⟩
    rw [estNow_left (by exact hlr)]
    dsimp only
    rw [hps]
    exact ⟨matches_left hc.b (by omega) ht (h1 t ht) _, rfl, hrel⟩

theorem rest_ok {c : Cfg} (hc : Hyp c) {tab : List (List Nat)} {sp : Nat → List Nat}
    (htab : ∀ l, 1 ≤ l → pdcSymbol tab c.nTs l = .ok (sp l)) (heven : ∀ l, 1 ≤ l → (sp l).length % 2 = 0)
    {P : Nat → Nat → Est → Prop} (hP : ∀ l t e, Left c l t e → P l t e) {pcc : List Rd} : ∀ n k s, LeftInv c sp P pcc k s →
    ∃ s', restLoop c tab n s = .ok s' ∧ LeftInv c sp P pcc (k + n) s' := by
  have hN : 5 ≤ nStep c.nTs := by rcases nStep_cases c.nTs with h | h <;> omega
  intro n
  induction n with
  | zero =>
    intro k s h
    exact ⟨s, rfl, h⟩
  | succ n ih =>
    intro k s h
    obtain ⟨idx, lr, rel, lt, drs, drsIdx, est, last, got, hpcc⟩ := h
    -- state after the pilots
    obtain ⟨s2, e2, hs2, hest2⟩ : ∃ s2, (do let s ← take c s; drsFull c s) = .ok s2 ∧
        (s2.idx = k + 1 ∧ s2.lr = false ∧ s2.rel = s.rel ∧ s2.ps = s.ps ∧ s2.drs = dAt c.nTs (s.ps + 1) ∧
          s2.drsIdx = 14 * c.b * c.nTs * (s.ps + 1) ∧ s2.tsLast = c.nTs - 1 ∧ s2.pdc = s.pdc ∧ s2.pcc = s.pcc ∧ s2.stage s2.now = some (k + 1)) ∧
        EstAll c (fun t e => Matches c.b c.nTs t (1 + s.ps * nStep c.nTs) e ∧ e.n = 0 ∧ e.row = 0) s2.est := by
      rw [take_ok (by rw [psLen_eq hc]; omega), Res.ok_bind]
      by_cases h0 : s.rel = 0
      · obtain ⟨zf, inter, est', g1, -, g3⟩ := drsFull_ok hc (s := { s with stage := fun j => if j = s.rel then some s.idx else s.stage j, now := s.rel })
          (m := s.ps) (by show s.idx = _; omega) (by show s.drs = _; rw [drs, if_pos h0]) (by dsimp only; rw [if_pos rfl]; congr 1; omega) lr h0 rfl
        refine ⟨_, g1, ⟨idx, lr, rfl, rfl, rfl, ?_, rfl, rfl, rfl, ?_⟩, g3⟩
        · dsimp only
          rw [drsIdx, if_pos h0, Nat.mul_add _ s.ps 1, Nat.mul_one]
        · dsimp only
          rw [if_pos rfl, idx]
      · unfold drsFull
        have hdr : s.drs = dAt c.nTs (s.ps + 1) := by rw [drs, if_neg h0]
        rw [if_neg]
        · refine ⟨_, rfl, ⟨idx, lr, rfl, rfl, hdr, ?_, last, rfl, rfl, ?_⟩, est h0⟩
          · dsimp only
            rw [drsIdx, if_neg h0]
          · dsimp only
            rw [if_pos rfl, idx]
        · dsimp only
          rw [hdr]
          show ¬ s.idx = 1 + (s.ps + 1) * nStep c.nTs
          rw [Nat.add_mul, Nat.one_mul]
          omega
    obtain ⟨a1, a2, a3, a4, a5, a6, a7, a8, a9, a10⟩ := hs2
    obtain ⟨p, f1, f2⟩ := readPdc_ok (tab := tab) (sp := sp) (P := P) (k := k) (s := s2) (htab _ (by omega)) (heven _ (by omega)) (by rw [a8]; exact got)
      (fun _ => a10) (fun _ t ht => by
        obtain ⟨e, g1, g2, g3, g4⟩ := hest2 t ht
        exact ⟨e, g1, hP _ t e ⟨_, g2, g3, g4, by omega, by omega, by rw [step_eq]; omega⟩⟩)
    have hstep : restLoop c tab (n + 1) s = restLoop c tab n (wrap c { s2 with pdc := p, idx := k + 1 + 1, rel := s.rel + 1 }) := by
      rw [restLoop, ← bind_assoc, e2, Res.ok_bind, a1, f1, Res.ok_bind]
      dsimp only
      rw [a1, a3]
    rw [hstep, show k + (n + 1) = k + 1 + n by omega]
    refine ih (k + 1) _ ?_
    unfold wrap
    dsimp only
    by_cases hw : s.rel + 1 = nStep c.nTs
    · rw [if_pos hw]
      refine ⟨rfl, a2, ?_, by show 0 < _; omega, ?_, ?_, fun h => absurd rfl h, a7, f2, ?_⟩
      · show k + 1 = (s2.ps + 1) * nStep c.nTs + 0
        rw [a4, Nat.add_mul]
        omega
      · show s2.drs = dAt c.nTs (if 0 = 0 then s2.ps + 1 else _)
        rw [if_pos rfl, a4, a5]
      · show s2.drsIdx = _ * (if 0 = 0 then s2.ps + 1 else _)
        rw [if_pos rfl, a4, a6]
      · show s2.pcc = pcc
        rw [a9, hpcc]
    · rw [if_neg hw]
      refine ⟨rfl, a2, ?_, by show s.rel + 1 < _; omega, ?_, ?_, fun _ => ?_, a7, f2, ?_⟩
      · show k + 1 = s2.ps * nStep c.nTs + (s.rel + 1)
        rw [a4]
        omega
      · show s2.drs = dAt c.nTs (if s.rel + 1 = 0 then s2.ps else s2.ps + 1)
        rw [if_neg (by omega), a4, a5]
      · show s2.drsIdx = _ * (if s.rel + 1 = 0 then s2.ps else s2.ps + 1)
        rw [if_neg (by omega), a4, a6]
      · show EstAll c (fun t e => Matches c.b c.nTs t (1 + s2.ps * nStep c.nTs) e ∧ e.n = 0 ∧ e.row = 0) s2.est
        rw [a4]
        exact hest2
      · show s2.pcc = pcc
        rw [a9, hpcc]

end Verif.Phy.RxFlow
