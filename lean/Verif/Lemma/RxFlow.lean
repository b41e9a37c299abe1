import Verif.Spec.RxFlow
import Verif.Lemma.CellsSize

/-!
# Receiver: tables of pilots, steps
-/

set_option linter.unusedSimpArgs false

namespace Verif.Phy.RxFlow
open Verif.Sp3 Verif.Sp3.Cells Verif.Sp3.Cells.Spec Spec

/-! ## Tables of pilots -/

theorem drsSubc_eq {b : Nat} (hb : bOk b = true) (t n : Nat) :
    drsSubc b t n = (List.range (14 * b)).map fun i => subc b (4 * i + (t + n % 2 * 2) % 4) := by
  obtain ⟨-, e2, -, -, hpos⟩ := luts hb
  unfold drsSubc
  rw [e2, show 56 * b / 4 = 14 * b by omega]
  refine List.map_congr_left fun i hi => ?_
  rw [List.mem_range] at hi
  rw [kOcc_get (by omega)]
  unfold subc
  split <;> split <;> omega

theorem zip_range {α : Type} (f g : Nat → α) (n : Nat) :
    (((List.range n).map f).zip ((List.range n).map g)).flatMap (fun p => [p.1, p.2]) =
      (List.range (2 * n)).map fun j => if j % 2 = 0 then f (j / 2) else g (j / 2) := by
  induction n with
  | zero => rfl
  | succ n ih =>
    rw [List.range_succ, List.map_append, List.map_append, List.zip_append (by simp), List.flatMap_append, ih,
      show 2 * (n + 1) = 2 * n + 1 + 1 by omega, List.range_succ, List.range_succ]
    simp
    rw [show (2 * n + 1) / 2 = n by omega]

theorem zip_range' {α : Type} (f g : Nat → α) (n : Nat) :
    (((List.range n).map f).zip ((List.range n).map g)).flatMap (fun p => [p.2, p.1]) =
      (List.range (2 * n)).map fun j => if j % 2 = 0 then g (j / 2) else f (j / 2) := by
  induction n with
  | zero => rfl
  | succ n ih =>
    rw [List.range_succ, List.map_append, List.map_append, List.zip_append (by simp), List.flatMap_append, ih,
      show 2 * (n + 1) = 2 * n + 1 + 1 by omega, List.range_succ, List.range_succ]
    simp
    rw [show (2 * n + 1) / 2 = n by omega]

theorem lut_left {b ts : Nat} (hb : bOk b = true) (ht : ts < 4) :
    lutPilots b 0 ts = .ok ((List.range (14 * b)).map fun i => (1, subc b (4 * i + ts))) := by
  unfold lutPilots
  simp only [Nat.lt_irrefl, if_false]
  have e : (drsSubc b ts 0).map (fun k => ((1 : Nat), k)) = (List.range (14 * b)).map fun i => (1, subc b (4 * i + ts)) := by
    rw [drsSubc_eq hb, List.map_map]
    refine List.map_congr_left fun i _ => ?_
    rw [Function.comp, show (ts + 0 % 2 * 2) % 4 = ts by omega]
  rw [e, decide_eq_true, Res.assert_true, Res.ok_bind]
  rw [List.map_map, List.pairwise_map]
  refine List.Pairwise.imp ?_ List.pairwise_lt_range
  intro i j hij
  exact subc_lt_iff.mpr (by omega)

theorem lut_both {b n ts : Nat} (hb : bOk b = true) (ht : ts < 4) (hn : 0 < n) :
    lutPilots b n ts = .ok ((List.range (28 * b)).map fun j => (if j % 2 = 0 ↔ ts ≤ 1 then 1 else 1 + n, subc b (2 * j + ts % 2))) := by
  unfold lutPilots
  simp only [hn, if_true]
  rw [drsSubc_eq hb, drsSubc_eq hb, List.map_map, List.map_map, zip_range, zip_range', show 2 * (14 * b) = 28 * b by ring]
  have e : (if ts ≤ 1 then
      (List.range (28 * b)).map (fun j => if j % 2 = 0 then ((fun k => ((1 : Nat), k)) ∘ fun i => subc b (4 * i + (ts + 0 % 2 * 2) % 4)) (j / 2)
        else ((fun k => (1 + n, k)) ∘ fun i => subc b (4 * i + (ts + 1 % 2 * 2) % 4)) (j / 2))
      else (List.range (28 * b)).map (fun j => if j % 2 = 0 then ((fun k => (1 + n, k)) ∘ fun i => subc b (4 * i + (ts + 1 % 2 * 2) % 4)) (j / 2)
        else ((fun k => ((1 : Nat), k)) ∘ fun i => subc b (4 * i + (ts + 0 % 2 * 2) % 4)) (j / 2))) =
      (List.range (28 * b)).map fun j => (if j % 2 = 0 ↔ ts ≤ 1 then 1 else 1 + n, subc b (2 * j + ts % 2)) := by
    by_cases h : ts ≤ 1
    · rw [if_pos h]
      refine List.map_congr_left fun j _ => ?_
      by_cases h2 : j % 2 = 0
      · rw [if_pos h2, if_pos (by simp [h, h2]), Function.comp]
        congr 2; omega
      · rw [if_neg h2, if_neg (by simp [h, h2]), Function.comp]
        congr 2; omega
    · rw [if_neg h]
      refine List.map_congr_left fun j _ => ?_
      by_cases h2 : j % 2 = 0
      · rw [if_pos h2, if_neg (by simp [h, h2]), Function.comp]
        congr 2; omega
      · rw [if_neg h2, if_pos (by simp [h, h2]), Function.comp]
        congr 2; omega
  rw [e, decide_eq_true, Res.assert_true, Res.ok_bind]
  rw [List.map_map, List.pairwise_map]
  refine List.Pairwise.imp ?_ List.pairwise_lt_range
  intro i j hij
  exact subc_lt_iff.mpr (by omega)

/-! ## Vectors of pilots -/

/-- Pilot `i` of stream `t` in the DRS symbol with number `m` -/
def pil (b nTs m t i : Nat) : Option Pilot := some (1 + m * nStep nTs, subc b (4 * i + (t + m % 2 * 2) % 4))

/-- Offset at which the pilots of DRS symbol number `m` are put into the interlaced vector -/
def off (m t : Nat) : Nat := if (t % 4 ≤ 1 ↔ m % 2 = 0) then 0 else 1

theorem off_succ (m t : Nat) : off (m + 1) t = 1 - off m t := by
  unfold off
  split <;> split <;> omega

theorem off_le (m t : Nat) : off m t = 0 ∨ off m t = 1 := by unfold off; split <;> simp

theorem writeOffset_left {ps t : Nat} (ht : t < 8) : writeOffset ps 0 t = off ps t := by
  have : ∀ t < 8, [0, 0, 1, 1, 0, 0, 1, 1].getD t 0 = (if t % 4 ≤ 1 then 0 else 1) ∧ [1, 1, 0, 0, 1, 1, 0, 0].getD t 0 = (if t % 4 ≤ 1 then 1 else 0) := by
    decide
  obtain ⟨h1, h2⟩ := this t ht
  unfold writeOffset off
  rw [h1, h2]
  by_cases h : t % 4 ≤ 1 <;> by_cases hp : ps % 2 = 0 <;> simp [h, hp]

theorem writeOffset_right {ps rel t : Nat} (ht : t < 8) (hr : 1 < rel) : writeOffset ps rel t = off (ps + 1) t := by
  have : ∀ t < 8, [0, 0, 1, 1, 0, 0, 1, 1].getD t 0 = (if t % 4 ≤ 1 then 0 else 1) ∧ [1, 1, 0, 0, 1, 1, 0, 0].getD t 0 = (if t % 4 ≤ 1 then 1 else 0) := by
    decide
  obtain ⟨h1, h2⟩ := this t ht
  rw [off_succ]
  unfold writeOffset off
  rw [h1, h2]
  have hr' : ¬ rel ≤ 1 := by omega
  by_cases h : t % 4 ≤ 1 <;> by_cases hp : ps % 2 = 0 <;> simp [h, hp, hr']

theorem pil_cell {b nTs m t i : Nat} (ht : t < nTs) (h4 : nTs ≤ 4) (hi : i < 14 * b) :
    DrsCell b nTs t (1 + m * nStep nTs) (subc b (4 * i + (t + m % 2 * 2) % 4)) :=
  ⟨ht, m, _, by rw [step_eq, show t / 4 = 0 by omega], by omega, by omega, rfl⟩

/-- Row of the table for stream `t` in stage `ps` -/
def lutTs (ps t : Nat) : Nat := if ps % 2 = 1 then (t % 4 + 2) % 4 else t % 4

theorem matches_left {b nTs m t : Nat} (hb : bOk b = true) (h4 : nTs ≤ 4) (ht : t < nTs) {z : Nat → Option Pilot}
    (hz : ∀ i < 14 * b, z i = pil b nTs m t i) (row : Nat) :
    Matches b nTs t (1 + m * nStep nTs) ⟨0, row, lutTs m t, z⟩ := by
  have hl : lutTs m t = (t + m % 2 * 2) % 4 := by
    unfold lutTs
    split <;> omega
  have h4' : lutTs m t < 4 := by rw [hl]; omega
  refine ⟨_, lut_left hb h4', by simp, fun i p hp => ?_⟩
  rw [List.getElem?_map, Option.map_eq_some_iff] at hp
  obtain ⟨j, hj, rfl⟩ := hp
  obtain ⟨h1, h2⟩ := List.getElem?_eq_some_iff.mp hj
  rw [List.getElem_range] at h2
  rw [List.length_range] at h1
  subst h2
  dsimp only
  rw [hz i h1, hl, Nat.add_sub_cancel]
  exact ⟨rfl, pil_cell ht h4 h1⟩

theorem matches_both {b nTs m t : Nat} (hb : bOk b = true) (h4 : nTs ≤ 4) (ht : t < nTs) {z : Nat → Option Pilot}
    (hl : ∀ i < 14 * b, z (2 * i + off m t) = pil b nTs m t i)
    (hr : ∀ i < 14 * b, z (2 * i + off (m + 1) t) = pil b nTs (m + 1) t i) (row : Nat) :
    Matches b nTs t (1 + m * nStep nTs) ⟨nStep nTs, row, lutTs m t, z⟩ := by
  have hlt : lutTs m t = (t + m % 2 * 2) % 4 := by
    unfold lutTs
    split <;> omega
  have hn : 0 < nStep nTs := by rcases nStep_cases nTs with h | h <;> omega
  have h4' : lutTs m t < 4 := by rw [hlt]; omega
  refine ⟨_, lut_both hb h4' hn, by simp; omega, fun j p hp => ?_⟩
  rw [List.getElem?_map, Option.map_eq_some_iff] at hp
  obtain ⟨j', hj, rfl⟩ := hp
  obtain ⟨h1, h2⟩ := List.getElem?_eq_some_iff.mp hj
  rw [List.getElem_range] at h2
  rw [List.length_range] at h1
  subst h2
  dsimp only
  rw [off_succ] at hr
  have ho : off m t = if lutTs m t ≤ 1 then 0 else 1 := by
    unfold off
    by_cases hm : m % 2 = 0
    · have : lutTs m t = t % 4 := by unfold lutTs; rw [if_neg (by omega)]
      rw [this]
      simp [hm]
    · have : lutTs m t = (t % 4 + 2) % 4 := by unfold lutTs; rw [if_pos (by omega)]
      rw [this]
      by_cases h : t % 4 ≤ 1
      · rw [if_neg (by simp [h, hm]), if_neg (by omega)]
      · rw [if_pos (by simp [h, hm]), if_pos (by omega)]
  have hlast : 1 + m * nStep nTs + (1 + nStep nTs) - 1 = 1 + (m + 1) * nStep nTs := by
    rw [Nat.add_mul, Nat.one_mul]
    omega
  by_cases hx : (j % 2 = 0 ↔ lutTs m t ≤ 1)
  · rw [if_pos hx, Nat.add_sub_cancel]
    have hj2 : j = 2 * (j / 2) + off m t := by
      rw [ho]
      split
      · rename_i h; have := hx.mpr h; omega
      · rename_i h; have := mt hx.mp h; omega
    have hs : 2 * j + lutTs m t % 2 = 4 * (j / 2) + (t + m % 2 * 2) % 4 := by
      rw [← hlt]
      have : lutTs m t < 4 := by rw [hlt]; omega
      rw [ho] at hj2
      split at hj2 <;> omega
    rw [hs]
    refine ⟨?_, pil_cell ht h4 (by omega)⟩
    have := hl (j / 2) (by omega)
    rw [← hj2] at this
    exact this
  · rw [if_neg hx, hlast]
    have hj2 : j = 2 * (j / 2) + (1 - off m t) := by
      rw [ho]
      split
      · rename_i h
        have : ¬ j % 2 = 0 := fun h3 => hx ⟨fun _ => h, fun _ => h3⟩
        omega
      · rename_i h
        have : j % 2 = 0 := by
          by_contra h3
          exact hx ⟨fun h4 => absurd h4 h3, fun h4 => absurd h4 h⟩
        omega
    have hs : 2 * j + lutTs m t % 2 = 4 * (j / 2) + (t + (m + 1) % 2 * 2) % 4 := by
      have : lutTs m t < 4 := by rw [hlt]; omega
      rw [ho] at hj2
      split at hj2 <;> omega
    rw [hs]
    refine ⟨?_, pil_cell ht h4 (by omega)⟩
    have := hr (j / 2) (by omega)
    rw [← hj2] at this
    exact this

/-! ## Steps -/

structure Hyp (c : Cfg) : Prop where
  b : bOk c.b = true
  ts : c.nTs = 1 ∨ c.nTs = 2 ∨ c.nTs = 4

/-- `drs_t` when `m` symbols with DRS have been passed -/
def dAt (nTs m : Nat) : Drs := ⟨1 + m * nStep nTs, decide (m % 2 = 1), 0⟩

theorem dAt_zero (nTs : Nat) : dAt nTs 0 = Drs.start := by simp [dAt, Drs.start]

theorem dAt_advance {c : Cfg} (hc : Hyp c) (m : Nat) : (dAt c.nTs m).advance c.nTs = dAt c.nTs (m + 1) := by
  have h := hc.ts
  unfold dAt Drs.advance nStep
  rw [← not_odd]
  rcases h with h | h | h <;> simp [h, Nat.add_mul] <;> omega

theorem dAt_last {c : Cfg} (hc : Hyp c) (m : Nat) : (dAt c.nTs m).last c.nTs = c.nTs - 1 := by
  have h := hc.ts
  unfold dAt Drs.last
  simp only [if_true]
  omega

theorem psLen_eq {c : Cfg} (hc : Hyp c) : psLen c.nTs = nStep c.nTs + 1 := by
  rcases hc.ts with h | h | h <;> rw [h] <;> rfl

theorem take_ok {c : Cfg} {s : St} (h : s.rel < psLen c.nTs) : take c s =
    .ok { s with stage := fun j => if j = s.rel then some s.idx else s.stage j, now := s.rel } := by
  unfold take
  rw [decide_eq_true h, Res.assert_true, Res.ok_bind]

theorem drsZf_ok {c : Cfg} (hc : Hyp c) {s : St} {m : Nat} (hd : s.drs = dAt c.nTs m) (hnow : s.stage s.now = some (1 + m * nStep c.nTs))
    (hlr : s.lr = true ∨ s.rel = 0) :
    ∃ zf inter, drsZf c s = .ok { s with
        tsFirst := 0, tsLast := c.nTs - 1, drs := dAt c.nTs (m + 1), drsIdx := s.drsIdx + 14 * c.b * c.nTs, zf := zf, inter := inter } ∧
      (∀ t < c.nTs, ∀ i < 14 * c.b, zf t i = pil c.b c.nTs m t i) ∧
      (∀ t < c.nTs, ∀ i < 14 * c.b, inter t (2 * i + writeOffset s.ps s.rel t) = pil c.b c.nTs m t i) ∧
      ∀ t i, writeOffset s.ps s.rel t = 0 ∨ writeOffset s.ps s.rel t = 1 →
        inter t (2 * i + (1 - writeOffset s.ps s.rel t)) = s.inter t (2 * i + (1 - writeOffset s.ps s.rel t)) := by
  have hts := hc.ts
  have hp : ∀ t < c.nTs, ∀ i < 14 * c.b, pilotNow c s t i = pil c.b c.nTs m t i := by
    intro t ht i hi
    unfold pilotNow pil
    rw [hnow, hd]
    unfold dAt
    dsimp only
    rw [sel_nat, Option.map_some, drsSubc_eq hc.b, List.getD_eq_getElem?_getD, List.getElem?_map, List.getElem?_range hi]
    simp
  have hlen : ∀ n, (drsSubc c.b 0 n).length = 14 * c.b := fun n => drsSubc_length hc.b 0 n
  have e0 : s.drs.tsFirst = 0 := by rw [hd]; rfl
  have e1 : s.drs.last c.nTs = c.nTs - 1 := by rw [hd]; exact dAt_last hc m
  have e2 : s.drs.advance c.nTs = dAt c.nTs (m + 1) := by rw [hd]; exact dAt_advance hc m
  have a1 : (!(!s.lr && decide (c.nTs ≤ 4) && decide (s.rel ≠ 0))) = true := by
    rcases hlr with h | h <;> simp [h]
  have a2 : (!(!s.lr && decide (c.nTs > 4) && decide (1 < s.rel))) = true := by
    rcases hlr with h | h <;> simp [h]
  refine ⟨fun ts i => if 0 ≤ ts ∧ ts ≤ c.nTs - 1 ∧ i < 14 * c.b then pilotNow c s ts i else s.zf ts i,
    fun ts i => if 0 ≤ ts ∧ ts ≤ c.nTs - 1 ∧ writeOffset s.ps s.rel ts ≤ i ∧ (i - writeOffset s.ps s.rel ts) % 2 = 0 ∧
        (i - writeOffset s.ps s.rel ts) / 2 < 14 * c.b
      then pilotNow c s ts ((i - writeOffset s.ps s.rel ts) / 2) else s.inter ts i, ?_, ?_, ?_, ?_⟩
  · unfold drsZf
    simp only [hlen, e0, e1, e2]
    rw [a1, a2, Res.assert_true, Res.ok_bind, Res.ok_bind, show c.nTs - 1 - 0 + 1 = c.nTs by omega]
  · intro t ht i hi
    dsimp only
    rw [if_pos (by omega)]
    exact hp t ht i hi
  · intro t ht i hi
    dsimp only
    rw [Nat.add_sub_cancel, Nat.mul_mod_right, Nat.mul_div_cancel_left _ (by omega), if_pos (by omega)]
    exact hp t ht i hi
  · intro t i ho
    dsimp only
    rw [if_neg]
    rintro ⟨-, -, h1, h2, -⟩
    omega

theorem interp_ok {c : Cfg} (hc : Hyp c) {s : St} (h : s.rel < lutStep c s + 1) (h1 : s.tsFirst = 0) (h2 : s.tsLast = c.nTs - 1) :
    ∃ est, interpolate c s = .ok { s with est := est } ∧ ∀ t < c.nTs, est t = some (estNow c s t) := by
  refine ⟨_, by unfold interpolate; rw [decide_eq_true h, Res.assert_true, Res.ok_bind], ?_⟩
  intro t ht
  rw [if_pos]
  rw [h1, h2]
  constructor
  · split <;> omega
  · omega

theorem estNow_left {c : Cfg} {s : St} (h : s.lr = false) (t : Nat) : estNow c s t = ⟨0, s.rel, lutTs s.ps t, s.zf t⟩ := by
  unfold estNow lutStep lutTs
  simp [h]

theorem estNow_both {c : Cfg} {s : St} (h : s.lr = true) (t : Nat) : estNow c s t = ⟨nStep c.nTs, s.rel, lutTs s.ps t, s.inter t⟩ := by
  unfold estNow lutStep lutTs nStep
  simp [h]

/-- What has been read up to symbol `k` -/
def Got (c : Cfg) (sp : Nat → List Nat) (P : Nat → Nat → Est → Prop) (k : Nat) (rs : List Rd) : Prop :=
  rs.map (fun r => (r.l, r.ks)) = ((List.range' 1 k).map fun l => (l, sp l)).filter (fun x => decide (x.2 ≠ [])) ∧ ∀ r ∈ rs, RdOk c P r

theorem Got.none {c : Cfg} {sp : Nat → List Nat} {P : Nat → Nat → Est → Prop} {k : Nat} {rs : List Rd} (h : Got c sp P k rs)
    (he : sp (k + 1) = []) : Got c sp P (k + 1) rs := by
  refine ⟨?_, h.2⟩
  rw [h.1, List.range'_concat, List.map_append, List.filter_append]
  simp [Nat.add_comm 1 k, he]

theorem Got.some {c : Cfg} {sp : Nat → List Nat} {P : Nat → Nat → Est → Prop} {k : Nat} {rs : List Rd} (h : Got c sp P k rs)
    (he : sp (k + 1) ≠ []) {r : Rd} (h1 : r.l = k + 1) (h2 : r.ks = sp (k + 1)) (h3 : RdOk c P r) : Got c sp P (k + 1) (rs ++ [r]) := by
  constructor
  · rw [List.map_append, h.1, List.range'_concat, List.map_append, List.filter_append]
    simp [Nat.add_comm 1 k, he, h1, h2]
  · intro r' hr'
    rcases List.mem_append.mp hr' with h4 | h4
    · exact h.2 r' h4
    · rw [List.mem_singleton.mp h4]
      exact h3

/-- Estimates for all streams -/
def EstAll (c : Cfg) (P : Nat → Est → Prop) (est : Nat → Option Est) : Prop := ∀ t < c.nTs, ∃ e, est t = some e ∧ P t e

theorem readPdc_ok {c : Cfg} {tab : List (List Nat)} {sp : Nat → List Nat} {P : Nat → Nat → Est → Prop} {k : Nat} {s : St}
    (ht : pdcSymbol tab c.nTs (k + 1) = .ok (sp (k + 1))) (he : (sp (k + 1)).length % 2 = 0) (hg : Got c sp P k s.pdc)
    (hsrc : sp (k + 1) ≠ [] → s.stage s.now = some (k + 1)) (hest : sp (k + 1) ≠ [] → EstAll c (P (k + 1)) s.est) :
    ∃ p, readPdc c tab (k + 1) s = .ok { s with pdc := p } ∧ Got c sp P (k + 1) p := by
  unfold readPdc
  rw [ht, Res.ok_bind]
  by_cases h : sp (k + 1) = []
  · rw [if_pos h]
    exact ⟨s.pdc, rfl, hg.none h⟩
  · rw [if_neg h]
    have : evenOk c (sp (k + 1)) = true := by unfold evenOk; simp [he]
    rw [this, Res.assert_true, Res.ok_bind]
    exact ⟨_, rfl, hg.some h rfl rfl ⟨hsrc h, hest h⟩⟩

theorem readPcc_ok {c : Cfg} {L : List Nat} {dim o : Nat} (hp : L.Pairwise (· < ·)) {P : Nat → Nat → Est → Prop} {k : Nat} {s : St}
    (hi : s.idx = k + 1) (hc : PccAt (groups dim o L) (k + 1) s.cnt)
    (he : (pccSpec dim o L (k + 1)).length % 2 = 0) (hg : Got c (pccSpec dim o L) P k s.pcc)
    (hsrc : s.stage s.now = some (k + 1)) (hest : EstAll c (P (k + 1)) s.est) :
    ∃ p n, readPcc c (groups dim o L) s = .ok { s with cnt := n, pcc := p } ∧ Got c (pccSpec dim o L) P (k + 1) p ∧
      PccAt (groups dim o L) (k + 1 + 1) n := by
  obtain ⟨h1, h2⟩ := pccSymbol_ok hp hc
  unfold readPcc
  rw [hi]
  dsimp only
  rw [h1]
  by_cases h : pccSpec dim o L (k + 1) = []
  · rw [if_pos h]
    exact ⟨s.pcc, _, rfl, hg.none h, h2⟩
  · rw [if_neg h]
    have : evenOk c (pccSpec dim o L (k + 1)) = true := by unfold evenOk; simp [he]
    rw [this, Res.assert_true, Res.ok_bind]
    exact ⟨_, _, rfl, hg.some h rfl rfl ⟨hsrc, hest⟩, h2⟩

end Verif.Phy.RxFlow
