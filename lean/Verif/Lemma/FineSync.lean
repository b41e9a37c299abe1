import Verif.Spec.FineSync
import Verif.Lemma.MimoEst
import Mathlib.Algebra.Order.BigOperators.Group.Finset
import Mathlib.Algebra.BigOperators.Ring.Finset
import Mathlib.Data.List.GetD
import Mathlib.Tactic.IntervalCases

/-! # Lemmas about the fine synchronization -/

namespace Verif.Phy.FineSync

open MimoEst (atU atU_ok mapM_eq foldlM_eq getD_of_lt)

theorem get_range {α : Type} (f : Nat → α) {n i : Nat} (h : i < n) : ((List.range n).map f)[i]? = some (f i) := by
  rw [List.getElem?_map, List.getElem?_range h]; rfl

section
variable {K : Type} [Field K]

theorem foldl_cx_sum (f : Nat → Cx K) (n : Nat) : (List.range n).foldl (fun s i => s + f i) 0 = ∑ i ∈ Finset.range n, f i := by
  induction n with
  | zero => rfl
  | succ n ih => rw [List.range_succ, List.foldl_append, ih, Finset.sum_range_succ]; rfl

theorem foldl_list_sum {α : Type} (f : α → K) : ∀ (l : List α) (s : K), l.foldl (fun s a => s + f a) s = s + (l.map f).sum
  | [], s => by simp
  | a :: l, s => by rw [List.foldl_cons, foldl_list_sum f l, List.map_cons, List.sum_cons, add_assoc]

theorem sq_mul (a b : Cx K) : (a * b).sq = a.sq * b.sq := by simp only [Cx.sq, Cx.mul_re, Cx.mul_im]; ring

variable [LinearOrder K]

theorem phase_eq {lib : Lib K} (g : lib.Good) (step : K) (n : Nat) : phase (lib.cis step) n = lib.cis (n * step) := by
  induction n with
  | zero => rw [phase, Nat.cast_zero, zero_mul, g.cis_zero]
  | succ n ih => rw [phase, ih, ← g.cis_add]; congr 1; push_cast; ring

/-- Local buffer of one antenna -/
def row (rx : Nat → Int → Cx K) (start : Int) (copied a : Nat) : List (Cx K) := (List.range copied).map fun i => rx a (start + (i : Nat))

theorem mix_eq {lib : Lib K} (g : lib.Good) {z : Dim} {copied : Nat} (hc : z.mixLen ≤ copied) (step : K) (start : Int)
    (rx : Nat → Int → Cx K) : mix z (lib.cis step) 0 ((List.range z.nLim).map (row rx start copied)) =
      .ok ((List.range z.nLim).map fun a => (List.range z.mixLen).map (heard lib.cis step start rx a)) := by
  unfold mix
  rw [List.length_map, List.length_range]
  apply mapM_eq
  intro a ha
  rw [List.mem_range] at ha
  rw [if_neg (by omega), atU_ok (get_range _ ha), Res.ok_bind]
  unfold mixRow
  apply mapM_eq
  intro i hi
  rw [List.mem_range] at hi
  rw [row, Nat.zero_add, atU_ok (get_range _ (by omega)), Res.ok_bind, phase_eq g]
  rfl

theorem dot_eq {n len j : Nat} (h : j + n ≤ len) (x : Nat → Cx K) (b : List (Cx K)) (hb : n ≤ b.length) :
    dot n ((List.range len).map x) j b = .ok (corr n x (fun i => b.getD i 0) j) := by
  unfold dot corr
  rw [foldlM_eq _ (fun s i => s + x (j + i) * (b.getD i 0).conj), foldl_cx_sum]
  intro i hi s
  rw [List.mem_range] at hi
  rw [atU_ok (get_range _ (by omega)), Res.ok_bind, atU_ok (getD_of_lt 0 (by omega)), Res.ok_bind]

theorem xcorr_eq {z : Dim} (he : z.eff ≤ z.stf) (x : Nat → Cx K) (b : List (Cx K)) (hb : b.length = z.stf) :
    xcorr z ((List.range z.mixLen).map x) b = .ok ((List.range z.search).map (corr z.eff x (fun i => b.getD i 0))) := by
  unfold xcorr
  apply mapM_eq
  intro j hj
  rw [List.mem_range] at hj
  apply dot_eq _ _ _ (by omega)
  unfold Dim.search at hj
  unfold Dim.mixLen
  omega

/-- Position of the peak of a signal with a template -/
def pos (lib : Lib K) (z : Dim) (x t : Nat → Cx K) : Nat := lib.imax (((List.range z.search).map (corr z.eff x t)).map Cx.sq)

theorem pos_spec {lib : Lib K} (g : lib.Good) (z : Dim) (x t : Nat → Cx K) : pos lib z x t < z.search ∧
    ∀ j < z.search, (corr z.eff x t j).sq ≤ (corr z.eff x t (pos lib z x t)).sq := by
  have hl : (((List.range z.search).map (corr z.eff x t)).map Cx.sq).length = z.search := by simp
  have hne : (((List.range z.search).map (corr z.eff x t)).map Cx.sq) ≠ [] := by
    intro e; rw [e] at hl; unfold Dim.search at hl; simp at hl; omega
  have h1 := g.imax_lt _ hne
  rw [hl] at h1
  refine ⟨h1, fun j hj => ?_⟩
  have h2 := g.imax_le _ (corr z.eff x t j).sq
    (List.mem_map_of_mem (List.mem_map_of_mem (List.mem_range.mpr hj)))
  rw [List.map_map, List.getD_eq_getElem?_getD, ← List.map_map] at h2
  change _ ≤ (((List.range z.search).map (corr z.eff x t)).map Cx.sq)[pos lib z x t]?.getD 0 at h2
  rw [List.map_map, get_range (i := pos lib z x t) _ h1] at h2
  exact h2

theorem peak_eq {lib : Lib K} (g : lib.Good) {z : Dim} (he : z.eff ≤ z.stf) (x : Nat → Cx K) (b : List (Cx K)) (hb : b.length = z.stf) :
    peak lib z 0 ((List.range z.mixLen).map x) b =
      .ok (lib.mag (corr z.eff x (fun i => b.getD i 0) (pos lib z x fun i => b.getD i 0)).sq, pos lib z x fun i => b.getD i 0) := by
  unfold peak
  rw [xcorr_eq he x b hb, Res.ok_bind]
  have h := (pos_spec g z x fun i => b.getD i 0).1
  change (do
    let y ← atU ((List.range z.search).map (corr z.eff x fun i => b.getD i 0)) (pos lib z x fun i => b.getD i 0)
    Res.ok (lib.mag y.sq, (pos lib z x fun i => b.getD i 0) + 0)) = _
  rw [atU_ok (get_range _ h), Res.ok_bind, Nat.add_zero]

/-- Metric of the peak -/
def metric (lib : Lib K) (z : Dim) (x t : Nat → Cx K) : K := lib.mag (corr z.eff x t (pos lib z x t)).sq

theorem antPeaks_eq {lib : Lib K} (g : lib.Good) {z : Dim} (he : z.eff ≤ z.stf) (x : Nat → Cx K) {tmpl : List (List (Cx K))}
    (hb : ∀ t ∈ tmpl, t.length = z.stf) (hn : tmpl.length ≤ z.nLim) : antPeaks lib z 0 tmpl ((List.range z.mixLen).map x) =
      .ok ((List.range tmpl.length).map fun k => (metric lib z x (template tmpl k), pos lib z x (template tmpl k))) := by
  unfold antPeaks
  apply mapM_eq
  intro k hk
  rw [List.mem_range] at hk
  have h1 := getD_of_lt [] hk
  rw [atU_ok h1, Res.ok_bind, peak_eq g he x _ (hb _ (List.mem_of_getElem? h1)), Res.ok_bind, if_neg (by omega)]
  rfl

/-- Peaks of some antennas -/
def peaks (m : Nat → Nat → K × Nat) (as : List Nat) (n : Nat) : List (List (K × Nat)) := as.map fun a => (List.range n).map (m a)

theorem metricSum_eq (fp : Fp K) (m : Nat → Nat → K × Nat) (as : List Nat) {n k : Nat} (hk : k < n) :
    metricSum fp (peaks m as n) k = .ok (as.foldl (fun s a => fp.add s (m a k).1) 0) := by
  unfold metricSum peaks
  rw [foldlM_eq _ (fun s (p : List (K × Nat)) => fp.add s (p.getD k (0, 0)).1), List.foldl_map]
  · congr 2
    funext s a
    rw [List.getD_eq_getElem?_getD]
    simp [hk]
  · intro p hp s
    obtain ⟨a, -, rfl⟩ := List.mem_map.mp hp
    rw [atU_ok (getD_of_lt (0, 0) (by simpa using hk)), Res.ok_bind]

theorem weighted_eq (fp : Fp K) (m : Nat → Nat → K × Nat) (as : List Nat) {n k : Nat} (hk : k < n) :
    weighted fp (peaks m as n) k = .ok (as.foldl (fun s a => fp.add s (fp.mul (m a k).1 (fp.ofNat (m a k).2))) 0) := by
  unfold weighted peaks
  rw [foldlM_eq _ (fun s (p : List (K × Nat)) => fp.add s (fp.mul (p.getD k (0, 0)).1 (fp.ofNat (p.getD k (0, 0)).2))), List.foldl_map]
  · congr 2
    funext s a
    rw [List.getD_eq_getElem?_getD]
    simp [hk]
  · intro p hp s
    obtain ⟨a, -, rfl⟩ := List.mem_map.mp hp
    rw [atU_ok (getD_of_lt (0, 0) (by simpa using hk)), Res.ok_bind]

theorem fold_max (S : Nat → K) (n : Nat) : ∀ r, r = (List.range n).foldl (fun (m : K × Nat) t => if m.1 < S t then (S t, t) else m) (0, 0) →
    (r = (0, 0) ∧ ∀ t < n, S t ≤ 0) ∨ (r.2 < n ∧ r.1 = S r.2 ∧ 0 < S r.2 ∧ ∀ t < n, S t ≤ S r.2) := by
  induction n with
  | zero => intro r hr; left; exact ⟨hr, by omega⟩
  | succ n ih =>
    intro r hr
    rw [List.range_succ, List.foldl_append] at hr
    generalize hq : (List.range n).foldl (fun (m : K × Nat) t => if m.1 < S t then (S t, t) else m) (0, 0) = q at hr
    simp only [List.foldl_cons, List.foldl_nil] at hr
    rcases ih q hq.symm with ⟨h1, h2⟩ | ⟨h1, h2, h3, h4⟩
    · by_cases hl : q.1 < S n
      · rw [if_pos hl] at hr
        subst hr
        rw [h1] at hl
        right
        refine ⟨by simp, rfl, hl, fun t ht => ?_⟩
        rcases Nat.lt_succ_iff_lt_or_eq.mp ht with h | h
        · exact (h2 t h).trans hl.le
        · rw [h]
      · rw [if_neg hl] at hr
        left
        refine ⟨hr.trans h1, fun t ht => ?_⟩
        rcases Nat.lt_succ_iff_lt_or_eq.mp ht with h | h
        · exact h2 t h
        · rw [h1] at hl; rw [h]; exact not_lt.mp hl
    · right
      by_cases hl : q.1 < S n
      · rw [if_pos hl] at hr
        subst hr
        refine ⟨by simp, rfl, ?_, fun t ht => ?_⟩
        · rw [h2] at hl; exact h3.trans hl
        · rcases Nat.lt_succ_iff_lt_or_eq.mp ht with h | h
          · rw [h2] at hl; exact (h4 t h).trans hl.le
          · rw [h]
      · rw [if_neg hl] at hr
        subst hr
        refine ⟨by omega, h2, h3, fun t ht => ?_⟩
        rcases Nat.lt_succ_iff_lt_or_eq.mp ht with h | h
        · exact h4 t h
        · rw [h, ← h2]; exact not_lt.mp hl

theorem likely_eq (fp : Fp K) (m : Nat → Nat → K × Nat) (as : List Nat) (n : Nat) :
    likely fp (peaks m as n) n = .ok ((List.range n).foldl
      (fun (q : K × Nat) t => if q.1 < as.foldl (fun s a => fp.add s (m a t).1) 0 then (as.foldl (fun s a => fp.add s (m a t).1) 0, t) else q) (0, 0)) := by
  unfold likely
  apply foldlM_eq
  intro t ht q
  rw [metricSum_eq fp m as (List.mem_range.mp ht), Res.ok_bind]

/-- Without any metric there is no result. -/
theorem evaluate_zero [FloorRing K] (fp : Fp K) (m : Nat → Nat → K × Nat) (as : List Nat) {n : Nat} (hn : 0 < n)
    (h0 : ∀ k < n, as.foldl (fun s a => fp.add s (m a k).1) 0 = 0) : evaluate fp (peaks m as n) n = .ub := by
  have hl := likely_eq fp m as n
  generalize hr : (List.range n).foldl
      (fun (q : K × Nat) t => if q.1 < as.foldl (fun s a => fp.add s (m a t).1) 0 then (as.foldl (fun s a => fp.add s (m a t).1) 0, t) else q) (0, 0) = r at hl
  rcases fold_max (fun t => as.foldl (fun s a => fp.add s (m a t).1) 0) n r hr.symm with ⟨h1, -⟩ | ⟨h1, -, h3, -⟩
  · unfold evaluate
    rw [hl, Res.ok_bind, h1, atU_ok (x := 1) rfl, Res.ok_bind, weighted_eq fp m as hn, Res.ok_bind, if_pos rfl]
  · have := h0 _ h1
    simp only [this, lt_irrefl] at h3

/-- Evaluation of the peaks: the template has the largest sum. -/
theorem evaluate_eq [IsStrictOrderedRing K] [FloorRing K] (fp : Fp K) (m : Nat → Nat → K × Nat) (as : List Nat) {n : Nat} (hn : n ≤ 4)
    {k0 : Nat} (hk0 : k0 < n) (h0 : 0 < as.foldl (fun s a => fp.add s (m a k0).1) 0) :
    ∃ k < n, 0 < as.foldl (fun s a => fp.add s (m a k).1) 0 ∧
      (∀ k' < n, as.foldl (fun s a => fp.add s (m a k').1) 0 ≤ as.foldl (fun s a => fp.add s (m a k).1) 0) ∧
      evaluate fp (peaks m as n) n = (do
        let t ← roundU (fp.div (as.foldl (fun s a => fp.add s (fp.mul (m a k).1 (fp.ofNat (m a k).2))) 0)
          (as.foldl (fun s a => fp.add s (m a k).1) 0))
        .ok (2 ^ k, t)) := by
  have hl := likely_eq fp m as n
  generalize hr : (List.range n).foldl
      (fun (q : K × Nat) t => if q.1 < as.foldl (fun s a => fp.add s (m a t).1) 0 then (as.foldl (fun s a => fp.add s (m a t).1) 0, t) else q) (0, 0) = r at hl
  rcases fold_max (fun t => as.foldl (fun s a => fp.add s (m a t).1) 0) n r hr.symm with ⟨-, h2⟩ | ⟨h1, h2, h3, h4⟩
  · exact absurd h0 (not_lt.mpr (h2 k0 hk0))
  · refine ⟨r.2, h1, h3, h4, ?_⟩
    unfold evaluate
    rw [hl, Res.ok_bind]
    have hp : ([1, 2, 4, 8] : List Nat)[r.2]? = some (2 ^ r.2) := by
      have : r.2 < 4 := by omega
      interval_cases r.2 <;> rfl
    rw [atU_ok hp, Res.ok_bind, weighted_eq fp m as h1, Res.ok_bind, if_neg (by rw [h2]; exact h3.ne'), h2]

end

section
variable {K : Type} [Field K] [LinearOrder K] [IsStrictOrderedRing K]

theorem sq_nonneg' (a : Cx K) : 0 ≤ a.sq := add_nonneg (mul_self_nonneg _) (mul_self_nonneg _)

theorem sq_eq_zero' {a : Cx K} (h : a.sq = 0) : a = 0 := by
  unfold Cx.sq at h
  have h1 := mul_self_nonneg a.re
  have h2 := mul_self_nonneg a.im
  ext
  · exact mul_self_eq_zero.mp (by linarith)
  · exact mul_self_eq_zero.mp (by linarith)

/-- The largest value is found, and the first one of it. -/
theorem fold_idx : ∀ (l pre : List K) (s : K × Nat × Nat), pre ≠ [] → s.2.2 = pre.length → s.2.1 < pre.length → s.1 = pre.getD s.2.1 0 →
    (∀ b < pre.length, pre.getD b 0 ≤ s.1) → (∀ b < s.2.1, pre.getD b 0 < s.1) →
    ∀ r, r = l.foldl (fun (s : K × Nat × Nat) y => if s.1 < y then (y, s.2.2, s.2.2 + 1) else (s.1, s.2.1, s.2.2 + 1)) s →
    r.2.1 < (pre ++ l).length ∧ r.1 = (pre ++ l).getD r.2.1 0 ∧ (∀ b < (pre ++ l).length, (pre ++ l).getD b 0 ≤ r.1) ∧
      ∀ b < r.2.1, (pre ++ l).getD b 0 < r.1
  | [], pre, s, _, _, h2, h3, h4, h5, r, hr => by
    simp only [List.foldl_nil] at hr
    subst hr
    simpa using ⟨h2, h3, h4, h5⟩
  | y :: l, pre, s, h0, h1, h2, h3, h4, h5, r, hr => by
    rw [List.foldl_cons] at hr
    have old : ∀ b < pre.length, (pre ++ [y]).getD b 0 = pre.getD b 0 := by
      intro b hb
      rw [List.getD_append _ _ _ _ hb]
    have new : (pre ++ [y]).getD pre.length 0 = y := by
      rw [List.getD_append_right _ _ _ _ (le_refl _)]; simp
    have e : pre ++ y :: l = (pre ++ [y]) ++ l := by simp
    rw [e]
    by_cases hl : s.1 < y
    · rw [if_pos hl] at hr
      refine fold_idx l (pre ++ [y]) _ (by simp) (by simp [h1]) (by simp [h1]) ?_ ?_ ?_ r hr
      · simp only; rw [h1, new]
      · intro b hb
        simp at hb
        rcases Nat.lt_or_ge b pre.length with h | h
        · rw [old b h]; exact (h4 b h).trans hl.le
        · obtain rfl : b = pre.length := by omega
          rw [new]
      · intro b hb
        simp only at hb ⊢
        rw [h1] at hb
        rw [old b hb]
        exact (h4 b hb).trans_lt hl
    · rw [if_neg hl] at hr
      refine fold_idx l (pre ++ [y]) _ (by simp) (by simp [h1]) (by simp; omega) ?_ ?_ ?_ r hr
      · simp only; rw [old _ h2]; exact h3
      · intro b hb
        simp at hb
        rcases Nat.lt_or_ge b pre.length with h | h
        · rw [old b h]; exact h4 b h
        · obtain rfl : b = pre.length := by omega
          rw [new]; exact not_lt.mp hl
      · intro b hb
        simp only at hb ⊢
        rw [old b (by omega)]
        exact h5 b hb

theorem indexOfMax_eq {coarse : List K} {a : Nat} (h : Strongest coarse a) : indexOfMax coarse = a := by
  obtain ⟨h1, -, h3, h4⟩ := h
  match coarse, h1, h3, h4 with
  | [], h1, _, _ => simp at h1
  | x :: l, h1, h3, h4 =>
    show (l.foldl (fun (s : K × Nat × Nat) y => if s.1 < y then (y, s.2.2, s.2.2 + 1) else (s.1, s.2.1, s.2.2 + 1)) (x, 0, 1)).2.1 = a
    generalize hr : l.foldl (fun (s : K × Nat × Nat) y => if s.1 < y then (y, s.2.2, s.2.2 + 1) else (s.1, s.2.1, s.2.2 + 1)) (x, 0, 1) = r
    obtain ⟨r1, r2, r3, r4⟩ := fold_idx l [x] (x, 0, 1) (by simp) rfl (by simp) (by simp) (by intro b hb; simp at hb; simp [hb])
      (by intro b hb; simp at hb) r hr.symm
    simp only [List.singleton_append] at r1 r2 r3 r4
    rcases lt_trichotomy r.2.1 a with h | h | h
    · have := h4 _ h
      rw [← r2] at this
      exact absurd (r3 a h1) (not_le.mpr this)
    · exact h
    · have := r4 _ h
      rw [r2] at this
      exact absurd (h3 _ r1) (not_le.mpr this)

/-- The whole search for given antennas -/
theorem fineSync_eq [FloorRing K] {lib : Lib K} (g : lib.Good) (fp : Fp K) (all : Bool) {z : Dim} {n copied : Nat} {coarse : List K}
    {tmpl : List (List (Cx K))} (v : Given z n copied coarse tmpl) (hn : n ≤ z.nLim) (L M : Nat) (cfo : K) (t0 : Int)
    (rx : Nat → Int → Cx K) {as : List Nat} (ha : antennas all z coarse = .ok as) (hp : ∀ a ∈ as, a < z.nLim ∧ 0 < coarse.getD a 0) :
    fineSync lib fp all z L M copied cfo coarse tmpl t0 rx = (do
      let p ← evaluate fp (peaks (fun a k => (metric lib z (heard lib.cis (cfo * M / L) (t0 - z.l) rx a) (template tmpl k),
        pos lib z (heard lib.cis (cfo * M / L) (t0 - z.l) rx a) (template tmpl k))) as n) n
      .ok (p.1, t0 - z.l + (p.2 : Nat))) := by
  have hm : z.mixLen ≤ copied := by
    have := v.enough
    unfold Dim.required Dim.search at this
    unfold Dim.mixLen
    omega
  unfold fineSync
  dsimp only
  unfold searchByCorrelation
  rw [decide_eq_true v.enough, Res.assert_true, Res.ok_bind]
  change ((do
    let stage ← mix z (lib.cis (cfo * M / L)) 0 ((List.range z.nLim).map (row rx (t0 - z.l) copied))
    runFineSearch lib fp all z 0 coarse tmpl stage) >>= _) = _
  rw [mix_eq g hm, Res.ok_bind]
  unfold runFineSearch
  have ht : atU nofTemplates z.nAnt = .ok n := by
    have := v.pos
    have := v.le
    rw [v.ant]
    have : n = 1 ∨ n = 2 ∨ n = 3 ∨ n = 4 := by omega
    rcases this with rfl | rfl | rfl | rfl <;> rfl
  rw [decide_eq_true v.nCoarse, Res.assert_true, Res.ok_bind, ha, Res.ok_bind, ht, Res.ok_bind, decide_eq_true v.nTmpl, Res.assert_true,
    Res.ok_bind]
  rw [mapM_eq _ (fun a => (List.range n).map fun k => (metric lib z (heard lib.cis (cfo * M / L) (t0 - z.l) rx a) (template tmpl k),
        pos lib z (heard lib.cis (cfo * M / L) (t0 - z.l) rx a) (template tmpl k)))]
  · rw [Res.ok_bind, v.nTmpl]; rfl
  · intro a h
    obtain ⟨h1, h2⟩ := hp a h
    rw [decide_eq_true h2, Res.assert_true, Res.ok_bind,
      atU_ok (get_range _ h1), Res.ok_bind,
      antPeaks_eq g v.eff _ v.len (by rw [v.nTmpl]; exact hn), v.nTmpl]

/-- Rounding of a value close to a natural number -/
theorem roundU_near [FloorRing K] {x : K} {j : Nat} (h : |x - j| < 1 / 2) : roundU x = .ok j := by
  rw [abs_lt] at h
  have hj : (0 : K) ≤ j := Nat.cast_nonneg j
  unfold roundU
  rw [if_neg (by linarith)]
  have : ⌊x + 1 / 2⌋ = (j : Int) := by
    rw [Int.floor_eq_iff]
    push_cast
    constructor <;> linarith
  rw [this, Int.toNat_natCast]

/-- Rounding keeps within bounds that are natural numbers. -/
theorem roundU_between [FloorRing K] {x : K} (h : 0 ≤ x) : ∃ j, roundU x = .ok j ∧ ∀ lo hi : Nat, (lo : K) ≤ x → x ≤ hi → lo ≤ j ∧ j ≤ hi := by
  unfold roundU
  rw [if_neg (by linarith)]
  refine ⟨_, rfl, fun lo hi h1 h2 => ?_⟩
  have a : (lo : Int) ≤ ⌊x + 1 / 2⌋ := by
    rw [Int.le_floor]; push_cast; linarith
  have b : ⌊x + 1 / 2⌋ < (hi : Int) + 1 := by
    rw [Int.floor_lt]; push_cast; linarith
  omega

/-- The index of one antenna, multiplied and divided by its metric -/
theorem roundU_single [FloorRing K] {fp : Fp K} (s : fp.Single) {m : K} (hm : 0 < m) {j : Nat} (hj : j ≤ 2 ^ 21) :
    roundU (fp.div (fp.mul m (fp.ofNat j)) m) = .ok j := by
  apply roundU_near
  rw [s.ofNat j (by omega)]
  have hJ : (0 : K) ≤ j := Nat.cast_nonneg j
  have hJ' : (j : K) ≤ 2 ^ 21 := by exact_mod_cast hj
  have h1 := s.mul m j
  have h2 := s.div (fp.mul m j) m hm.ne'
  rw [abs_of_nonneg (mul_nonneg hm.le hJ)] at h1
  generalize hx : fp.mul m (j : K) = x at *
  have h3 : |x / m - j| ≤ j / 2 ^ 24 := by
    have : x / m - j = (x - m * j) / m := by field_simp
    rw [this, abs_div, abs_of_pos hm, div_le_iff₀ hm]
    calc _ ≤ _ := h1
      _ = _ := by ring
  have h4 : |x / m| ≤ j + j / 2 ^ 24 := by
    have := abs_add_le (x / m - j) j
    rw [sub_add_cancel, abs_of_nonneg hJ] at this
    linarith
  have h5 := abs_add_le (fp.div x m - x / m) (x / m - j)
  rw [sub_add_sub_cancel] at h5
  have h6 : |x / m| / 2 ^ 24 ≤ (j + j / 2 ^ 24) / 2 ^ 24 := by gcongr
  calc _ ≤ _ := h5
    _ ≤ (j + j / 2 ^ 24) / 2 ^ 24 + j / 2 ^ 24 := by linarith
    _ ≤ (2 ^ 21 + 2 ^ 21 / 2 ^ 24) / 2 ^ 24 + 2 ^ 21 / 2 ^ 24 := by gcongr
    _ < 1 / 2 := by norm_num

/-- Cauchy-Schwarz: the rest of a window after removing its part along the template -/
theorem rest_sum (n : Nat) (x t : Nat → Cx K) (j : Nat) :
    ∑ i ∈ Finset.range n, ((⟨energy n t 0, 0⟩ : Cx K) * x (j + i) + -(corr n x t j * t i)).sq =
      energy n t 0 * (energy n x j * energy n t 0 - (corr n x t j).sq) := by
  have re_sum : (corr n x t j).re = ∑ i ∈ Finset.range n, (x (j + i) * (t i).conj).re := by
    unfold corr
    induction Finset.range n using Finset.induction_on with
    | empty => rfl
    | insert a s ha ih => rw [Finset.sum_insert ha, Finset.sum_insert ha, Cx.add_re, ih]
  have im_sum : (corr n x t j).im = ∑ i ∈ Finset.range n, (x (j + i) * (t i).conj).im := by
    unfold corr
    induction Finset.range n using Finset.induction_on with
    | empty => rfl
    | insert a s ha ih => rw [Finset.sum_insert ha, Finset.sum_insert ha, Cx.add_im, ih]
  have hE : energy n t 0 = ∑ i ∈ Finset.range n, (t i).sq := by unfold energy; simp
  generalize hS : corr n x t j = S at *
  generalize hEt : energy n t 0 = E at *
  have term : ∀ i ∈ Finset.range n, ((⟨E, 0⟩ : Cx K) * x (j + i) + -(S * t i)).sq =
      E * E * (x (j + i)).sq - 2 * E * (S.re * (x (j + i) * (t i).conj).re + S.im * (x (j + i) * (t i).conj).im) + S.sq * (t i).sq := by
    intro i _
    simp only [Cx.sq, Cx.add_re, Cx.add_im, Cx.neg_re, Cx.neg_im, Cx.mul_re, Cx.mul_im, Cx.conj_re, Cx.conj_im]
    ring
  rw [Finset.sum_congr rfl term, Finset.sum_add_distrib, Finset.sum_sub_distrib, ← Finset.mul_sum, ← Finset.mul_sum, ← Finset.mul_sum,
    Finset.sum_add_distrib, ← Finset.mul_sum, ← Finset.mul_sum, ← re_sum, ← im_sum, ← hE]
  change E * E * energy n x j - _ + _ = _
  simp only [Cx.sq]
  ring

theorem energy_nonneg (n : Nat) (x : Nat → Cx K) (j : Nat) : 0 ≤ energy n x j := Finset.sum_nonneg fun _ _ => sq_nonneg' _

/-- A window that is not a multiple of the template correlates less than its energy allows. -/
theorem corr_lt {n : Nat} {x t : Nat → Cx K} {j : Nat} {e : K} (he : 0 < e) (h : energy n x j * energy n t 0 ≤ e)
    (hp : ¬ ∃ c : Cx K, ∀ i < n, x (j + i) = c * t i) : (corr n x t j).sq < e := by
  rcases (energy_nonneg n t 0).lt_or_eq with hE | hE
  · have hs := rest_sum n x t j
    have hd : 0 < ∑ i ∈ Finset.range n, ((⟨energy n t 0, 0⟩ : Cx K) * x (j + i) + -(corr n x t j * t i)).sq := by
      refine lt_of_le_of_ne (Finset.sum_nonneg fun _ _ => sq_nonneg' _) fun z => hp ?_
      rw [eq_comm, Finset.sum_eq_zero_iff_of_nonneg fun _ _ => sq_nonneg' _] at z
      refine ⟨⟨(corr n x t j).re / energy n t 0, (corr n x t j).im / energy n t 0⟩, fun i hi => ?_⟩
      have q := sq_eq_zero' (z i (Finset.mem_range.mpr hi))
      have qr := congrArg Cx.re q
      have qi := congrArg Cx.im q
      simp only [Cx.add_re, Cx.add_im, Cx.neg_re, Cx.neg_im, Cx.mul_re, Cx.mul_im, Cx.zero_re, Cx.zero_im] at qr qi
      ext
      · simp only [Cx.mul_re]
        field_simp
        linarith
      · simp only [Cx.mul_im]
        field_simp
        linarith
    rw [hs] at hd
    have := (mul_pos_iff_of_pos_left hE).mp hd
    linarith
  · -- a template without energy
    have hz : ∀ i < n, t i = 0 := by
      intro i hi
      rw [eq_comm, energy, Finset.sum_eq_zero_iff_of_nonneg fun _ _ => sq_nonneg' _] at hE
      simpa using sq_eq_zero' (hE i (Finset.mem_range.mpr hi))
    have : corr n x t j = 0 := by
      unfold corr
      apply Finset.sum_eq_zero
      intro i hi
      rw [hz i (Finset.mem_range.mp hi)]
      ext <;> simp
    rw [this]
    simpa [Cx.sq] using he

/-- Correlation of a multiple of the template -/
theorem corr_copy {n : Nat} {x t : Nat → Cx K} {j : Nat} {h : Cx K} (e : ∀ i < n, x (j + i) = h * t i) :
    (corr n x t j).sq = h.sq * energy n t 0 * energy n t 0 := by
  have : corr n x t j = ⟨h.re * energy n t 0, h.im * energy n t 0⟩ := by
    unfold corr energy
    have q : ∀ s : Finset Nat, s ⊆ Finset.range n → ∑ i ∈ s, x (j + i) * (t i).conj =
        ⟨h.re * ∑ i ∈ s, (t (0 + i)).sq, h.im * ∑ i ∈ s, (t (0 + i)).sq⟩ := by
      intro s
      induction s using Finset.induction_on with
      | empty => intro _; ext <;> simp
      | insert a s ha ih =>
        intro hs
        rw [Finset.sum_insert ha, Finset.sum_insert ha, ih fun y hy => hs (Finset.mem_insert_of_mem hy),
          e a (Finset.mem_range.mp (hs (Finset.mem_insert_self _ _)))]
        ext
        · simp only [Cx.add_re, Cx.mul_re, Cx.mul_im, Cx.conj_re, Cx.conj_im, Cx.sq, Nat.zero_add]; ring
        · simp only [Cx.add_im, Cx.mul_re, Cx.mul_im, Cx.conj_re, Cx.conj_im, Cx.sq, Nat.zero_add]; ring
    exact q _ (Finset.Subset.refl _)
  rw [this]
  simp only [Cx.sq]
  ring

/-- A failure in the middle of a list -/
theorem mapM_ub {α β : Type} (f : α → Res β) (g : α → β) : ∀ (l l' : List α) (x : α), (∀ y ∈ l, f y = .ok (g y)) → f x = .ub →
    (l ++ x :: l').mapM f = .ub
  | [], l', x, _, h => by rw [List.nil_append, List.mapM_cons, h]; rfl
  | y :: l, l', x, hl, h => by
    rw [List.cons_append, List.mapM_cons, hl y (by simp), Res.ok_bind, mapM_ub f g l l' x (fun z hz => hl z (by simp [hz])) h]; rfl

end
end Verif.Phy.FineSync
