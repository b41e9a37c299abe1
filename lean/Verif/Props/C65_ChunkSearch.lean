import Verif.Lemma.ChunkSearch

/-!
# C65: The search of a chunk stays within its buffer and reports no STF twice -/

namespace Verif.Props.C65
open Verif.Phy.ChunkSearch Verif.Spec.ChunkSearch

/-- Antenna `a` has a valid peak at position `j`, for a detection with metric `m` at position `t`. -/
def Valid (z : Dim) (e : Env) (t : Nat) (m : ℚ) (j : Nat → Nat) (a : Nat) : Bool :=
  decide (m + z.thr < smooth (e.metric a) (t - z.pattern) z.smoothLen (j a)) &&
    decide ((t : Int) + z.d2p < ((j a - z.offset : Nat) : Int))

/-- Result of the search for a peak after a detection with metric `m` at position `t`: the positions of the last maximum
of all antennas with a valid peak, each weighted with the height of its maximum, rounded, and moved to the beginning of
the STF. -/
def IsResult (z : Dim) (e : Env) (t : Nat) (m : ℚ) (res : Option Nat) : Prop :=
  ∃ j : Nat → Nat,
    (∀ a < z.nAnt, LastMax (e.metric a) (t - z.pattern) z.smoothLen (t - z.pattern + z.stf) (j a)) ∧
    let height := fun a => smooth (e.metric a) (t - z.pattern) z.smoothLen (j a)
    let v := (List.range z.nAnt).filter (Valid z e t m j)
    if ∀ a ∈ v, height a ≤ 0 then res = none
    else ∃ c, res = some c ∧
      c + (z.stf - 1) =
        ⌊(v.map fun a => height a * ((j a - z.offset : Nat) : ℚ)).sum / (v.map height).sum + 1 / 2⌋₊

theorem peakSearch_ok (z : Dim) (hz : Sane z) (e : Env) (hm : ∀ a i, 0 ≤ e.metric a i) (s : St) (m : ℚ)
    (h1 : z.stf + z.pattern ≤ s.cntR) (h2 : s.cntR ≤ s.w) (h3 : s.w ≤ z.bufLen) (h4 : s.cntR < z.searchLen + z.step) :
    ∃ res w calls, peakSearch z e s m = .ok (res, { s with w := w, calls := calls }) ∧
      s.w ≤ w ∧ w ≤ z.bufLen ∧ IsResult z e s.cntR m res ∧
      ∀ c, res = some c → s.cntR + z.left * z.bos + 1 ≤ c + z.pattern + z.stf ∧ c + z.pattern ≤ s.cntR := by
  obtain ⟨f1, f2, f3, f4, f5, f6, f7⟩ := hz.facts
  have hbuf : z.bufLen = z.searchLen + z.pattern + z.stf := rfl
  obtain ⟨r0, hr0⟩ : ∃ r0, s.cntR = r0 + z.pattern := ⟨s.cntR - z.pattern, by omega⟩
  have hj : z.jumpBack = z.pattern := Nat.one_mul _
  obtain ⟨w, calls, ps, e1, h11, h12, h13, h14, h15⟩ :=
    peakLoop_ok z hz e hm r0 (by omega) (by omega) (z.stf + 1) s.calls s.w 0 (List.replicate z.nAnt (Peak.init z))
      (by omega) (by omega) h3 (ainv_init z e r0 0 z.nAnt)
  have hlen : ps.length = z.nAnt := by rw [h14, List.length_replicate]
  -- positions of the maxima
  have hex : ∀ a, ∃ j, a < z.nAnt → ∃ p, ps[a]? = some p ∧ LastMax (e.metric a) r0 z.smoothLen (r0 + z.stf) j ∧
      p.metric = smooth (e.metric a) r0 z.smoothLen j ∧ p.index + z.offset = j := by
    intro a
    by_cases ha : a < z.nAnt
    · obtain ⟨p, hp⟩ : ∃ p, ps[a]? = some p := ⟨ps[a], List.getElem?_eq_getElem (by omega)⟩
      have := h15 a p hp
      rw [Nat.zero_add] at this
      obtain ⟨j, hj⟩ := this.best (by omega)
      exact ⟨j, fun _ => ⟨p, hp, hj⟩⟩
    · exact ⟨0, fun h => absurd h ha⟩
  choose j hjj using hex
  have hmap : ps.map (fun p => (p.metric, p.index)) = (List.range z.nAnt).map fun a =>
      (smooth (e.metric a) r0 z.smoothLen (j a), j a - z.offset) := by
    apply List.ext_getElem
    · simp [hlen]
    · intro a ha1 ha2
      have ha : a < z.nAnt := by simpa using ha2
      obtain ⟨p, hp, _, hp1, hp2⟩ := hjj a ha
      have : ps[a]'(by omega) = p := by
        rw [List.getElem?_eq_getElem (by omega)] at hp; exact Option.some.inj hp
      simp only [List.getElem_map, List.getElem_range, this, hp1]
      congr 1; omega
  have hpb : ∀ p ∈ ps, 0 ≤ p.metric ∧ r0 + z.left * z.bos ≤ p.index ∧ p.index ≤ r0 + z.stf - 1 - z.offset := by
    intro p hp
    obtain ⟨a, ha⟩ := List.mem_iff_getElem?.1 hp
    have hlt : a < z.nAnt := by
      rw [← hlen]; exact (List.getElem?_eq_some_iff.1 ha).1
    obtain ⟨q, hq, hl, hq1, hq2⟩ := hjj a hlt
    have : q = p := by rw [ha] at hq; exact (Option.some.inj hq).symm
    subst this
    have hlow := index_lower z (e.metric a) (hm a) r0 z.stf f6 (j a) hl
    have hhi := hl.hi
    refine ⟨?_, by omega, by omega⟩
    rw [hq1, show j a = r0 + (j a - r0) by have := hl.lo; omega]
    exact smooth_nonneg _ (hm a) _ _ _
  -- the code
  have hsub1 : sub s.cntR z.jumpBack = .ok r0 := by unfold sub; rw [if_pos (by omega)]; congr 1; omega
  have hsub2 : sub r0 z.stf = .ok (r0 - z.stf) := by unfold sub; rw [if_pos (by omega)]
  have hn : (z.nPat - 1) * z.pattern + z.pattern = z.stf := by
    unfold Dim.stf
    rw [← Nat.succ_mul]
    congr 1; have := hz.nPat; omega
  have hinit : ∀ w t, t + z.stf ≤ w → initialMovsums z w t = .ok () := by
    intro w t ht
    unfold initialMovsums readRange
    rw [if_pos (by omega), if_pos (by omega), if_pos (by omega)]
    rfl
  have ha1 : decide (z.stf ≤ r0) = true := decide_eq_true (by omega)
  have ha2 : decide (r0 + z.stf ≤ z.searchLen + z.pattern + z.stf) = true := decide_eq_true (by omega)
  -- validity
  set vp := ps.filter (valid z m s.cntR) with hvp
  have hval : (fun p : Peak => valid z m s.cntR p) = (fun x : ℚ × Nat =>
      decide (m + z.thr < x.1) && decide ((s.cntR : Int) + z.d2p < (x.2 : Int))) ∘ (fun p : Peak => (p.metric, p.index)) := rfl
  have hvmap : vp.map (fun p => (p.metric, p.index)) = ((List.range z.nAnt).filter (Valid z e s.cntR m j)).map fun a =>
      (smooth (e.metric a) r0 z.smoothLen (j a), j a - z.offset) := by
    have h := congrArg (List.filter fun x : ℚ × Nat =>
      decide (m + z.thr < x.1) && decide ((s.cntR : Int) + z.d2p < (x.2 : Int))) hmap
    rw [List.filter_map, List.filter_map] at h
    rw [hvp]
    have e2 : Valid z e s.cntR m j = (fun x : ℚ × Nat =>
      decide (m + z.thr < x.1) && decide ((s.cntR : Int) + z.d2p < (x.2 : Int))) ∘ (fun a =>
      (smooth (e.metric a) r0 z.smoothLen (j a), j a - z.offset)) := by
      funext a
      simp only [Valid, Function.comp, hr0, Nat.add_sub_cancel]
    rw [e2]
    exact h
  have hvb : ∀ p ∈ vp, 0 ≤ p.metric ∧ r0 + z.left * z.bos ≤ p.index ∧ p.index ≤ r0 + z.stf - 1 - z.offset :=
    fun p hp => hpb p (List.mem_of_mem_filter hp)
  have hall : (vp.all (fun p => decide (p.metric ≤ 0)) = true) ↔
      ∀ a ∈ (List.range z.nAnt).filter (Valid z e s.cntR m j), smooth (e.metric a) r0 z.smoothLen (j a) ≤ 0 := by
    have h := congrArg (List.all · fun x : ℚ × Nat => decide (x.1 ≤ 0)) hvmap
    simp only [List.all_map] at h
    rw [show (vp.all fun p => decide (p.metric ≤ 0)) = _ from h, List.all_eq_true]
    simp only [Function.comp, decide_eq_true_eq]
  have hs1 : (vp.map fun p => p.metric) = ((List.range z.nAnt).filter (Valid z e s.cntR m j)).map fun a =>
      smooth (e.metric a) r0 z.smoothLen (j a) := by
    have h := congrArg (List.map Prod.fst) hvmap
    simpa only [List.map_map, Function.comp_def] using h
  have hs2 : (vp.map fun p => p.metric * (p.index : ℚ)) = ((List.range z.nAnt).filter (Valid z e s.cntR m j)).map fun a =>
      smooth (e.metric a) r0 z.smoothLen (j a) * ((j a - z.offset : Nat) : ℚ) := by
    have h := congrArg (List.map fun x : ℚ × Nat => x.1 * (x.2 : ℚ)) hvmap
    simpa only [List.map_map, Function.comp_def] using h
  have hlm : ∀ a < z.nAnt, LastMax (e.metric a) (s.cntR - z.pattern) z.smoothLen (s.cntR - z.pattern + z.stf) (j a) := by
    intro a ha
    obtain ⟨_, _, hl, _⟩ := hjj a ha
    rw [hr0, Nat.add_sub_cancel]
    exact hl
  have hpl : z.peakLen = z.stf := rfl
  rw [show r0 + 0 = r0 from rfl] at e1
  unfold peakSearch
  rw [hsub1]
  simp only [Res.ok_bind, ha1, Res.assert_true, hsub2, hinit s.w (r0 - z.stf) (by omega), hpl]
  rw [e1]
  simp only [Res.ok_bind]
  unfold validity
  dsimp only
  rw [← hvp]
  cases hva : vp.all (fun p => decide (p.metric ≤ 0)) with
  | true =>
    refine ⟨none, w, calls, ?_, h11, h13, ⟨j, hlm, ?_⟩, fun c hc => by cases hc⟩
    · simp only [if_true, Res.ok_bind, ha2, Res.assert_true, Res.pure_eq]
    · dsimp only
      rw [hr0, Nat.add_sub_cancel, ← hr0, if_pos (hall.1 hva)]
  | false =>
    obtain ⟨hb1, hb2⟩ := average_bounds vp _ _ hvb hva
    set t := ⌊(vp.map fun p => p.metric * (p.index : ℚ)).sum / (vp.map fun p => p.metric).sum + 1 / 2⌋₊ with ht
    have ha3 : decide (z.stf - 1 ≤ t) = true := decide_eq_true (by omega)
    refine ⟨some (t - (z.stf - 1)), w, calls, ?_, h11, h13, ⟨j, hlm, ?_⟩, ?_⟩
    · simp only [Bool.false_eq_true, if_false, Res.ok_bind, ha2, ha3, Res.assert_true, Res.pure_eq,
        hinit w (t - (z.stf - 1)) (by omega)]
    · dsimp only
      rw [hr0, Nat.add_sub_cancel, ← hr0, if_neg (fun h => by rw [hall.2 h] at hva; cases hva)]
      refine ⟨_, rfl, ?_⟩
      rw [← hs1, ← hs2, ← ht]
      omega
    · intro c hc
      cases hc
      omega

/-- What holds between two steps, after `n` of them -/
structure Inv (z : Dim) (n : Nat) (s : St) : Prop where
  r : s.cntR = z.pattern + n * z.step
  rw : s.cntR ≤ s.w
  w : s.w ≤ z.bufLen
  ig : z.stf + z.pattern ≤ s.ignore
  pk : ∀ c ∈ s.peaks, c + 2 * z.stf ≤ s.ignore ∧ z.left * z.bos < c ∧ c + z.pattern ≤ s.cntR
  ap : Apart (z.stf - z.pattern + z.left * z.bos) s.peaks

theorem detStep_ok (z : Dim) (hz : Sane z) (e : Env) (hm : ∀ a i, 0 ≤ e.metric a i) (n : Nat) (s : St) (h : Inv z n s)
    (hlt : s.cntR < z.searchLen) :
    ∃ s', detStep z e s = .ok s' ∧ Inv z (n + 1) s' ∧
      (if s.ignore ≤ s'.cntR then
        match e.det s'.cntR with
        | none => s'.peaks = s.peaks ∧ s'.ignore = s.ignore
        | some m => ∃ res, IsResult z e s'.cntR m res ∧ s'.peaks = s.peaks ++ res.toList ∧
            s'.ignore = (match res with | none => s.ignore | some c => c + 2 * z.stf)
      else s'.peaks = s.peaks ∧ s'.ignore = s.ignore) := by
  obtain ⟨f1, f2, f3, f4, f5, f6, f7⟩ := hz.facts
  have hbuf : z.bufLen = z.searchLen + z.pattern + z.stf := rfl
  have hr := h.r
  -- request
  obtain ⟨w, calls, e1, hw1, hw2, hw3⟩ : ∃ w calls,
      fetch z e s = .ok { s with w := w, calls := calls } ∧
      s.w ≤ w ∧ s.cntR + z.step ≤ w ∧ w ≤ z.bufLen := by
    unfold fetch
    split
    · rename_i hc
      rw [Bool.and_eq_true, decide_eq_true_eq] at hc
      exact ⟨s.w, s.calls, rfl, by omega, hc.2, h.w⟩
    · obtain ⟨w', ew, hw⟩ := request_ok z e s.calls s.w (s.cntR + z.step) (by omega) h.w
      exact ⟨w', s.calls + 1, by rw [ew]; rfl, hw⟩
  have hs1 : sub s.cntR z.pattern = .ok (s.cntR - z.pattern) := by unfold sub; rw [if_pos (by omega)]
  have hr1 : readRange w (s.cntR - z.pattern) (s.cntR - z.pattern + z.step) = .ok () := by unfold readRange; rw [if_pos (by omega)]
  have hr2 : readRange w s.cntR (s.cntR + z.step) = .ok () := by unfold readRange; rw [if_pos (by omega)]
  unfold detStep
  rw [e1]
  simp only [Res.ok_bind, hs1, hr1, hr2]
  have hnr : s.cntR + z.step = z.pattern + (n + 1) * z.step := by rw [Nat.succ_mul]; omega
  have hnone : Inv z (n + 1) { s with cntR := s.cntR + z.step, w := w, calls := calls, inLoop := true } :=
    ⟨hnr, hw2, hw3, h.ig, fun c hc => by have := h.pk c hc; refine ⟨this.1, this.2.1, ?_⟩; show _ ≤ s.cntR + z.step; omega, h.ap⟩
  by_cases hig : s.ignore ≤ s.cntR + z.step
  · simp only [if_pos hig]
    cases hdet : e.det (s.cntR + z.step) with
    | none =>
      refine ⟨_, rfl, hnone, ?_⟩
      dsimp only
      rw [if_pos hig, hdet]
      exact ⟨rfl, rfl⟩
    | some m =>
      have higs := h.ig
      obtain ⟨res, w', calls', e2, hw4, hw5, hres, hcb⟩ := peakSearch_ok z hz e hm
        { s with cntR := s.cntR + z.step, w := w, calls := calls } m (by dsimp only; omega) hw2 hw3 (by dsimp only; omega)
      dsimp only at e2 hw4 hw5 hres hcb ⊢
      rw [e2]
      simp only [Res.ok_bind]
      cases res with
      | none =>
        refine ⟨_, rfl, ⟨hnr, by dsimp only; omega, hw5, h.ig, hnone.pk, h.ap⟩, ?_⟩
        dsimp only
        rw [if_pos hig, hdet]
        exact ⟨none, hres, by simp, rfl⟩
      | some c =>
        obtain ⟨hc1, hc2⟩ := hcb c rfl
        have ha : decide (s.ignore < c + z.skip) = true := decide_eq_true (by unfold Dim.skip; omega)
        simp only [found, ha, Res.assert_true, Res.ok_bind, Res.pure_eq]
        refine ⟨_, rfl, ⟨hnr, by dsimp only; omega, hw5, ?_, ?_, ?_⟩, ?_⟩
        · dsimp only; unfold Dim.skip; omega
        · intro d hd
          dsimp only at hd ⊢
          unfold Dim.skip
          rw [List.mem_append, List.mem_singleton] at hd
          rcases hd with hd | rfl
          · have := h.pk d hd
            refine ⟨by omega, this.2.1, by omega⟩
          · refine ⟨by omega, by omega, by omega⟩
        · show Apart _ (s.peaks ++ [c])
          unfold Apart
          rw [List.pairwise_append]
          refine ⟨h.ap, by simp, ?_⟩
          intro a hain b hb
          rw [List.mem_singleton] at hb
          subst hb
          have := h.pk a hain
          omega
        · dsimp only
          rw [if_pos hig, hdet]
          exact ⟨some c, hres, by simp, rfl⟩
  · simp only [if_neg hig]
    exact ⟨_, rfl, hnone, by dsimp only; rw [if_neg hig]; exact ⟨rfl, rfl⟩⟩

theorem start_ok (z : Dim) (hz : Sane z) (e : Env) : ∃ s, start z e = .ok s ∧ Inv z 0 s ∧ s.peaks = [] ∧
    s.ignore = z.stf + z.pattern := by
  obtain ⟨f1, f2, f3, f4, f5, f6, f7⟩ := hz.facts
  have hbuf : z.bufLen = z.searchLen + z.pattern + z.stf := rfl
  obtain ⟨w, e1, _, h2, h3⟩ := request_ok z e 0 0 z.pattern (by omega) (by omega)
  have hr : readRange w 0 (0 + 4 * z.step) = .ok () := by unfold readRange; rw [if_pos (by omega)]
  have ha : decide (z.pattern ≤ w) = true := decide_eq_true h2
  have hst : z.searchStart = z.stf + z.pattern := by unfold Dim.searchStart Dim.jumpBack; omega
  unfold start
  rw [e1]
  simp only [Res.ok_bind, ha, Res.assert_true, hr, Res.pure_eq]
  exact ⟨_, rfl, ⟨by show z.pattern = _; omega, h2, h3, by rw [hst], by simp, List.Pairwise.nil⟩, rfl, hst⟩

/-- Whole chunk, up to `n` steps of the detection -/
def chunk (z : Dim) (e : Env) (n : Nat) : Res St := do run z e n (← start z e)

/-- Number of steps after which the search length is covered -/
def nofSteps (z : Dim) : Nat := (z.searchLen - z.pattern + z.step - 1) / z.step

theorem run_ok (z : Dim) (hz : Sane z) (e : Env) (hm : ∀ a i, 0 ≤ e.metric a i) (n : Nat) : ∀ (k : Nat) (s : St),
    Inv z k s → (k = 0 ∨ z.pattern + (k - 1) * z.step < z.searchLen) →
    ∃ s' k', run z e n s = .ok s' ∧ Inv z k' s' ∧ k ≤ k' ∧ k' ≤ k + n ∧
      (k' = 0 ∨ z.pattern + (k' - 1) * z.step < z.searchLen) ∧ (k' < k + n → z.searchLen ≤ s'.cntR) := by
  induction n with
  | zero => intro k s h hk; exact ⟨s, k, rfl, h, le_refl _, by omega, hk, fun h => by omega⟩
  | succ n ih =>
    intro k s h hk
    unfold run
    by_cases hlt : s.cntR < z.searchLen
    · rw [if_pos hlt]
      obtain ⟨s1, e1, h1, _⟩ := detStep_ok z hz e hm k s h hlt
      rw [e1, Res.ok_bind]
      obtain ⟨s2, k2, e2, h2, h3, h4, h5, h6⟩ := ih (k + 1) s1 h1 (Or.inr (by
        rw [Nat.add_sub_cancel, ← h.r]; exact hlt))
      exact ⟨s2, k2, e2, h2, by omega, by omega, h5, fun hh => h6 (by omega)⟩
    · rw [if_neg hlt]
      exact ⟨s, k, rfl, h, le_refl _, by omega, hk, fun _ => by omega⟩

/-- For every signal, every number of steps and every timing of the pacer: no assertion fails, no sample is read that has
not been written, no more samples are requested than the buffer holds, and no index becomes negative. -/
theorem C65_safe (z : Dim) (hz : Sane z) (e : Env) (hm : ∀ a i, 0 ≤ e.metric a i) (n : Nat) :
    ∃ s, chunk z e n = .ok s := by
  obtain ⟨s0, e0, h0, _⟩ := start_ok z hz e
  obtain ⟨s, _, e1, _⟩ := run_ok z hz e hm n 0 s0 h0 (Or.inl rfl)
  exact ⟨s, by unfold chunk; rw [e0, Res.ok_bind, e1]⟩

/-- Reports of one chunk are in order and more than the length of the STF less one pattern apart. Each lies within the
chunk and its overlap, behind the first sample, and is reported when a whole pattern behind its beginning has been read. -/
theorem C65_reports (z : Dim) (hz : Sane z) (e : Env) (hm : ∀ a i, 0 ≤ e.metric a i) (n : Nat) (s : St)
    (h : chunk z e n = .ok s) :
    Apart (z.stf - z.pattern + z.left * z.bos) s.peaks ∧
      ∀ c ∈ s.peaks, z.left * z.bos < c ∧ c + z.pattern ≤ s.cntR ∧ c + z.pattern < z.searchLen + z.step := by
  obtain ⟨s0, e0, h0, _⟩ := start_ok z hz e
  obtain ⟨s', k', e1, h1, _, _, h5, _⟩ := run_ok z hz e hm n 0 s0 h0 (Or.inl rfl)
  unfold chunk at h
  rw [e0, Res.ok_bind, e1] at h
  cases h
  refine ⟨h1.ap, fun c hc => ?_⟩
  have := h1.pk c hc
  refine ⟨this.2.1, this.2.2, ?_⟩
  have hr := h1.r
  obtain ⟨f1, f2, f3, f4, f5, f6, f7⟩ := hz.facts
  have hs : z.searchLen = z.lenA + 4 * z.stf := rfl
  rcases h5 with rfl | h5
  · omega
  · rcases Nat.eq_zero_or_pos k' with hk | hk
    · subst hk; omega
    · have : (k' - 1) * z.step + z.step = k' * z.step := by
        rw [← Nat.succ_mul]; congr 1; omega
      omega

/-- The read index after `n` steps, and the end of the search: exactly when the search length is covered. -/
theorem C65_end (z : Dim) (hz : Sane z) (e : Env) (hm : ∀ a i, 0 ≤ e.metric a i) (n : Nat) (s : St)
    (h : chunk z e n = .ok s) :
    s.cntR = z.pattern + min n (nofSteps z) * z.step ∧ (z.searchLen ≤ s.cntR ↔ nofSteps z ≤ n) := by
  obtain ⟨s0, e0, h0, _⟩ := start_ok z hz e
  obtain ⟨s', k', e1, h1, _, h4, h5, h6⟩ := run_ok z hz e hm n 0 s0 h0 (Or.inl rfl)
  unfold chunk at h
  rw [e0, Res.ok_bind, e1] at h
  cases h
  obtain ⟨f1, f2, f3, f4, f5, f6, f7⟩ := hz.facts
  have hs : z.searchLen = z.lenA + 4 * z.stf := rfl
  have hN : ∀ i, z.searchLen ≤ z.pattern + i * z.step ↔ nofSteps z ≤ i := by
    intro i
    unfold nofSteps
    rw [Nat.div_le_iff_le_mul_add_pred f1, Nat.mul_comm]
    omega
  have hr := h1.r
  rw [Nat.zero_add] at h4 h6
  have hk1 : k' = 0 ∨ k' - 1 < nofSteps z := by
    rcases h5 with h5 | h5
    · exact Or.inl h5
    · right
      by_contra hc
      have := (hN (k' - 1)).2 (by omega)
      omega
  have hk2 : k' < n → nofSteps z ≤ k' := fun hh => (hN k').1 (by have := h6 hh; omega)
  have hk : k' = min n (nofSteps z) := by
    have : nofSteps z ≠ 0 := by
      intro h0
      have := (hN 0).2 (by omega)
      omega
    omega
  refine ⟨by rw [hr, hk], ?_⟩
  rw [hr, hN k', hk]
  omega

/-- A step that follows reports a packet exactly if detections are not being ignored at its position, the signal leads to
a detection there, and some antenna has a valid peak; and the report is the weighted position of the last maxima of the
smoothed metric. After it, detections are ignored for two STFs from the beginning of the STF. -/
theorem C65_step (z : Dim) (hz : Sane z) (e : Env) (hm : ∀ a i, 0 ≤ e.metric a i) (n : Nat) (s : St)
    (h : chunk z e n = .ok s) (hlt : s.cntR < z.searchLen) :
    ∃ s', chunk z e (n + 1) = .ok s' ∧ s'.cntR = s.cntR + z.step ∧
      (if s.ignore ≤ s'.cntR then
        match e.det s'.cntR with
        | none => s'.peaks = s.peaks ∧ s'.ignore = s.ignore
        | some m => ∃ res, IsResult z e s'.cntR m res ∧ s'.peaks = s.peaks ++ res.toList ∧
            s'.ignore = (match res with | none => s.ignore | some c => c + 2 * z.stf)
      else s'.peaks = s.peaks ∧ s'.ignore = s.ignore) := by
  have hrun : ∀ n s0 s, run z e n s0 = .ok s → s.cntR < z.searchLen → run z e (n + 1) s0 = detStep z e s := by
    intro n
    induction n with
    | zero =>
      intro s0 s hh hl
      have : s0 = s := by simpa [run] using hh
      subst this
      unfold run
      rw [if_pos hl]
      cases detStep z e s0 <;> rfl
    | succ n ih =>
      intro s0 s hh hl
      unfold run at hh
      by_cases h0 : s0.cntR < z.searchLen
      · rw [if_pos h0] at hh
        unfold run
        rw [if_pos h0]
        obtain ⟨s1, e1, e2⟩ := Res.bind_eq_ok.1 hh
        rw [e1, Res.ok_bind]
        exact ih s1 s e2 hl
      · rw [if_neg h0] at hh
        cases hh
        exact absurd hl h0
  obtain ⟨s0, e0, h0, _⟩ := start_ok z hz e
  obtain ⟨s1, k', e1, h1, _⟩ := run_ok z hz e hm n 0 s0 h0 (Or.inl rfl)
  unfold chunk at h ⊢
  rw [e0, Res.ok_bind] at h
  rw [e0, Res.ok_bind, hrun n s0 s h hlt]
  rw [e1] at h
  cases h
  obtain ⟨s', e2, h2, h3⟩ := detStep_ok z hz e hm k' s h1 hlt
  refine ⟨s', e2, ?_, h3⟩
  rw [h2.r, h1.r, Nat.succ_mul]
  omega

/-- A chunk of 100 samples: detections at 160 (leads to a report), 200 (ignored), 320 (without a valid peak) and 400
(leads to a report). -/
def exDim : Dim := ⟨7, 1, 100, 2, 1, 1, -1 / 4, -33⟩

def exEnv : Env where
  pace n := 20 * n
  det t := if t = 160 ∨ t = 200 ∨ t = 320 then some (1 / 2) else if t = 400 then some (1 / 5) else none
  metric a i := if i = 200 + a * 4 then 1 else 1 / 4

theorem C65_example : Sane exDim ∧ (∀ a i, 0 ≤ exEnv.metric a i) ∧
    (do let s ← chunk exDim exEnv 1000; pure (s.peaks, s.cntR)) = Res.ok ([92, 383], 548) := by
  refine ⟨⟨by decide, by decide, by decide⟩, ?_, by decide +kernel⟩
  intro a i
  unfold exEnv
  dsimp only
  split <;> norm_num

/-- The earliest detection possible, with a metric that decreases from the beginning of the search on -/
theorem C65_earliest_example : (do
    let s ← chunk exDim ⟨fun n => 20 * n, fun t => if t = 128 then some (1 / 5) else none,
      fun _ i => if i ≤ 114 then 1 else 1 / 4⟩ 1000
    pure s.peaks) = Res.ok [2] := by decide +kernel

end Verif.Props.C65
