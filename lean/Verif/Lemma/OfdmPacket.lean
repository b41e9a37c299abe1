import Verif.Lemma.OfdmSymbol

/-! All antennas, the STF, sequences of OFDM symbols, dimensions -/

namespace Verif.Phy.Ofdm
open Spec Verif.Sp3 Verif.Sp3.Cells

variable {F : Type} [Field F]

theorem mapM_ok {α β : Type} (l : List α) (f : α → Res β) (P : Nat → β → Prop)
    (h : ∀ i (hi : i < l.length), ∃ y, f l[i] = .ok y ∧ P i y) :
    ∃ ys, l.mapM f = .ok ys ∧ ys.length = l.length ∧ ∀ i (hi : i < ys.length), P i ys[i] := by
  induction l generalizing P with
  | nil => exact ⟨[], rfl, rfl, fun i hi => absurd hi (by simp)⟩
  | cons a l ih =>
    obtain ⟨y, hy, py⟩ := h 0 (by simp)
    obtain ⟨ys, hys, hl, hp⟩ := ih (fun i => P (i + 1)) (fun i hi => h (i + 1) (by simpa using hi))
    refine ⟨y :: ys, ?_, by simp [hl], fun i hi => ?_⟩
    · rw [List.mapM_cons]
      simp only [List.getElem_cons_zero] at hy
      rw [hy, Res.ok_bind, hys, Res.ok_bind]; rfl
    · cases i with
      | zero => exact py
      | succ i => exact hp i (by simpa using hi)

variable [DecidableEq F]

/-- The conclusion for all antennas from that of one -/
theorem txSymbol_lift (copy : List F → Nat → Nat → Nat → Res (List F)) {d : Dims} (g : Good d) (ω scale : F) (W : List F)
    (nTs nTx n cp : Nat) (ts stage : List (List F)) (hn : n ≤ nTs) (hl : n ≤ ts.length) (hts : ∀ t ∈ ts, d.occ + 1 ≤ t.length)
    (hW : W.length = nTx * nTs) (hst : stage.length = nTx) (P : Nat → List F → Prop)
    (one : ∀ a (ha : a < stage.length) (ant : List F), ant.length = d.os →
      (∀ k, k < d.os → ant.getD k 0 = bin d (precoded W nTs n ts a) k) → ∃ r, ifftCpScale copy ω scale d cp ant stage[a] = .ok r ∧ P a r) :
    ∃ r, txSymbol copy ω scale d W nTs nTx n cp ts stage = .ok r ∧ r.length = nTx ∧ ∀ a (ha : a < r.length), P a r[a] := by
  obtain ⟨ants, h1, h2, h3⟩ := beamform_ok g W nTs nTx n ts hn hl hts hW
  rw [txSymbol, h1, Res.ok_bind]
  obtain ⟨ys, h4, h5, h6⟩ := mapM_ok (List.range nTx) (fun a => (do
    let x ← at? ants a
    let out ← at? stage a
    ifftCpScale copy ω scale d cp x out : Res (List F))) P (fun i hi => by
      rw [List.length_range] at hi
      rw [List.getElem_range]
      rw [at?_ok ants i (by omega), Res.ok_bind, at?_ok stage i (by omega), Res.ok_bind]
      exact one i (by omega) ants[i] (h3 i (by omega)).1 (h3 i (by omega)).2)
  exact ⟨ys, h4, by rw [h5, List.length_range], h6⟩

omit [DecidableEq F] in
theorem cover_ok (u len : Nat) (l : List F) (n : Nat) (hn : n ≤ 9) (hl : l.length = nPattern u * len) (hnu : n ≤ nPattern u) :
    ∃ r, (List.range n).foldlM (coverStep len) l = .ok r ∧ r.length = l.length ∧
      ∀ i, r.getD i 0 = if i < n * len then l.getD i 0 * ((cover.getD (i / len) 1 : Int) : F) else l.getD i 0 := by
  induction n with
  | zero => exact ⟨l, rfl, rfl, fun i => by rw [Nat.zero_mul, if_neg (by omega)]⟩
  | succ n ih =>
    obtain ⟨r, h1, h2, h3⟩ := ih (by omega) (by omega)
    have hmul : (n + 1) * len ≤ nPattern u * len := Nat.mul_le_mul_right _ hnu
    have hs : (n + 1) * len = n * len + len := by ring
    rw [List.range_succ, List.foldlM_append, h1, Res.ok_bind, List.foldlM_cons, coverStep]
    by_cases c : cover.getD n 1 = 1
    · refine ⟨r, by rw [if_pos c]; rfl, h2, fun i => ?_⟩
      rw [h3]
      by_cases a : i < n * len
      · rw [if_pos a, if_pos (by omega)]
      · rw [if_neg a]
        by_cases b : i < (n + 1) * len
        · have hd : i / len = n := by
            have : 0 < len := by
              rcases Nat.eq_zero_or_pos len with e | e
              · subst e; omega
              · exact e
            rw [Nat.div_eq_iff this]; constructor <;> omega
          rw [if_pos b, hd, c]; simp
        · rw [if_neg b]
    · obtain ⟨q, h4, h5, h6⟩ := scaleAt_ok r (n * len) len ((cover.getD n 1 : Int) : F) (by omega)
      refine ⟨q, by rw [if_neg c, h4]; rfl, by omega, fun i => ?_⟩
      rw [h6, h3]
      by_cases a : i < n * len
      · rw [if_neg (by omega), if_pos a, if_pos (by omega)]
      · by_cases b : i < (n + 1) * len
        · have hd : i / len = n := by
            have : 0 < len := by
              rcases Nat.eq_zero_or_pos len with e | e
              · subst e; omega
              · exact e
            rw [Nat.div_eq_iff this]; constructor <;> omega
          rw [if_pos (by omega), if_neg a, if_pos b, hd]
        · rw [if_neg (by omega), if_neg a, if_neg b]

omit [DecidableEq F] in
theorem applyCover_ok (u len : Nat) (l : List F) (hl : l.length = nPattern u * len) :
    ∃ r, applyCover u len l = .ok r ∧ r.length = l.length ∧
      ∀ i, i < l.length → r.getD i 0 = l.getD i 0 * ((cover.getD (i / len) 1 : Int) : F) := by
  have h9 : nPattern u ≤ 9 := by rw [nPattern]; split <;> omega
  obtain ⟨r, h1, h2, h3⟩ := cover_ok u len l (nPattern u) h9 hl le_rfl
  exact ⟨r, h1, h2, fun i hi => by rw [h3, if_pos (by omega)]⟩

theorem cover_sq (p : Nat) : cover.getD p 1 * cover.getD p 1 = 1 := by
  rcases Nat.lt_or_ge p 9 with h | h
  · revert p; decide +kernel
  · rw [List.getD_eq_getElem?_getD, List.getElem?_eq_none (by simpa [cover] using h)]; rfl

/-! ### Subcarriers of the STF -/

theorem kOcc_getD (n j : Nat) (hj : j < n / 2 + n / 2) :
    (kOcc n).getD j 0 = if j < n / 2 then (j : Int) - (n / 2 : Nat) else (j : Int) - (n / 2 : Nat) + 1 := by
  have h := getD_append ((List.range (n / 2)).map (fun i : Nat => (i : Int) - (n / 2 : Nat)))
    ((List.range (n / 2)).map (fun i : Nat => (i : Int) + 1)) j
  rw [List.length_map, List.length_range] at h
  rw [kOcc, h]
  by_cases a : j < n / 2
  · rw [if_pos a, if_pos a, List.getD_eq_getElem?_getD, List.getElem?_map, List.getElem?_range a]; rfl
  · rw [if_neg a, if_neg a, List.getD_eq_getElem?_getD, List.getElem?_map, List.getElem?_range (by omega)]
    simp only [Option.map_some, Option.getD_some]; omega

theorem stfK_getD (b i : Nat) (hi : i < 14 * b) :
    ((stfK (56 * b)).getD i 0 + (56 * b / 2 : Nat)).toNat = if i < 7 * b then 4 * i else 4 * i + 4 := by
  have h1 : 56 * b / 8 = 7 * b := by omega
  have h2 : 56 * b / 4 = 14 * b := by omega
  have h3 : 56 * b / 2 = 28 * b := by omega
  have h := getD_append ((List.range (7 * b)).map (fun i => (kOcc (56 * b)).getD (i * 4) 0))
    ((List.range (14 * b - 7 * b)).map (fun i => (kOcc (56 * b)).getD (28 * b + 3 + i * 4) 0)) i
  rw [List.length_map, List.length_range] at h
  rw [stfK, h1, h2, h3, h]
  by_cases a : i < 7 * b
  · rw [if_pos a, if_pos a, List.getD_eq_getElem?_getD, List.getElem?_map, List.getElem?_range a]
    simp only [Option.map_some, Option.getD_some]
    rw [kOcc_getD _ _ (by omega), if_pos (by omega)]; omega
  · rw [if_neg a, if_neg a, List.getD_eq_getElem?_getD, List.getElem?_map, List.getElem?_range (by omega)]
    simp only [Option.map_some, Option.getD_some]
    rw [kOcc_getD _ _ (by omega), if_neg (by omega)]; omega

omit [DecidableEq F] in
theorem getD_set (l : List F) (i j : Nat) (a : F) : (l.set i a).getD j 0 = if i = j ∧ j < l.length then a else l.getD j 0 := by
  simp only [List.getD_eq_getElem?_getD, List.getElem?_set]
  by_cases e : i = j
  · subst e
    by_cases h : i < l.length
    · simp [h]
    · simp [h]
  · simp [e]

omit [DecidableEq F] in
theorem stfFilled_getD (b : Nat) (y : List F) (s : Nat) (hs : s < 56 * b + 1) :
    (stfFilled (56 * b) y).getD s 0 = if 4 ∣ s ∧ s ≠ 28 * b then y.getD (if s < 28 * b then s / 4 else s / 4 - 1) 0 else 0 := by
  obtain ⟨I, hI⟩ : ∃ I, I = if s < 28 * b then s / 4 else s / 4 - 1 := ⟨_, rfl⟩
  rw [← hI]
  have idx : ∀ m, m < 14 * b → ((if m < 7 * b then 4 * m else 4 * m + 4) = s ↔ (4 ∣ s ∧ s ≠ 28 * b) ∧ I = m) := by
    intro m hm
    by_cases a : m < 7 * b
    · rw [if_pos a]
      constructor
      · intro e; exact ⟨⟨⟨m, e.symm⟩, by omega⟩, by rw [hI, if_pos (by omega)]; omega⟩
      · rintro ⟨⟨⟨q, rfl⟩, c⟩, e⟩
        split at hI <;> omega
    · rw [if_neg a]
      constructor
      · intro e; exact ⟨⟨⟨m + 1, by omega⟩, by omega⟩, by rw [hI, if_neg (by omega)]; omega⟩
      · rintro ⟨⟨⟨q, rfl⟩, c⟩, e⟩
        split at hI <;> omega
  have key : ∀ m, m ≤ 14 * b →
      ((List.range m).foldl (fun r i => r.set (((stfK (56 * b)).getD i 0 + (56 * b / 2 : Nat)).toNat) (y.getD i 0))
        (List.replicate (56 * b + 1) 0)).length = 56 * b + 1 ∧
      ((List.range m).foldl (fun r i => r.set (((stfK (56 * b)).getD i 0 + (56 * b / 2 : Nat)).toNat) (y.getD i 0))
        (List.replicate (56 * b + 1) 0)).getD s 0 = if (4 ∣ s ∧ s ≠ 28 * b) ∧ I < m then y.getD I 0 else 0 := by
    intro m
    induction m with
    | zero =>
      intro _
      refine ⟨by simp, ?_⟩
      rw [if_neg (by omega), List.range_zero, List.foldl_nil, List.getD_eq_getElem?_getD, List.getElem?_replicate]
      split <;> rfl
    | succ m ih =>
      intro hm
      obtain ⟨h1, h2⟩ := ih (by omega)
      rw [List.range_succ, List.foldl_append, List.foldl_cons, List.foldl_nil]
      refine ⟨by rw [List.length_set, h1], ?_⟩
      rw [getD_set, h1, h2, stfK_getD b m (by omega)]
      have ix := idx m (by omega)
      by_cases c : 4 ∣ s ∧ s ≠ 28 * b
      · by_cases e : I = m
        · rw [if_pos ⟨ix.mpr ⟨c, e⟩, hs⟩, if_pos ⟨c, by omega⟩, e]
        · rw [if_neg (fun h => e (ix.mp h.1).2)]
          by_cases f : I < m
          · rw [if_pos ⟨c, f⟩, if_pos ⟨c, by omega⟩]
          · rw [if_neg (fun h => f h.2), if_neg (fun h => f (by have := h.2; omega))]
      · rw [if_neg (fun h => c (ix.mp h.1).1), if_neg (fun h => c h.1), if_neg (fun h => c h.1)]
  have h2 : 56 * b / 4 = 14 * b := by omega
  rw [stfFilled, h2, (key (14 * b) le_rfl).2]
  by_cases c : 4 ∣ s ∧ s ≠ 28 * b
  · have : I < 14 * b := by
      obtain ⟨⟨q, rfl⟩, c2⟩ := c
      split at hI <;> omega
    rw [if_pos c, if_pos ⟨c, this⟩]
  · rw [if_neg c, if_neg (fun h => c h.1)]

omit [DecidableEq F] in
theorem stfFilled_length (b : Nat) (y : List F) : (stfFilled (56 * b) y).length = 56 * b + 1 := by
  have : ∀ (l : List Nat) (r : List F), (l.foldl (fun r i => r.set (((stfK (56 * b)).getD i 0 + (56 * b / 2 : Nat)).toNat) (y.getD i 0)) r).length
      = r.length := by
    intro l
    induction l with
    | nil => intro r; rfl
    | cons a l ih => intro r; rw [List.foldl_cons, ih, List.length_set]
  rw [stfFilled, this, List.length_replicate]

/-! ### Sequence of OFDM symbols -/

omit [DecidableEq F] in
theorem rxSymbols_ok (ω scale : F) (d : Dims) (L : Nat) (r : List F) (hr : L * (d.cp + d.os) ≤ r.length) (P : Nat → List F → Prop)
    (h : ∀ l, l < L → ∀ v : List F, v.length = d.cp + d.os → (∀ j, j < d.cp + d.os → v.getD j 0 = r.getD (l * (d.cp + d.os) + j) 0) →
      ∃ x, rxSymbol ω scale d d.cp v = .ok x ∧ P l x) :
    ∃ xs, rxSymbols ω scale d L r = .ok xs ∧ xs.length = L ∧ ∀ l (hl : l < xs.length), P l xs[l] := by
  induction L generalizing r P with
  | zero => exact ⟨[], rfl, rfl, fun l hl => absurd hl (by simp)⟩
  | succ L ih =>
    have hm : (L + 1) * (d.cp + d.os) = L * (d.cp + d.os) + (d.cp + d.os) := by ring
    have h1 := slice_ok r 0 (d.cp + d.os) (by omega)
    have l1 := slice_length h1
    obtain ⟨x, hx, px⟩ := h 0 (by omega) _ l1 (fun j hj => by rw [slice_getD h1, if_pos hj, Nat.zero_mul])
    obtain ⟨xs, hxs, hl, hp⟩ := ih (r.drop (d.cp + d.os)) (by rw [List.length_drop]; omega) (fun l => P (l + 1)) (fun l hl v hv hg =>
      h (l + 1) (by omega) v hv (fun j hj => by
        rw [hg j hj, getD_drop]; congr 1; ring))
    refine ⟨x :: xs, ?_, by simp [hl], fun l hl' => ?_⟩
    · rw [rxSymbols, nextSymbol, h1, Res.ok_bind, Res.ok_bind]
      dsimp only
      rw [hx, Res.ok_bind, hxs, Res.ok_bind]
    · cases l with
      | zero => exact px
      | succ l => exact hp l (by simpa using hl')

/-! ### Dimensions -/

theorem rate_div (uMax bMax k u : Nat) (hu : 0 < u) (h : u ∣ uMax) :
    spacing * 64 * uMax * bMax * k / (spacing * u) = 64 * bMax * k * (uMax / u) ∧ spacing * 64 * uMax * bMax * k % (spacing * u) = 0 := by
  obtain ⟨m, rfl⟩ := h
  have e : spacing * 64 * (u * m) * bMax * k = spacing * u * (64 * bMax * k * m) := by ring
  have hp : 0 < spacing * u := by rw [spacing]; omega
  rw [e, Nat.mul_div_cancel_left _ hp, Nat.mul_mod_right, Nat.mul_div_cancel_left _ hu]
  exact ⟨rfl, rfl⟩

theorem lut_b (b : Nat) (h : bOk b = true) : dft b = 64 * b ∧ occ b = 56 * b ∧ guardsBottom b = 4 * b ∧ 0 < b ∧ b ≤ 16 := by
  simp only [bOk, Bool.or_eq_true, beq_iff_eq] at h
  rcases h with ((((h | h) | h) | h) | h) | h <;> subst h <;> decide

theorem u_dvd (u uMax : Nat) (h : uOk u = true) (h' : uOk uMax = true) (hle : u ≤ uMax) : u ∣ uMax ∧ 0 < u := by
  simp only [uOk, Bool.or_eq_true, beq_iff_eq] at h h'
  rcases h with ((h | h) | h) | h <;> rcases h' with ((h' | h') | h') | h' <;> subst h <;> subst h' <;>
    first | omega | (exact ⟨by decide, by decide⟩)

theorem stfCp_eq (u b : Nat) (h : uOk u = true) (hb : 0 < b) : nSamplesStfCp u b = if u = 1 then 48 * b else 80 * b := by
  simp only [uOk, Bool.or_eq_true, beq_iff_eq] at h
  rcases h with ((h | h) | h) | h <;> subst h <;> simp [nSamplesStfCp, nSamplesStf] <;> omega

theorem sub32_eq (a b : Nat) (h : b ≤ a) (h2 : a < 4294967296) : sub32 a b = a - b := by rw [sub32]; omega

theorem txDims_ok (uMax bMax k u b : Nat) (hu : uOk u = true) (huM : uOk uMax = true) (hle : u ≤ uMax) (hb : bOk b = true) (hbM : b ≤ bMax)
    (hs : 64 * bMax * k * (uMax / u) ∈ fftSizes) :
    txDims (spacing * 64 * uMax * bMax * k) uMax bMax u b = .ok ⟨56 * b, 64 * bMax * k * (uMax / u), 64 * bMax * k * (uMax / u) - 28 * b,
      64 * bMax * k * (uMax / u) / 8, 64 * bMax * k * (uMax / u) / 4 * (if u = 1 then 3 else 5)⟩ ∧
    64 * b ≤ 64 * bMax * k * (uMax / u) ∧ 64 * bMax * k * (uMax / u) % 64 = 0 := by
  obtain ⟨hd, hu0⟩ := u_dvd u uMax hu huM hle
  obtain ⟨r1, r2⟩ := rate_div uMax bMax k u hu0 hd
  obtain ⟨b1, b2, b3, b4, b5⟩ := lut_b b hb
  have hm : 64 * bMax * k * (uMax / u) = 64 * (bMax * k * (uMax / u)) := by ring
  set m := bMax * k * (uMax / u) with hmdef
  have hpos : 0 < m := by
    rcases Nat.eq_zero_or_pos m with e | e
    · rw [hm, e] at hs; exact absurd hs (by decide)
    · exact e
  have hge : b ≤ m := by
    have h1 : 0 < k * (uMax / u) := by
      rcases Nat.eq_zero_or_pos (k * (uMax / u)) with e | e
      · rw [hmdef, Nat.mul_assoc, e] at hpos; omega
      · exact e
    calc b ≤ bMax := hbM
      _ = bMax * 1 := by ring
      _ ≤ bMax * (k * (uMax / u)) := Nat.mul_le_mul_left _ h1
      _ = m := by rw [hmdef, Nat.mul_assoc]
  have hlt : 64 * m ≤ 16384 := by
    rw [hm] at hs
    have : ∀ x ∈ fftSizes, x ≤ 16384 := by decide
    exact this _ hs
  have s1 : sub32 (64 * m) (64 * b) = 64 * m - 64 * b := sub32_eq _ _ (by omega) (by omega)
  have d1 : 8 * b * (64 * m) / (64 * b) = 8 * m := by
    rw [show 8 * b * (64 * m) = 64 * b * (8 * m) by ring, Nat.mul_div_cancel_left _ (by omega)]
  have d2 : 8 * b * (64 * m) % (64 * b) = 0 := by
    rw [show 8 * b * (64 * m) = 64 * b * (8 * m) by ring, Nat.mul_mod_right]
  have d3 : nSamplesStfCp u b * (64 * m) / (64 * b) = 64 * m / 4 * (if u = 1 then 3 else 5) := by
    rw [stfCp_eq u b hu b4]
    split
    · rw [show 48 * b * (64 * m) = 64 * b * (48 * m) by ring, Nat.mul_div_cancel_left _ (by omega)]; omega
    · rw [show 80 * b * (64 * m) = 64 * b * (80 * m) by ring, Nat.mul_div_cancel_left _ (by omega)]; omega
  have d4 : nSamplesStfCp u b * (64 * m) % (64 * b) = 0 := by
    rw [stfCp_eq u b hu b4]
    split
    · rw [show 48 * b * (64 * m) = 64 * b * (48 * m) by ring, Nat.mul_mod_right]
    · rw [show 80 * b * (64 * m) = 64 * b * (80 * m) by ring, Nat.mul_mod_right]
  refine ⟨?_, by omega, by omega⟩
  rw [txDims, decide_eq_true hle, Res.assert_true, Res.ok_bind, r1, r2, decide_eq_true rfl, Res.assert_true, Res.ok_bind]
  dsimp only
  rw [decide_eq_true hs, Res.assert_true, Res.ok_bind, decide_eq_true hbM, Res.assert_true, Res.ok_bind, b1, b2, b3, hm, s1,
    decide_eq_true (by omega), Res.assert_true, Res.ok_bind, d4, decide_eq_true rfl, Res.assert_true, Res.ok_bind, d2, decide_eq_true rfl,
    Res.assert_true, Res.ok_bind, d1, d3, subcOffset, s1]
  congr 2 <;> omega

/-- What follows from an accepted configuration -/
theorem dims_good (uMax bMax k u b : Nat) (hu : uOk u = true) (huM : uOk uMax = true) (hb : bOk b = true) {d : Dims}
    (h : txDims (spacing * 64 * uMax * bMax * k) uMax bMax u b = .ok d) :
    Good d ∧ d.occ = 56 * b ∧ d.os % 64 = 0 ∧ 64 * b ≤ d.os ∧ d.cp = d.os / 8 ∧ d.stfCp = d.os / 4 * (if u = 1 then 3 else 5) := by
  have h' := h
  simp only [txDims, Res.bind_eq_ok, Res.assert_eq_ok, decide_eq_true_eq, exists_and_left, exists_const] at h'
  obtain ⟨hle, hr, hs, hbM, -⟩ := h'
  obtain ⟨hd, hu0⟩ := u_dvd u uMax hu huM hle
  obtain ⟨r1, r2⟩ := rate_div uMax bMax k u hu0 hd
  rw [r1] at hs
  obtain ⟨b1, b2, b3, b4, b5⟩ := lut_b b hb
  obtain ⟨e, e1, e2⟩ := txDims_ok uMax bMax k u b hu huM hle hb hbM hs
  rw [e] at h
  injection h with h
  rw [← h]
  refine ⟨⟨?_, ?_, ?_⟩, rfl, e2, e1, rfl, rfl⟩ <;> dsimp only <;> omega

end Verif.Phy.Ofdm
