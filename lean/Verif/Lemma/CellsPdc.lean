import Verif.Lemma.CellsPcc

/-!
# PDC cells
-/

set_option linter.unusedSimpArgs false

namespace Verif.Sp3.Cells

open Spec

/-- Symbol of a linear index -/
abbrev symb (b x : Nat) : Nat := x / (64 * b)

/-- Number of PCC cells of symbol `l` -/
def pccCount (b : Nat) (L : List Nat) (l : Nat) : Nat := (L.filter fun x => decide (x / (64 * b) = l)).length

structure PccOk (b nTs : Nat) (L : List Nat) : Prop where
  len : L.length = 98
  sorted : L.Pairwise (· < ·)
  cell : ∀ x ∈ L, ∃ l p, 1 ≤ l ∧ l ≤ L.getLastD 0 / (64 * b) ∧ l ≤ 5 ∧ p < 56 * b ∧ x = l * (64 * b) + (4 * b + subc b p) ∧ drsPat nTs l p = false
  before : ((List.range' 1 (L.getLastD 0 / (64 * b) - 1)).map (freeCount b nTs)).sum < 98
  odd : ∀ l < 6, pccCount b L l + 1 ≠ freeCount b nTs l

theorem pcc_ok {b nTs : Nat} (hb : bOk b = true) (h : TsOk nTs) : ∃ L, pccLinear b nTs = .ok L ∧ PccOk b nTs L := by
  obtain ⟨-, -, -, -, hpos⟩ := luts hb
  have hg : pccGood b nTs (pccLinear b nTs) = true := by
    rw [pccLinear_eq hb h]
    refine pccGood_all b ?_ nTs ?_
    · rcases b_cases hb with rfl | rfl | rfl | rfl | rfl | rfl <;> decide
    · rcases h with rfl | rfl | rfl | rfl <;> decide
  generalize pccLinear b nTs = r at hg
  cases r with
  | abort => cases hg
  | ub => cases hg
  | ok L =>
    refine ⟨L, rfl, ?_⟩
    unfold pccGood at hg
    simp only [decide_eq_true_eq] at hg
    obtain ⟨h1, h2, h3, h4, h5, h6⟩ := hg
    refine ⟨h1, h2, ?_, h5, fun l hl => h6 l (List.mem_range.mpr hl)⟩
    intro x hx
    obtain ⟨a1, a2, a3, a4, a5, a6⟩ := h3 x hx
    have hdm := Nat.div_add_mod x (64 * b)
    refine ⟨x / (64 * b), _, a1, a2, by omega, ?_, ?_, a6⟩
    · split <;> omega
    · rw [Nat.mul_comm] at hdm
      unfold subc
      split <;> split <;> omega

/-! ## Numbers of cells -/

theorem filter_mod (g : Nat → Bool) (n : Nat) :
    ((List.range (4 * n)).filter fun p => g (p % 4)).length = n * ((List.range 4).filter g).length := by
  induction n with
  | zero => simp
  | succ n ih =>
    rw [show 4 * (n + 1) = 4 * n + 4 by ring, List.range_add, List.filter_append, List.length_append, ih, Nat.add_mul, Nat.one_mul]
    congr 1
    rw [List.filter_map, List.length_map]
    congr 1
    refine List.filter_congr fun p hp => ?_
    rw [List.mem_range] at hp
    show g ((4 * n + p) % 4) = g p
    congr 1
    omega

/-- Streams which have a DRS in symbol `l` -/
def drsStreams (nTs l : Nat) : Nat :=
  if nTs ≤ 2 then (if l % 5 = 1 then nTs else 0) else if nTs = 4 then (if l % 10 = 1 then 4 else 0)
  else if l % 10 = 1 ∨ l % 10 = 2 then 4 else 0

theorem freeCount_eq {nTs : Nat} (h : TsOk nTs) (b l : Nat) : freeCount b nTs l + 14 * b * drsStreams nTs l = 56 * b := by
  unfold freeCount fastFree
  rw [List.length_map]
  obtain ⟨g, hg⟩ : ∃ g : Nat → Bool, ∀ p, (!drsPat nTs l p) = g (p % 4) := by
    rcases h with rfl | rfl | rfl | rfl
    · exact ⟨fun r => !decide (l % 5 = 1 ∧ r = l % 10 / 5 * 2), fun p => rfl⟩
    · exact ⟨fun r => !decide (l % 5 = 1 ∧ (r = l % 10 / 5 * 2 ∨ r = l % 10 / 5 * 2 + 1)), fun p => rfl⟩
    · exact ⟨fun r => !decide (l % 10 = 1), fun p => rfl⟩
    · exact ⟨fun r => !decide (l % 10 = 1 ∨ l % 10 = 2), fun p => rfl⟩
  have e : (List.range (56 * b)).filter (fun p => !drsPat nTs l p) = (List.range (4 * (14 * b))).filter fun p => g (p % 4) := by
    rw [show 56 * b = 4 * (14 * b) by ring]
    exact List.filter_congr fun p _ => hg p
  rw [e, filter_mod]
  have key : ((List.range 4).filter g).length + drsStreams nTs l = 4 := by
    have hg' : (List.range 4).filter g = (List.range 4).filter fun p => !drsPat nTs l p := by
      refine List.filter_congr fun p hp => ?_
      rw [List.mem_range] at hp
      rw [hg p, Nat.mod_eq_of_lt hp]
    rw [hg']
    have hl : (l % 5 = l % 10 % 5) := by omega
    have : ∀ r < 10, ∀ n ∈ [1, 2, 4, 8], ((List.range 4).filter fun p => !drsPat n r p).length + drsStreams n r = 4 := by decide +kernel
    have hr : ∀ p, drsPat nTs l p = drsPat nTs (l % 10) p := by
      intro p
      unfold drsPat
      rw [show l % 10 % 5 = l % 5 by omega, show l % 10 % 10 = l % 10 by omega]
    have hr2 : drsStreams nTs l = drsStreams nTs (l % 10) := by
      unfold drsStreams
      rw [show l % 10 % 5 = l % 5 by omega, show l % 10 % 10 = l % 10 by omega]
    simp only [hr, hr2]
    refine this _ (Nat.mod_lt _ (by omega)) _ ?_
    rcases h with rfl | rfl | rfl | rfl <;> decide
  rw [← Nat.mul_add, key]
  ring

theorem sum_streams {nTs : Nat} (h : TsOk nTs) (n : Nat) : ((List.range' 1 n).map (drsStreams nTs)).sum =
    if nTs ≤ 2 then nTs * ((n + 4) / 5) else if nTs = 4 then 4 * ((n + 9) / 10) else 4 * ((n + 9) / 10 + (n + 8) / 10) := by
  induction n with
  | zero => rcases h with rfl | rfl | rfl | rfl <;> rfl
  | succ n ih =>
    rw [List.range'_concat, List.map_append, List.sum_append, ih]
    simp only [List.map_cons, List.map_nil, List.sum_cons, List.sum_nil, Nat.one_mul, Nat.add_zero]
    unfold drsStreams
    rcases h with rfl | rfl | rfl | rfl
    · simp only [show (1 : Nat) ≤ 2 by omega, if_true]; split <;> omega
    · simp only [Nat.le_refl, if_true]; split <;> omega
    · simp only [show ¬ (4 : Nat) ≤ 2 by omega, if_true, if_false]; split <;> omega
    · simp only [show ¬ (8 : Nat) ≤ 2 by omega, show ¬ (8 : Nat) = 4 by omega, if_true, if_false]; split <;> omega

/-- Taken by DRS or PCC -/
def taken (b nTs : Nat) (L : List Nat) (l p : Nat) : Bool := drsPat nTs l p || decide (l * (64 * b) + (4 * b + subc b p) ∈ L)

/-- PDC subcarriers of symbol `l` -/
def pdcSpec (b nTs : Nat) (L : List Nat) (l : Nat) : List Nat := ((List.range (56 * b)).filter fun p => !taken b nTs L l p).map (subc b)

theorem symb_eq {b l p : Nat} (hb : 0 < b) (hp : p < 56 * b) : (l * (64 * b) + (4 * b + subc b p)) / (64 * b) = l := by
  have := subc_lt hp
  rw [Nat.mul_comm, Nat.mul_add_div (by omega), Nat.div_eq_of_lt (by omega), Nat.add_zero]

theorem filter_split (l : List Nat) (f g : Nat → Bool) :
    (l.filter fun p => !(f p || g p)).length + (l.filter fun p => !f p && g p).length = (l.filter fun p => !f p).length := by
  induction l with
  | nil => rfl
  | cons a t ih =>
    simp only [List.filter_cons]
    simp only [Bool.not_or] at ih ⊢
    cases f a <;> cases g a <;> simp only [Bool.not_false, Bool.not_true, Bool.and_true, Bool.and_false, if_true, Bool.false_eq_true, if_false,
      List.length_cons] <;> omega

theorem pdc_count {b nTs : Nat} {L : List Nat} (hb : 0 < b) (h : PccOk b nTs L) (l : Nat) :
    (pdcSpec b nTs L l).length + pccCount b L l = freeCount b nTs l := by
  unfold pdcSpec pccCount freeCount fastFree
  rw [List.length_map, List.length_map]
  have e : (L.filter fun x => decide (x / (64 * b) = l)) =
      (((List.range (56 * b)).filter fun p => !drsPat nTs l p && decide (l * (64 * b) + (4 * b + subc b p) ∈ L)).map
        fun p => l * (64 * b) + (4 * b + subc b p)) := by
    refine sorted_ext (List.Pairwise.filter _ h.sorted) ?_ ?_
    · rw [List.pairwise_map]
      refine List.Pairwise.imp ?_ (List.Pairwise.filter _ List.pairwise_lt_range)
      intro a c hac
      have := (subc_lt_iff (b := b)).mpr hac
      omega
    · intro x
      rw [List.mem_filter, List.mem_map, decide_eq_true_eq]
      constructor
      · rintro ⟨hx, hl⟩
        obtain ⟨l', p, -, -, -, hp, rfl, hd⟩ := h.cell x hx
        rw [symb_eq hb hp] at hl
        subst hl
        refine ⟨p, List.mem_filter.mpr ⟨List.mem_range.mpr hp, ?_⟩, rfl⟩
        rw [hd, decide_eq_true hx]; rfl
      · rintro ⟨p, hp, rfl⟩
        rw [List.mem_filter, List.mem_range, Bool.and_eq_true, decide_eq_true_eq] at hp
        exact ⟨hp.2.2, symb_eq hb hp.1⟩
  rw [e, List.length_map]
  exact filter_split _ (drsPat nTs l) fun p => decide (l * (64 * b) + (4 * b + subc b p) ∈ L)

theorem sum_add_map (l : List Nat) (f g : Nat → Nat) : (l.map fun i => f i + g i).sum = (l.map f).sum + (l.map g).sum := by
  induction l with
  | nil => rfl
  | cons a t ih => simp only [List.map_cons, List.sum_cons, ih]; omega

theorem pcc_sum (b : Nat) (L : List Nat) (n : Nat) (h0 : ∀ x ∈ L, 1 ≤ x / (64 * b)) :
    ((List.range' 1 n).map (pccCount b L)).sum = (L.filter fun x => decide (x / (64 * b) ≤ n)).length := by
  induction n with
  | zero =>
    rw [List.range'_zero, List.map_nil, List.sum_nil, List.filter_eq_nil_iff.mpr]
    · rfl
    · intro x hx
      have := h0 x hx
      rw [decide_eq_true_eq]; omega
  | succ n ih =>
    rw [List.range'_concat, List.map_append, List.sum_append, ih]
    simp only [List.map_cons, List.map_nil, List.sum_cons, List.sum_nil, Nat.one_mul, Nat.add_zero]
    unfold pccCount
    clear ih h0
    induction L with
    | nil => rfl
    | cons a t ih =>
      simp only [List.filter_cons]
      generalize a / (64 * b) = y
      by_cases h1 : y ≤ n
      · rw [if_pos (decide_eq_true h1), if_neg (by simp; omega), if_pos (by simp; omega), List.length_cons, List.length_cons]; omega
      · rw [if_neg (by simpa using h1)]
        by_cases h2 : y = 1 + n
        · rw [if_pos (decide_eq_true h2), if_pos (by simp; omega), List.length_cons, List.length_cons]; omega
        · rw [if_neg (by simpa using h2), if_neg (by simp; omega)]; exact ih

/-- All cells of the first `n` symbols -/
theorem pdc_sum {b nTs : Nat} {L : List Nat} (hb : 0 < b) (hn : TsOk nTs) (h : PccOk b nTs L) (n : Nat) :
    ((List.range' 1 n).map fun l => (pdcSpec b nTs L l).length).sum + (L.filter fun x => decide (x / (64 * b) ≤ n)).length +
      14 * b * ((List.range' 1 n).map (drsStreams nTs)).sum = 56 * b * n := by
  have h0 : ∀ x ∈ L, 1 ≤ x / (64 * b) := by
    intro x hx
    obtain ⟨l, p, h1, -, -, hp, rfl, -⟩ := h.cell x hx
    rw [symb_eq hb hp]; exact h1
  rw [← pcc_sum b L n h0]
  have e : ∀ l, (pdcSpec b nTs L l).length + pccCount b L l + 14 * b * drsStreams nTs l = 56 * b := by
    intro l; rw [pdc_count hb h, freeCount_eq hn]
  induction n with
  | zero => simp
  | succ n ih =>
    rw [List.range'_concat]
    simp only [List.map_append, List.sum_append, List.map_cons, List.map_nil, List.sum_cons, List.sum_nil, Nat.one_mul, Nat.add_zero]
    have := e (1 + n)
    rw [Nat.mul_add, Nat.mul_succ]
    omega

theorem pcc_inside {b nTs : Nat} {L : List Nat} (hb : 0 < b) (hn : TsOk nTs) (h : PccOk b nTs L) {n : Nat}
    (hlt : 98 + 14 * b * ((List.range' 1 n).map (drsStreams nTs)).sum < 56 * b * n) : L.getLastD 0 / (64 * b) ≤ n := by
  by_contra hc
  have hf : ∀ m, ((List.range' 1 m).map (freeCount b nTs)).sum + 14 * b * ((List.range' 1 m).map (drsStreams nTs)).sum = 56 * b * m := by
    intro m
    induction m with
    | zero => simp
    | succ m ih =>
      rw [List.range'_concat]
      simp only [List.map_append, List.sum_append, List.map_cons, List.map_nil, List.sum_cons, List.sum_nil, Nat.one_mul, Nat.add_zero]
      have := freeCount_eq hn b (1 + m)
      rw [Nat.mul_add, Nat.mul_succ]
      omega
  have hm : ∀ m m', m ≤ m' → ((List.range' 1 m).map (freeCount b nTs)).sum ≤ ((List.range' 1 m').map (freeCount b nTs)).sum := by
    intro m m' hle
    induction m' with
    | zero => rw [Nat.le_zero.mp hle]
    | succ k ih =>
      rcases Nat.lt_or_eq_of_le hle with h1 | h1
      · have := ih (by omega)
        rw [List.range'_concat, List.map_append, List.sum_append]
        omega
      · rw [h1]
  have h1 := hf n
  have h2 := hm n (L.getLastD 0 / (64 * b) - 1) (by omega)
  have h3 := h.before
  omega

/-! ## Table -/

theorem pcc_le_last {b nTs : Nat} {L : List Nat} (hb : 0 < b) (h : PccOk b nTs L) {n : Nat} (hn : L.getLastD 0 / (64 * b) ≤ n) :
    (L.filter fun x => decide (x / (64 * b) ≤ n)).length = 98 := by
  rw [List.filter_eq_self.mpr, h.len]
  intro x hx
  obtain ⟨l, p, -, h2, -, hp, rfl, -⟩ := h.cell x hx
  rw [symb_eq hb hp, decide_eq_true_eq]
  omega

theorem pcc_le_five {b nTs : Nat} {L : List Nat} (hb : 0 < b) (h : PccOk b nTs L) {n : Nat} (hn : 5 ≤ n) :
    (L.filter fun x => decide (x / (64 * b) ≤ n)).length = 98 := by
  rw [List.filter_eq_self.mpr, h.len]
  intro x hx
  obtain ⟨l, p, -, -, h2, hp, rfl, -⟩ := h.cell x hx
  rw [symb_eq hb hp, decide_eq_true_eq]
  omega

theorem nPdc_frame {b nTs : Nat} (hb : bOk b = true) (h : TsOk nTs) :
    ∃ n, nPdcSubc 30 8 nTs (56 * b) = .ok n ∧ n + 98 + 14 * b * ((List.range' 1 26).map (drsStreams nTs)).sum = 56 * b * 26 ∧ 0 < n := by
  have : ∀ b ∈ [1, 2, 4, 8, 16, 12], ∀ nTs ∈ [1, 2, 4, 8], ∃ n ∈ [56 * b * 26 - 98 - 14 * b * ((List.range' 1 26).map (drsStreams nTs)).sum],
      nPdcSubc 30 8 nTs (56 * b) = .ok n ∧ n + 98 + 14 * b * ((List.range' 1 26).map (drsStreams nTs)).sum = 56 * b * 26 ∧ 0 < n := by
    decide +kernel
  obtain ⟨n, -, hn⟩ := this b (by rcases b_cases hb with rfl | rfl | rfl | rfl | rfl | rfl <;> decide) nTs
    (by rcases h with rfl | rfl | rfl | rfl <;> decide)
  exact ⟨n, hn⟩

theorem fastFree_length (b nTs : Nat) (L : List Nat) (l : Nat) : (fastFree b (taken b nTs L) l).length = (pdcSpec b nTs L l).length := by
  unfold fastFree pdcSpec
  rw [List.length_map, List.length_map]

theorem pdcLinear_ok {b nTs : Nat} (hb : bOk b = true) (hn : TsOk nTs) {L : List Nat} (hL : pccLinear b nTs = .ok L) (h : PccOk b nTs L) :
    pdcLinear b nTs = .ok ((List.range' 1 26).flatMap (fastFree b (taken b nTs L))) := by
  obtain ⟨e1, e2, -, -, hpos⟩ := luts hb
  obtain ⟨f, hf, hx⟩ := frame_ok hb hn (Or.inr rfl)
  obtain ⟨n, hn1, hn2, hn3⟩ := nPdc_frame hb hn
  have hsz : ∀ j ∈ L, j < 30 * dft b := by
    intro j hj
    obtain ⟨l, p, -, -, h5, hp, rfl, -⟩ := h.cell j hj
    have := subc_lt hp
    rw [e1]
    exact lt_frame (by omega) (by omega)
  have hfree : ∀ l < 30, freeCells b (fun j => if j ∈ L then -4 else f j) l = fastFree b (taken b nTs L) l := by
    intro l hl
    refine freeCells_eq hb fun i hi => ?_
    rcases hx l hl i hi with ⟨⟨p, hp, rfl, hd⟩, hv⟩ | ⟨hd, hv⟩
    · rw [drsOcc_pat hn] at hd
      by_cases hm : l * (64 * b) + (4 * b + subc b p) ∈ L
      · right
        rw [if_pos hm]
        refine ⟨?_, by omega⟩
        rintro ⟨p', hp', he, ht⟩
        have := subc_inj (Nat.add_left_cancel he)
        subst this
        unfold taken at ht
        rw [decide_eq_true hm, Bool.or_true] at ht
        cases ht
      · left
        rw [if_neg hm]
        refine ⟨⟨p, hp, rfl, ?_⟩, hv⟩
        unfold taken
        rw [hd, decide_eq_false hm]; rfl
    · right
      refine ⟨?_, ?_⟩
      · rintro ⟨p, hp, he, ht⟩
        refine hd ⟨p, hp, he, ?_⟩
        unfold taken at ht
        rw [drsOcc_pat hn]
        exact (Bool.or_eq_false_iff.mp ht).1
      · split
        · omega
        · exact hv
  have hfl : (List.range' 1 (nDfSymb 8 30)).flatMap (freeCells b (fun j => if j ∈ L then -4 else f j)) =
      (List.range' 1 26).flatMap (fastFree b (taken b nTs L)) := by
    show (List.range' 1 26).flatMap _ = _
    refine List.flatMap_congr fun l hl => ?_
    rw [List.mem_range'_1] at hl
    exact hfree l (by omega)
  have hcount : ((List.range' 1 26).flatMap (fastFree b (taken b nTs L))).length = n := by
    rw [List.length_flatMap]
    simp only [fastFree_length]
    have := pdc_sum hpos hn h 26
    rw [pcc_le_five hpos h (by omega)] at this
    omega
  unfold pdcLinear
  rw [hf, Res.ok_bind, hL, Res.ok_bind, mark_ok hsz, Res.ok_bind, e2, hn1, Res.ok_bind, decide_eq_true hn3, Res.assert_true, Res.ok_bind, hfl]
  dsimp only
  rw [hcount, decide_eq_true rfl, Res.assert_true, Res.ok_bind]

theorem flatMap_single {f : Nat → List Nat} {l : List Nat} (hl : l.Nodup) {c : Nat} (hc : c ∈ l) :
    l.flatMap (fun a => if a = c then f a else []) = f c := by
  induction l with
  | nil => cases hc
  | cons a t ih =>
    rw [List.nodup_cons] at hl
    rw [List.flatMap_cons]
    by_cases h : a = c
    · subst h
      rw [if_pos rfl, List.flatMap_eq_nil_iff.mpr, List.append_nil]
      intro x hx
      rw [if_neg]
      rintro rfl
      exact hl.1 hx
    · rw [if_neg h, List.nil_append]
      exact ih hl.2 ((List.mem_cons.mp hc).resolve_left (fun hx => h hx.symm))

/-- Row `c` of the table before compression -/
theorem row_eq {b nTs : Nat} {L : List Nat} (hb : 0 < b) {c : Nat} :
    (((List.range' 1 26).flatMap (fastFree b (taken b nTs L))).filter fun x => decide (x / (64 * b) = c)).map (fun x => x - c * (64 * b) - 4 * b) =
      if 1 ≤ c ∧ c ≤ 26 then pdcSpec b nTs L c else [] := by
  have e : ∀ l, (fastFree b (taken b nTs L) l).filter (fun x => decide (x / (64 * b) = c)) = if l = c then fastFree b (taken b nTs L) l else [] := by
    intro l
    have hm : ∀ x ∈ fastFree b (taken b nTs L) l, x / (64 * b) = l := by
      intro x hx
      obtain ⟨p, hp, -, rfl⟩ := mem_fastFree.mp hx
      exact symb_eq hb hp
    split
    · rename_i h
      rw [List.filter_eq_self]
      intro x hx
      rw [decide_eq_true_eq, hm x hx, h]
    · rename_i h
      rw [List.filter_eq_nil_iff]
      intro x hx
      rw [decide_eq_true_eq, hm x hx]
      exact h
  rw [List.filter_flatMap]
  simp only [e]
  split
  · rename_i h
    rw [flatMap_single List.nodup_range' (List.mem_range'_1.mpr (by omega))]
    unfold fastFree pdcSpec
    rw [List.map_map]
    refine List.map_congr_left fun p _ => ?_
    show c * (64 * b) + (4 * b + subc b p) - c * (64 * b) - 4 * b = _
    omega
  · rename_i h
    rw [List.flatMap_eq_nil_iff.mpr]
    · rfl
    · intro l hl
      rw [List.mem_range'_1] at hl
      rw [if_neg]
      rintro rfl
      exact h (by omega)

theorem pdcSpec_full {b nTs : Nat} {L : List Nat} {l : Nat} (h : (pdcSpec b nTs L l).length = 56 * b) :
    pdcSpec b nTs L l = (List.range (56 * b)).map (subc b) := by
  unfold pdcSpec at h ⊢
  rw [List.length_map] at h
  rw [List.filter_eq_self.mpr]
  have := List.length_filter_eq_length_iff.mp (h.trans List.length_range.symm)
  exact this

theorem pccCount_zero {b nTs : Nat} {L : List Nat} (hb : 0 < b) (h : PccOk b nTs L) {l : Nat} (hl : 6 ≤ l) : pccCount b L l = 0 := by
  unfold pccCount
  rw [List.filter_eq_nil_iff.mpr]
  · rfl
  · intro x hx
    obtain ⟨l', p, -, -, h5, hp, rfl, -⟩ := h.cell x hx
    rw [symb_eq hb hp, decide_eq_true_eq]
    omega

theorem pdcSpec_ten {b nTs : Nat} {L : List Nat} (hb : 0 < b) (hn : TsOk nTs) (h : PccOk b nTs L) : (pdcSpec b nTs L 10).length = 56 * b := by
  have h1 := pdc_count hb h 10
  have h2 := freeCount_eq hn b 10
  rw [pccCount_zero hb h (by omega)] at h1
  have h3 : drsStreams nTs 10 = 0 := by rcases hn with rfl | rfl | rfl | rfl <;> decide
  rw [h3] at h2
  omega

theorem pdcSpec_ne_one {b nTs : Nat} {L : List Nat} (hb : 0 < b) (hn : TsOk nTs) (h : PccOk b nTs L) (l : Nat) :
    (pdcSpec b nTs L l).length ≠ 1 := by
  intro hx
  have h1 := pdc_count hb h l
  by_cases hl : l < 6
  · exact h.odd l hl (by omega)
  · rw [pccCount_zero hb h (by omega)] at h1
    have h2 := freeCount_eq hn b l
    have h3 : drsStreams nTs l = 0 ∨ drsStreams nTs l = 1 ∨ drsStreams nTs l = 2 ∨ drsStreams nTs l = 4 := by
      unfold drsStreams
      rcases hn with rfl | rfl | rfl | rfl <;> simp <;> omega
    rcases h3 with h3 | h3 | h3 | h3 <;> rw [h3] at h2 <;> omega

theorem pdcTable_ok {b nTs : Nat} (hb : bOk b = true) (hn : TsOk nTs) {L : List Nat} (hL : pccLinear b nTs = .ok L) (h : PccOk b nTs L) :
    ∃ tab, pdcTable b nTs = .ok tab ∧ ∀ c, 1 ≤ c → c ≤ 20 → tab[c]? = some (if c = 10 then pdcSpec b nTs L c
      else if (pdcSpec b nTs L c).length = 56 * b then (pdcSpec b nTs L c).take 1 else pdcSpec b nTs L c) := by
  obtain ⟨e1, e2, -, e4, hpos⟩ := luts hb
  have hlast : ((List.range' 1 26).flatMap (fastFree b (taken b nTs L))).getLastD 0 / (64 * b) = 26 := by
    have hne : fastFree b (taken b nTs L) 26 ≠ [] := by
      intro hx
      have h1 := pdc_count hpos h 26
      rw [pccCount_zero hpos h (by omega), ← fastFree_length, hx] at h1
      have h2 := freeCount_eq hn b 26
      have h3 : drsStreams nTs 26 ≤ 2 := by rcases hn with rfl | rfl | rfl | rfl <;> decide
      have h4 : 14 * b * drsStreams nTs 26 ≤ 14 * b * 2 := Nat.mul_le_mul_left _ h3
      simp only [List.length_nil] at h1
      omega
    rw [show (26 : Nat) = 25 + 1 from rfl, List.range'_concat, List.flatMap_append, List.flatMap_singleton, List.getLastD_eq_getLast?,
      List.getLast?_append_of_ne_nil _ hne, List.getLast?_eq_some_getLast hne]
    show (fastFree b (taken b nTs L) 26).getLast hne / (64 * b) = 26
    obtain ⟨p, hp, -, e⟩ := mem_fastFree.mp (List.getLast_mem hne)
    rw [e, symb_eq hpos hp]
  have hrows : rows (dft b) (guardsBottom b) ((List.range' 1 26).flatMap (fastFree b (taken b nTs L))) =
      (List.range 27).map fun c => if 1 ≤ c ∧ c ≤ 26 then pdcSpec b nTs L c else [] := by
    unfold rows
    rw [e1, e4, hlast]
    exact List.map_congr_left fun c _ => row_eq hpos
  refine ⟨(((List.range 27).map fun c => if 1 ≤ c ∧ c ≤ 26 then pdcSpec b nTs L c else []).take 21).mapIdx fun i ks =>
    if i = 10 then ks else if ks.length = occ b then ks.take 1 else ks, ?_, ?_⟩
  · unfold pdcTable
    rw [pdcLinear_ok hb hn hL h, Res.ok_bind, hrows]
    dsimp only
    rw [List.length_map, List.length_range, decide_eq_true (by omega), Res.assert_true, Res.ok_bind]
  · intro c h1 h2
    rw [List.getElem?_mapIdx, List.getElem?_take_of_lt (by omega), List.getElem?_map, List.getElem?_range (by omega)]
    simp only [Option.map_some]
    rw [if_pos (show 1 ≤ c ∧ c ≤ 26 by omega), e2]

theorem drsPat_period {nTs : Nat} (hn : TsOk nTs) {l e : Nat} (h : l % 10 = e % 10) (p : Nat) : drsPat nTs l p = drsPat nTs e p := by
  unfold drsPat
  rw [h, show l % 5 = e % 5 by omega]

theorem pdcSymbol_ok {b nTs : Nat} (hb : bOk b = true) (hn : TsOk nTs) {L : List Nat} (hL : pccLinear b nTs = .ok L) (h : PccOk b nTs L) :
    ∃ tab, pdcTable b nTs = .ok tab ∧ ∀ l, 1 ≤ l → pdcSymbol tab nTs l = .ok (pdcSpec b nTs L l) := by
  obtain ⟨-, -, -, -, hpos⟩ := luts hb
  obtain ⟨tab, ht, hx⟩ := pdcTable_ok hb hn hL h
  refine ⟨tab, ht, fun l hl => ?_⟩
  have hno : ∀ l', 6 ≤ l' → ∀ p < 56 * b, (l' * (64 * b) + (4 * b + subc b p)) ∉ L := by
    intro l' hl' p hp hm
    obtain ⟨l2, p2, -, -, h5, hp2, he, -⟩ := h.cell _ hm
    have := subc_lt hp
    have := subc_lt hp2
    have := (lin_inj (by omega) (by omega)).mp he
    omega
  obtain ⟨e, he, h1, h2, hs⟩ : ∃ e, (if l ≤ lLimit nTs then l else l - (l - lLimit nTs) / 10 * 10) = e ∧ 1 ≤ e ∧ e ≤ 20 ∧
      pdcSpec b nTs L e = pdcSpec b nTs L l := by
    have hlim : lLimit nTs = 6 ∨ lLimit nTs = 11 := by unfold lLimit; split <;> simp
    by_cases hle : l ≤ lLimit nTs
    · exact ⟨l, if_pos hle, hl, by omega, rfl⟩
    · refine ⟨_, if_neg hle, by omega, by omega, ?_⟩
      have hmod : (l - (l - lLimit nTs) / 10 * 10) % 10 = l % 10 := by omega
      have hge : 6 ≤ l - (l - lLimit nTs) / 10 * 10 := by omega
      generalize l - (l - lLimit nTs) / 10 * 10 = e at hmod hge
      unfold pdcSpec
      congr 1
      refine List.filter_congr fun p hp => ?_
      rw [List.mem_range] at hp
      unfold taken
      rw [drsPat_period hn hmod, decide_eq_false (hno e hge p hp), decide_eq_false (hno l (by omega) p hp)]
  unfold pdcSymbol
  simp only
  rw [he, hx e h1 h2]
  simp only
  have h10 := pdcSpec_ten hpos hn h
  by_cases c10 : e = 10
  · subst c10
    rw [if_pos rfl, if_neg (by omega), hs]
  · rw [if_neg c10]
    by_cases cf : (pdcSpec b nTs L e).length = 56 * b
    · rw [if_pos cf, if_pos (by rw [List.length_take]; omega), hx 10 (by omega) (by omega)]
      simp only [if_true]
      rw [pdcSpec_full h10, ← hs, pdcSpec_full cf]
    · rw [if_neg cf, if_neg (pdcSpec_ne_one hpos hn h e), hs]

end Verif.Sp3.Cells
