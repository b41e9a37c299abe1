import Verif.Lemma.Fec

/-!
# Encoder
-/

set_option linter.unusedSimpArgs false

namespace Verif.Phy.Fec

open Sp3 Spec

variable {z : Nat} {c : Cfg} {x : TxLib} {rnd : ℚ → ℚ} {m : TxMem} {rv : Nat} {data : Nat → Nat} {seq : Nat → Bool}

/-- What is used of the sizes of the memories -/
structure Mem (z : Nat) (c : Cfg) (m : TxMem) : Prop where
  a : c.tbs ≤ 8 * m.aLen
  d : c.G ≤ 8 * m.dLen
  cb : c.seg.C ≤ m.maxCb
  sys : z / 8 ≤ m.sysLen

/-- Coded bits of code block `i` -/
def coded (x : TxLib) (c : Cfg) (rv : Nat) (data : Nat → Nat) (crc0 : x.W) (st0 : Enc x) (i : Nat) : Nat → Bool :=
  (x.rm (st0.soft i) (if rv = 0 then encoded x c data crc0 i else st0.turbo) (blockSize c i) (blockBits c i) rv).1

structure EInv (x : TxLib) (c : Cfg) (rv : Nat) (data : Nat → Nat) (seq : Nat → Bool) (crc0 : x.W) (st0 st : Enc x) : Prop where
  le : st.cbIdx ≤ c.seg.C
  wp : st.wp = start c st.cbIdx
  rp : st.rp = offset c st.cbIdx
  crc : rv = 0 → st.crc = crcAt x c data crc0 st.cbIdx
  turbo : rv ≠ 0 → st.turbo = st0.turbo
  soft : ∀ j, st.cbIdx ≤ j → st.soft j = st0.soft j
  bits : ∀ i < st.cbIdx, ∀ j < blockBits c i, st.bits (start c i + j) =
    xor (seq (start c i + j)) (coded x c rv data crc0 st0 i j)

theorem copyLen_eq (h : Ok z c) {i : Nat} (hi : i < c.seg.C) :
    copyLen c.seg i = (payload c i - if i + 1 = c.seg.C then 24 else 0) / 8 := by
  have := h.small
  unfold copyLen
  rw [sub32_le (by omega) h.small, rlenEnc_eq h]
  by_cases h1 : i + 1 = c.seg.C
  · rw [if_neg (by omega), if_pos h1]
  · rw [if_pos (by omega), if_neg h1, Nat.sub_zero]

theorem copy_fits (h : Ok z c) (hm : Mem z c m) {i : Nat} (hi : i < c.seg.C) :
    offset c i / 8 + copyLen c.seg i ≤ m.aLen ∧ copyLen c.seg i ≤ m.sysLen := by
  rw [copyLen_eq h hi]
  have o := offset_mod h i
  obtain ⟨p1, p2, p3, p4⟩ := payload_ok h i
  have t := offset_total h
  have a := hm.a
  have s := hm.sys
  by_cases h1 : i + 1 = c.seg.C
  · rw [if_pos h1]
    have h2 := h.c2
    have hb : blockSize c i = c.seg.K1 := if_neg (by omega)
    have hk := h.k1
    have h24 : 24 ≤ payload c i := by
      by_cases hC : c.seg.C = 1
      · rw [if_pos hC] at p4; omega
      · rw [if_neg hC] at p4
        have := h.k1' (by omega)
        omega
    rw [← h1, offset] at t
    omega
  · rw [if_neg h1]
    have mo := offset_mono (c := c) (by omega : i + 1 ≤ c.seg.C - 1)
    have hl := (payload_ok h (c.seg.C - 1)).2.2.2
    rw [show c.seg.C = (c.seg.C - 1) + 1 by omega, offset] at t
    rw [offset] at mo
    have hk := h.k1' (by omega)
    have h2 := h.c2
    have hb : blockSize c (c.seg.C - 1) = c.seg.K1 := if_neg (by omega)
    rw [if_neg (by omega)] at hl
    omega

theorem enc_step (hr : F32.Rounds rnd) (h : Ok z c) (hm : Mem z c m) {crc0 : x.W} {st0 st : Enc x}
    (hi : EInv x c rv data seq crc0 st0 st) (hlt : st.cbIdx < c.seg.C) :
    ∃ t, turboStep x m c rv data st = .ok t ∧ EInv x c rv data seq crc0 st0 (rateMatch x rnd c rv seq st t) ∧
      (∀ k < st.wp, (rateMatch x rnd c rv seq st t).bits k = st.bits k) := by
  obtain ⟨h1, h2, h3, h4, h5, h6, h7⟩ := hi
  have hcopy := copy_fits h hm hlt
  have hlast : (!decide (st.cbIdx < sub32 c.seg.C 1)) = decide (st.cbIdx + 1 = c.seg.C) := by
    rw [sub32_le (by omega) h.small]
    by_cases h' : st.cbIdx + 1 = c.seg.C
    · rw [decide_eq_true h', decide_eq_false (by omega)]; rfl
    · rw [decide_eq_false h', decide_eq_true (by omega)]; rfl
  have hin : (List.range (copyLen c.seg st.cbIdx)).map (fun k => data (st.rp / 8 + k)) = input c data st.cbIdx := by
    rw [copyLen_eq h hlt, h3]; rfl
  obtain ⟨t, ht, ht1, ht2, ht3⟩ : ∃ t, turboStep x m c rv data st = .ok t ∧ (rv = 0 → t.2 = crcAt x c data crc0 (st.cbIdx + 1)) ∧
      (t.1 = if rv = 0 then encoded x c data crc0 st.cbIdx else st0.turbo) ∧ (rv ≠ 0 → t.1 = st0.turbo) := by
    unfold turboStep
    by_cases hv : rv = 0
    · rw [if_pos hv, if_pos (by rw [h3]; exact hcopy), hin, hlast, h4 hv]
      exact ⟨_, rfl, fun _ => rfl, by rw [if_pos hv]; rfl, fun h => absurd hv h⟩
    · rw [if_neg hv]
      exact ⟨_, rfl, fun h => absurd h hv, by rw [if_neg hv]; exact h5 hv, h5⟩
  have hn := nE_eq hr h hlt
  have hbig := blockBits_big h st.cbIdx
  have range := Sp3.Scrambling.C39_range_partial seq x.pad
    (fun k => if st.wp ≤ k ∧ k < st.wp + nE rnd c st.cbIdx then
      (x.rm (st.soft st.cbIdx) t.1 (cbLen c.seg st.cbIdx) (nE rnd c st.cbIdx) rv).1 (k - st.wp) else st.bits k)
    (len := nE rnd c st.cbIdx) (offset := st.wp) (by omega)
  have hold : ∀ k < st.wp, (rateMatch x rnd c rv seq st t).bits k = st.bits k := by
    intro k hk
    refine ((range k).2 (by unfold Scrambling.within; omega)).trans ?_
    exact if_neg (by omega)
  refine ⟨t, ht, ⟨?_, ?_, ?_, ?_, ?_, ?_, ?_⟩, hold⟩
  · exact hlt
  · show st.wp + nE rnd c st.cbIdx = start c (st.cbIdx + 1)
    rw [h2, hn]; rfl
  · show st.rp + rlenEnc c.seg st.cbIdx = offset c (st.cbIdx + 1)
    rw [h3, rlenEnc_eq h]; rfl
  · exact ht1
  · exact ht3
  · intro j hj
    have hj : st.cbIdx + 1 ≤ j := hj
    show Function.update st.soft st.cbIdx _ j = _
    rw [Function.update_of_ne (by omega)]
    exact h6 j (by omega)
  · intro i hi j hj
    have hi : i < st.cbIdx + 1 := hi
    rcases Nat.lt_or_eq_of_le (Nat.le_of_lt_succ hi) with h' | h'
    · rw [hold _ ?_, h7 i h' j hj]
      rw [h2]
      have := start_mono (c := c) (by omega : i + 1 ≤ st.cbIdx)
      rw [start] at this
      omega
    · subst h'
      have hk : st.wp ≤ st.wp + j ∧ st.wp + j < st.wp + nE rnd c st.cbIdx := by omega
      rw [← h2]
      refine ((range (st.wp + j)).1 hk).trans ?_
      rw [if_pos hk, Nat.add_sub_cancel_left, hn, ht2, h6 _ (Nat.le_refl _), cbLen_eq]
      rfl

theorem loop_step (hr : F32.Rounds rnd) (h : Ok z c) (hm : Mem z c m) {crc0 : x.W} {st0 st : Enc x}
    (hi : EInv x c rv data seq crc0 st0 st) {n : Nat} (hn : n ≤ c.G) :
    (n ≤ st.wp ∧ encodeLoop x rnd m c rv data seq n st = .ok st) ∨
      (st.wp < n ∧ st.cbIdx < c.seg.C ∧ ∃ st', encodeLoop x rnd m c rv data seq n st = encodeLoop x rnd m c rv data seq n st' ∧
        (∀ k, st.wp < k → encodeLoop x rnd m c rv data seq k st = encodeLoop x rnd m c rv data seq k st') ∧
        st'.cbIdx = st.cbIdx + 1 ∧ EInv x c rv data seq crc0 st0 st' ∧ ∀ k < st.wp, st'.bits k = st.bits k) := by
  by_cases hlt : st.wp < n
  · right
    have hcb : st.cbIdx < c.seg.C := by
      rw [← start_lt h, ← hi.wp]; omega
    obtain ⟨t, h1, h2, h3⟩ := enc_step (seq := seq) hr h hm hi hcb
    have hw : st.cbIdx < m.maxCb ∧ st.wp + nE rnd c st.cbIdx ≤ 8 * m.dLen := by
      refine ⟨lt_of_lt_of_le hcb hm.cb, ?_⟩
      have := start_mono (c := c) (by omega : st.cbIdx + 1 ≤ c.seg.C)
      rw [start_total h, start] at this
      rw [nE_eq hr h hcb, hi.wp]
      exact le_trans this hm.d
    have key : ∀ k, st.wp < k → encodeLoop x rnd m c rv data seq k st = encodeLoop x rnd m c rv data seq k (rateMatch x rnd c rv seq st t) := by
      intro k hk
      conv_lhs => rw [encodeLoop]
      rw [if_pos hk, if_pos hw, h1]
    exact ⟨hlt, hcb, _, key n hlt, key, rfl, h2, h3⟩
  · left
    refine ⟨by omega, ?_⟩
    rw [encodeLoop, if_neg hlt]

theorem loop_ok (hr : F32.Rounds rnd) (h : Ok z c) (hm : Mem z c m) {crc0 : x.W} {st0 : Enc x} {n : Nat} (hn : n ≤ c.G) :
    ∀ (d : Nat) (st : Enc x), c.seg.C - st.cbIdx = d → EInv x c rv data seq crc0 st0 st →
      ∃ st', encodeLoop x rnd m c rv data seq n st = .ok st' ∧ EInv x c rv data seq crc0 st0 st' ∧ n ≤ st'.wp ∧ st.wp ≤ st'.wp ∧
        (∀ k < st.wp, st'.bits k = st.bits k) ∧
        (∀ i, encodeLoop x rnd m c rv data seq i st' = encodeLoop x rnd m c rv data seq (Nat.max n i) st) ∧
        (st' = st ∨ ∃ i, st'.cbIdx = i + 1 ∧ start c i < n) := by
  intro d
  induction d with
  | zero =>
    intro st hd hi
    rcases loop_step (seq := seq) hr h hm hi hn with ⟨h1, h2⟩ | ⟨h1, h2, -⟩
    · refine ⟨st, h2, hi, h1, Nat.le_refl _, fun _ _ => rfl, ?_, Or.inl rfl⟩
      intro i
      by_cases hin : i ≤ n
      · rw [show Nat.max n i = n from Nat.max_eq_left hin, h2, encodeLoop, if_neg (by omega)]
      · rw [show Nat.max n i = i from Nat.max_eq_right (by omega)]
    · omega
  | succ d ih =>
    intro st hd hi
    rcases loop_step (seq := seq) hr h hm hi hn with ⟨h1, h2⟩ | ⟨h1, h2, st', h3, h3', h4, h5, h6⟩
    · refine ⟨st, h2, hi, h1, Nat.le_refl _, fun _ _ => rfl, ?_, Or.inl rfl⟩
      intro i
      by_cases hin : i ≤ n
      · rw [show Nat.max n i = n from Nat.max_eq_left hin, h2, encodeLoop, if_neg (by omega)]
      · rw [show Nat.max n i = i from Nat.max_eq_right (by omega)]
    · obtain ⟨st'', a1, a2, a3, a4, a5, a6, a7⟩ := ih st' (by omega) h5
      have hw : st.wp ≤ st'.wp := by
        rw [hi.wp, h5.wp]; exact start_mono (by omega)
      refine ⟨st'', h3.trans a1, a2, a3, by omega, ?_, ?_, ?_⟩
      · intro k hk
        rw [a5 k (by omega), h6 k hk]
      · intro i
        rw [a6 i, h3' _ (lt_of_lt_of_le h1 (Nat.le_max_left _ _))]
      · right
        rcases a7 with rfl | a7
        · refine ⟨st.cbIdx, h4, ?_⟩
          rw [← hi.wp]; exact h1
        · exact a7

end Verif.Phy.Fec
