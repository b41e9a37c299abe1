import Verif.Spec.Fec
import Verif.Base.F32
import Verif.Props.C26_MaxPacketSizes
import Verif.Props.C39_Scrambling

/-!
# Windows and sizes of code blocks
-/

set_option linter.unusedSimpArgs false

namespace Verif.Phy.Fec

open Sp3 Spec

/-- What is used of a packet -/
structure Ok (z : Nat) (c : Cfg) : Prop where
  F : c.seg.F = 0
  pos : 0 < c.seg.C
  c2 : c.seg.C2 < c.seg.C
  small : c.seg.C < 16777216
  total : c.seg.C1 * c.seg.K1 + c.seg.C2 * c.seg.K2 = withCrc c.tbs c.seg.C
  sum : c.seg.C1 + c.seg.C2 = c.seg.C
  k1 : c.seg.K1 % 8 = 0 ∧ 40 ≤ c.seg.K1 ∧ c.seg.K1 ≤ z
  k2 : c.seg.C2 ≠ 0 → c.seg.K2 % 8 = 0 ∧ 40 ≤ c.seg.K2 ∧ c.seg.K2 ≤ z
  k1' : 1 < c.seg.C → 48 ≤ c.seg.K1
  z1 : z ≤ 6144
  qm : 0 < c.Qm
  g : c.G = c.Gp * c.Qm
  gp : c.Gp < 16777216
  tbs8 : c.tbs % 8 = 0
  big : 8 ≤ c.Qm * (c.Gp / c.seg.C)

theorem table_range : ∀ k ∈ tcCbSizes, k % 8 = 0 ∧ 40 ≤ k ∧ k ≤ 6144 := by decide +kernel

theorem packet_ok {q : PsDef} {r : PacketSizes} {c : Cfg} (h : Packet q r c) : Ok q.z c := by
  obtain ⟨h1, h2, h3, h4, h5⟩ := h
  obtain ⟨hv, tm, mcs, ht, hm, ⟨-, -, h0, h8⟩, rfl⟩ := getPacketSizes_some h1
  obtain ⟨a1, -, a2, hb⟩ := bits_range hv ht hm
  obtain ⟨-, -, -, -, htm, hmc, hz⟩ := valid_cases hv
  obtain ⟨s, b1, b2, b3, b4, b5, b6, b7, b8, b9⟩ := C24_segmentation hb hz h0
  obtain ⟨t, e1, -, e2, -⟩ := tm_cases htm
  obtain ⟨m, f1, f0, f2, f3, f4, f5⟩ := mcs_cases hmc
  rw [ht] at e1; cases e1
  rw [hm] at f1; cases f1
  have : s = c.seg := by
    have : cbsegm (sizesOf q tm mcs).nTbBits q.z = .ok (some s) := b1
    rw [h2] at this; cases this; rfl
  subst this
  have k1 := table_range _ b4
  have hF : c.seg.F = 0 := by rw [b9]; exact if_neg h8
  have hgp : c.Gp = tm.nSs * (sizesOf q tm mcs).nPdcSubc := by
    unfold Cfg.Gp
    rw [h5, h4]
    exact Nat.mul_div_cancel _ (show 0 < mcs.nBps by omega)
  have hG : c.G = c.Gp * c.Qm := by rw [h5, hgp, h4]; rfl
  have hsm : c.Gp < 16777216 := by
    rw [hgp]
    have := Nat.mul_le_mul e2 a1
    omega
  have htot : c.seg.C1 * c.seg.K1 + c.seg.C2 * c.seg.K2 = withCrc c.tbs c.seg.C := by
    rw [h3]
    have := b8
    rw [hF] at this
    exact this
  have k2 : c.seg.C2 ≠ 0 → c.seg.K2 % 8 = 0 ∧ 40 ≤ c.seg.K2 ∧ c.seg.K2 ≤ 6144 := fun h => table_range _ (b6 h).1
  have hge : 40 * c.seg.C ≤ withCrc c.tbs c.seg.C := by
    rw [← htot, ← b2, Nat.mul_add]
    refine Nat.add_le_add ?_ ?_
    · rw [Nat.mul_comm 40]; exact Nat.mul_le_mul_left _ k1.2.1
    · rcases Nat.eq_zero_or_pos c.seg.C2 with h | h
      · rw [h]; omega
      · rw [Nat.mul_comm 40]; exact Nat.mul_le_mul_left _ (k2 (by omega)).2.1
  have hG40 : 40 * c.seg.C ≤ c.Gp * c.Qm := by
    obtain ⟨-, -, hw, -⟩ := C24_packet h1
    have hCC := blocks_seg hb hz h0 b1
    have hle : (sizesOf q tm mcs).nPdcBits ≤ c.G := by
      rw [h5]
      show (sizesOf q tm mcs).G * mcs.rNum / mcs.rDen ≤ _
      refine le_trans (Nat.div_le_div_right (Nat.mul_le_mul_left _ (?_ : mcs.rNum ≤ mcs.rDen))) ?_
      · omega
      · rw [Nat.mul_div_cancel _ (by omega)]
    rw [← hG]
    refine le_trans (le_trans hge ?_) hle
    rw [h3, hCC]; exact hw
  have hQ : 0 < c.Qm ∧ c.Qm ≤ 10 := by rw [h4]; exact ⟨f0, f2⟩
  have hpos : 0 < c.seg.C := by omega
  have hbig : 8 ≤ c.Qm * (c.Gp / c.seg.C) := by
    have h40 : 40 / c.Qm ≤ c.Gp / c.seg.C := by
      rw [Nat.le_div_iff_mul_le hpos]
      have : 40 / c.Qm * c.Qm ≤ 40 := Nat.div_mul_le_self _ _
      have : 40 / c.Qm * c.seg.C * c.Qm ≤ c.Gp * c.Qm := by
        calc _ = (40 / c.Qm * c.Qm) * c.seg.C := by rw [Nat.mul_right_comm]
          _ ≤ 40 * c.seg.C := Nat.mul_le_mul_right _ this
          _ ≤ _ := hG40
      exact Nat.le_of_mul_le_mul_right this hQ.1
    refine le_trans ?_ (Nat.mul_le_mul_left _ h40)
    have : c.Qm = 1 ∨ c.Qm = 2 ∨ c.Qm = 3 ∨ c.Qm = 4 ∨ c.Qm = 5 ∨ c.Qm = 6 ∨ c.Qm = 7 ∨ c.Qm = 8 ∨ c.Qm = 9 ∨ c.Qm = 10 := by omega
    rcases this with h | h | h | h | h | h | h | h | h | h <;> rw [h] <;> decide
  refine ⟨hF, hpos, by omega, ?_, htot, b2, ⟨k1.1, k1.2.1, b5⟩, ?_, ?_, by omega, hQ.1, hG, hsm, ?_, hbig⟩
  · have : c.Gp * c.Qm ≤ 16777216 * 10 := Nat.mul_le_mul hsm.le hQ.2
    omega
  · intro h
    exact ⟨(k2 h).1, (k2 h).2.1, by have := (b6 h).2; omega⟩
  · intro h
    by_contra h48
    have h2' : c.seg.C1 * c.seg.K1 + c.seg.C2 * c.seg.K2 ≤ c.seg.C * 47 := by
      rw [← b2, Nat.add_mul]
      refine Nat.add_le_add (Nat.mul_le_mul_left _ (by omega)) ?_
      rcases Nat.eq_zero_or_pos c.seg.C2 with h | h
      · rw [h]; omega
      · exact Nat.mul_le_mul_left _ (by have := (b6 (by omega)).2; omega)
    -- several code blocks exist only above Z bits
    obtain ⟨s', -, hs'⟩ : ∃ s', cbsegm c.tbs q.z = .ok (some s') ∧ c.seg.C * 64 ≤ withCrc c.tbs c.seg.C := by
      refine ⟨c.seg, by rw [h3]; exact h2, ?_⟩
      have hC : c.seg.C = blocks (sizesOf q tm mcs).nPdcBits q.z := blocks_seg hb hz h0 b1
      rw [h3]
      have hcr : withCrc (sizesOf q tm mcs).nTbBits c.seg.C = used (sizesOf q tm mcs).nPdcBits := b7
      rw [hcr]
      unfold blocks at hC
      split at hC
      · omega
      · rename_i hlt
        obtain ⟨m1, m2, m3, -⟩ := multi hz (by omega : q.z < used (sizesOf q tm mcs).nPdcBits)
        rw [hC]
        generalize ceilDiv (used (sizesOf q tm mcs).nPdcBits - 24) q.z = x at *
        have : (x - 1) * 128 ≤ (x - 1) * q.z := Nat.mul_le_mul_left _ (by omega)
        omega
    omega
  · rw [h3]; exact tbs_dvd _

theorem sub32_le {a b : Nat} (h : b ≤ a) (ha : a < 16777216) : sub32 a b = a - b := sub32_eq h (by omega)

variable {z : Nat} {c : Cfg}

theorem gamma_eq (h : Ok z c) : c.gamma = c.Gp % c.seg.C := by
  unfold Cfg.gamma; rw [if_pos h.pos]

theorem gamma_lt (h : Ok z c) : c.gamma < c.seg.C := by rw [gamma_eq h]; exact Nat.mod_lt _ h.pos

theorem blockBits_cases (h : Ok z c) (i : Nat) : (c.seg.C - c.gamma ≤ i ∧ blockBits c i = c.Qm * (c.Gp / c.seg.C) + c.Qm) ∨
    (i < c.seg.C - c.gamma ∧ blockBits c i = c.Qm * (c.Gp / c.seg.C)) := by
  unfold blockBits
  rw [gamma_eq h]
  show _ ∨ _
  change (_ ∧ c.Qm * (c.Gp / c.seg.C + if c.seg.C - c.Gp % c.seg.C ≤ i then 1 else 0) = _) ∨
    (_ ∧ c.Qm * (c.Gp / c.seg.C + if c.seg.C - c.Gp % c.seg.C ≤ i then 1 else 0) = _)
  by_cases hi : c.seg.C - c.Gp % c.seg.C ≤ i
  · left; refine ⟨hi, ?_⟩; rw [if_pos hi, Nat.mul_add, Nat.mul_one]
  · right; refine ⟨by omega, ?_⟩; rw [if_neg hi, Nat.add_zero]

theorem start_eq (h : Ok z c) {i : Nat} : start c i = i * (c.Qm * (c.Gp / c.seg.C)) + (i - (c.seg.C - c.gamma)) * c.Qm := by
  induction i with
  | zero => simp [start]
  | succ i ih =>
    rw [start, ih]
    rcases blockBits_cases h i with ⟨h1, h2⟩ | ⟨h1, h2⟩
    · rw [h2, show i + 1 - (c.seg.C - c.gamma) = (i - (c.seg.C - c.gamma)) + 1 by omega, Nat.add_mul i, Nat.add_mul _ 1 c.Qm]
      omega
    · rw [h2, show i + 1 - (c.seg.C - c.gamma) = 0 by omega, show i - (c.seg.C - c.gamma) = 0 by omega, Nat.add_mul i]
      omega

theorem start_total (h : Ok z c) : start c c.seg.C = c.G := by
  have hg := gamma_lt h
  have e := Nat.div_add_mod c.Gp c.seg.C
  rw [start_eq h, show c.seg.C - (c.seg.C - c.gamma) = c.gamma by omega, h.g, gamma_eq h]
  conv_rhs => rw [← e, Nat.add_mul]
  rw [Nat.mul_comm c.Qm, ← Nat.mul_assoc]

theorem blockBits_big (h : Ok z c) (i : Nat) : 8 ≤ blockBits c i := by
  have := h.big
  rcases blockBits_cases h i with ⟨-, h2⟩ | ⟨-, h2⟩ <;> omega

theorem start_mono {i j : Nat} (hij : i ≤ j) : start c i ≤ start c j := by
  induction j with
  | zero => rw [Nat.le_zero.mp hij]
  | succ j ih =>
    rcases Nat.lt_or_eq_of_le hij with h1 | h1
    · exact le_trans (ih (by omega)) (Nat.le_add_right _ _)
    · rw [h1]

theorem start_lt (h : Ok z c) {i : Nat} : start c i < c.G ↔ i < c.seg.C := by
  rw [← start_total h]
  constructor
  · intro hi
    by_contra hn
    have := start_mono (c := c) (by omega : c.seg.C ≤ i)
    omega
  · intro hi
    have h1 := start_mono (c := c) (by omega : i + 1 ≤ c.seg.C)
    rw [start] at h1
    have := blockBits_big h i
    omega

theorem ceil_succ {a b : Nat} (hb : 0 < b) (h : 0 < a % b) : (a + b - 1) / b = a / b + 1 := by
  have e := Nat.div_add_mod a b
  have hl := Nat.mod_lt a hb
  generalize a / b = x at *
  generalize a % b = y at *
  subst e
  rw [show b * x + y + b - 1 = (y - 1) + (x + 1) * b by rw [Nat.mul_comm, Nat.add_mul]; omega,
      Nat.add_mul_div_right _ _ hb, Nat.div_eq_of_lt (by omega : y - 1 < b)]
  omega

theorem nE_eq {rnd : ℚ → ℚ} (hr : F32.Rounds rnd) (h : Ok z c) {i : Nat} (hi : i < c.seg.C) : nE rnd c i = blockBits c i := by
  have hg := gamma_lt h
  have hs := h.small
  have hp := h.pos
  unfold nE
  rw [sub32_le (by omega) hs, sub32_le (by omega) (by omega)]
  rcases blockBits_cases h i with ⟨h1, h2⟩ | ⟨h1, h2⟩
  · rw [if_neg (by omega), h2, F32.ceil_div hr hp h.gp hs]
    rw [gamma_eq h] at h1
    rw [← Nat.mul_succ, ceil_succ hp (by omega)]
  · rw [if_pos (by omega), h2]

theorem cbLen_eq (i : Nat) : cbLen c.seg i = blockSize c i := rfl

theorem rlenEnc_eq (h : Ok z c) (i : Nat) : rlenEnc c.seg i = payload c i := by
  have := h.pos
  unfold rlenEnc payload
  rw [cbLen_eq]
  by_cases h1 : 1 < c.seg.C
  · rw [if_pos h1, if_neg (by omega)]
  · rw [if_neg h1, if_pos (by omega), Nat.sub_zero]

theorem rlenDec_eq (i : Nat) : rlenDec c.seg i = payload c i := by
  unfold rlenDec payload
  rw [cbLen_eq]
  split <;> simp

theorem writeOffset_eq (i : Nat) : writeOffset c.seg i = offset c i := by
  induction i with
  | zero => rfl
  | succ i ih => rw [writeOffset, ih, rlenDec_eq]; rfl

theorem blockSize_ok (h : Ok z c) (i : Nat) : blockSize c i % 8 = 0 ∧ 40 ≤ blockSize c i ∧ blockSize c i ≤ z := by
  unfold blockSize
  split
  · exact h.k2 (by omega)
  · exact h.k1

theorem payload_ok (h : Ok z c) (i : Nat) : payload c i % 8 = 0 ∧ 16 ≤ payload c i ∧ payload c i ≤ z ∧
    payload c i + (if c.seg.C = 1 then 0 else 24) = blockSize c i := by
  have := blockSize_ok h i
  unfold payload
  split <;> omega

theorem offset_mod (h : Ok z c) (i : Nat) : offset c i % 8 = 0 := by
  induction i with
  | zero => rfl
  | succ i ih =>
    have := (payload_ok h i).1
    rw [offset]; omega

theorem offset_mono {i j : Nat} (hij : i ≤ j) : offset c i ≤ offset c j := by
  induction j with
  | zero => rw [Nat.le_zero.mp hij]
  | succ j ih =>
    rcases Nat.lt_or_eq_of_le hij with h1 | h1
    · exact le_trans (ih (by omega)) (Nat.le_add_right _ _)
    · rw [h1]

theorem offset_total (h : Ok z c) : offset c c.seg.C = c.tbs + 24 := by
  obtain ⟨e, he, hp⟩ : ∃ e, e = (if c.seg.C = 1 then 0 else 24) ∧ ∀ i, payload c i + e = blockSize c i :=
    ⟨_, rfl, fun i => (payload_ok h i).2.2.2⟩
  have key1 : ∀ i ≤ c.seg.C2, offset c i + i * e = i * c.seg.K2 := by
    intro i hi
    induction i with
    | zero => simp [offset]
    | succ i ih =>
      have ih := ih (by omega)
      have := hp i
      have hb : blockSize c i = c.seg.K2 := if_pos (by omega)
      rw [offset, Nat.add_mul, Nat.add_mul]
      omega
  have key2 : ∀ i, offset c (c.seg.C2 + i) + (c.seg.C2 + i) * e = c.seg.C2 * c.seg.K2 + i * c.seg.K1 := by
    intro i
    induction i with
    | zero => rw [Nat.add_zero, key1 _ (Nat.le_refl _)]; omega
    | succ i ih =>
      have := hp (c.seg.C2 + i)
      have hb : blockSize c (c.seg.C2 + i) = c.seg.K1 := if_neg (by omega)
      rw [← Nat.add_assoc, offset, Nat.add_mul _ 1, Nat.add_mul i]
      omega
  have := key2 c.seg.C1
  have ht := h.total
  have hs := h.sum
  rw [show c.seg.C2 + c.seg.C1 = c.seg.C by omega] at this
  unfold withCrc at ht
  by_cases h1 : c.seg.C = 1
  · rw [if_pos h1] at ht he
    rw [he] at this
    omega
  · rw [if_neg h1] at ht he
    rw [he] at this
    omega

/-- Where the decoder reads: it starts where the encoder wrote, but misses one symbol of the first longer code block. -/
theorem window_eq (h : Ok z c) (i : Nat) : window c i =
    (start c i, blockBits c i - if i + c.G / c.Qm % c.seg.C = c.seg.C then c.Qm else 0) := by
  have hg := gamma_lt h
  have e1 : c.G / c.Qm % c.seg.C = c.gamma := (gamma_eq h).symm
  unfold window
  rw [sub32_le (by omega) h.small, start_eq h, e1]
  rcases blockBits_cases h i with ⟨h1, h2⟩ | ⟨h1, h2⟩
  · by_cases h3 : i = c.seg.C - c.gamma
    · rw [if_neg (by omega), if_pos (by omega), h2]
      rw [show i - (c.seg.C - c.gamma) = 0 by omega]
      simp
    · rw [if_pos (by omega), if_neg (by omega), h2]
      refine Prod.ext ?_ (by simp)
      have : i = (c.seg.C - c.gamma) + (i - (c.seg.C - c.gamma)) := by omega
      generalize hx : i - (c.seg.C - c.gamma) = x at *
      generalize c.seg.C - c.gamma = y at *
      rw [this, Nat.add_mul, Nat.mul_add]
      simp only
      omega
  · rw [if_neg (by omega), if_neg (by omega), h2, show i - (c.seg.C - c.gamma) = 0 by omega]
    simp

end Verif.Phy.Fec
