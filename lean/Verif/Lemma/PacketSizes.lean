import Verif.Model.PacketSizes
import Mathlib.Tactic.Ring
import Mathlib.Tactic.Linarith

/-!
# Facts about the transport block size and the segmentation
-/

namespace Verif.Sp3

/-- Smallest code block size not below `x` -/
def up (x : Nat) : Nat :=
  if x ≤ 40 then 40 else if x ≤ 512 then (x + 7) / 8 * 8 else if x ≤ 1024 then (x + 15) / 16 * 16
  else if x ≤ 2048 then (x + 31) / 32 * 32 else (x + 63) / 64 * 64

/-- Distance to the next smaller code block size -/
def step (x : Nat) : Nat := if x ≤ 512 then 8 else if x ≤ 1024 then 16 else if x ≤ 2048 then 32 else 64

theorem up_cases (x : Nat) : (x ≤ 40 ∧ up x = 40) ∨ (40 < x ∧ x ≤ 512 ∧ up x = (x + 7) / 8 * 8 ∧ step x = 8) ∨
    (512 < x ∧ x ≤ 1024 ∧ up x = (x + 15) / 16 * 16 ∧ step x = 16) ∨ (1024 < x ∧ x ≤ 2048 ∧ up x = (x + 31) / 32 * 32 ∧ step x = 32) ∨
    (2048 < x ∧ up x = (x + 63) / 64 * 64 ∧ step x = 64) := by
  unfold up step
  repeat' split
  all_goals omega

theorem cbIndex_spec (x : Nat) : ∀ (l : List Nat) (j : Nat), (∃ k ∈ l, x ≤ k) → ∃ i, cbIndex x l j = some (j + i) ∧ i < l.length ∧
    x ≤ l.getD i 0 ∧ (i ≠ 0 → l.getD (i - 1) 0 < x) := by
  intro l
  induction l with
  | nil => rintro j ⟨k, hk, -⟩; cases hk
  | cons a l ih =>
    rintro j ⟨k, hk, hx⟩
    rw [cbIndex]
    by_cases ha : a < x
    · rw [if_pos ha]
      have hk' : k ∈ l := by
        rcases List.mem_cons.1 hk with rfl | h
        · omega
        · exact h
      obtain ⟨i, h1, h2, h3, h4⟩ := ih (j + 1) ⟨k, hk', hx⟩
      refine ⟨i + 1, by rw [h1]; congr 1; omega, by simpa using h2, by simpa using h3, fun _ => ?_⟩
      rw [Nat.add_sub_cancel]
      cases i with
      | zero => simpa using ha
      | succ i => simpa using h4 (by omega)
    · rw [if_neg ha]
      exact ⟨0, rfl, by simp, by simpa using Nat.le_of_not_lt ha, fun h => absurd rfl h⟩

def pairOk (a b : Nat) : Bool :=
  decide (40 ≤ a ∧ b ≤ 512 ∧ b = a + 8 ∧ a % 8 = 0) || decide (512 ≤ a ∧ b ≤ 1024 ∧ b = a + 16 ∧ a % 16 = 0) ||
    decide (1024 ≤ a ∧ b ≤ 2048 ∧ b = a + 32 ∧ a % 32 = 0) || decide (2048 ≤ a ∧ b ≤ 6144 ∧ b = a + 64 ∧ a % 64 = 0)

theorem table_checked : (List.range 187).all (fun i => pairOk (tcCbSizes.getD i 0) (tcCbSizes.getD (i + 1) 0)) = true := by
  decide +kernel

theorem cbIndex_up {x : Nat} (hx : x ≤ 6144) : ∃ i, cbIndex x tcCbSizes 0 = some i ∧ tcCbSizes.getD i 0 = up x ∧
    (40 < x → i ≠ 0 ∧ tcCbSizes.getD (i - 1) 0 = up x - step x) ∧ i < 188 := by
  obtain ⟨i, h1, h2, h3, h4⟩ := cbIndex_spec x tcCbSizes 0 ⟨6144, by decide +kernel, hx⟩
  rw [Nat.zero_add] at h1
  have hl : tcCbSizes.length = 188 := by decide +kernel
  have hup := up_cases x
  refine ⟨i, h1, ?_, ?_, by omega⟩
  · cases i with
    | zero => have : tcCbSizes.getD 0 0 = 40 := rfl; omega
    | succ i =>
      have h := List.all_eq_true.1 table_checked i (List.mem_range.2 (by omega))
      simp only [pairOk, Bool.or_eq_true, decide_eq_true_eq] at h
      have h4 := h4 (by omega)
      rw [Nat.add_sub_cancel] at h4
      omega
  · intro h40
    cases i with
    | zero => have : tcCbSizes.getD 0 0 = 40 := rfl; omega
    | succ i =>
      have h := List.all_eq_true.1 table_checked i (List.mem_range.2 (by omega))
      simp only [pairOk, Bool.or_eq_true, decide_eq_true_eq] at h
      have h4 := h4 (by omega)
      rw [Nat.add_sub_cancel] at h4 ⊢
      omega

theorem getD_mem {i : Nat} (hi : i < 188) : tcCbSizes.getD i 0 ∈ tcCbSizes := by
  have hl : tcCbSizes.length = 188 := by decide +kernel
  rw [List.getD_eq_getElem?_getD, List.getElem?_eq_getElem (by omega)]
  exact List.getElem_mem _

theorem up_mem {x : Nat} (hx : x ≤ 6144) : up x ∈ tcCbSizes := by
  obtain ⟨i, -, h, -, hi⟩ := cbIndex_up hx
  rw [← h]; exact getD_mem hi

theorem down_mem {x : Nat} (hx : x ≤ 6144) (h40 : 40 < x) : up x - step x ∈ tcCbSizes := by
  obtain ⟨i, -, -, h, hi⟩ := cbIndex_up hx
  rw [← (h h40).2]; exact getD_mem (by omega)

theorem sub32_eq {a b : Nat} (h : b ≤ a) (ha : a < 4294967296) : sub32 a b = a - b := by
  unfold sub32
  omega

/-- The part of the payload bits that is used: the largest multiple of M -/
def used (n : Nat) : Nat := n / tbsM n * tbsM n

theorem used_le (n : Nat) : used n ≤ n := Nat.div_mul_le_self _ _

theorem used_cases (n : Nat) : (n ≤ 512 ∧ used n = n / 8 * 8) ∨ (512 < n ∧ n ≤ 1024 ∧ used n = n / 16 * 16) ∨
    (1024 < n ∧ n ≤ 2048 ∧ used n = n / 32 * 32) ∨ (2048 < n ∧ used n = n / 64 * 64) := by
  unfold used tbsM
  split
  · omega
  split
  · omega
  split <;> omega

theorem tbs_eq (n z : Nat) : tbs n z = if used n ≤ 24 then 0 else if used n ≤ z then used n - 24
    else used n - (ceilDiv (used n - 24) z + 1) * 24 := by
  unfold tbs
  simp only
  change (if used n = 0 then 0 else _) = _
  split
  · rename_i h; rw [if_pos (by omega)]
  · rfl

/-- Several code blocks: number of blocks -/
theorem multi {n z : Nat} (hz : z = 2048 ∨ z = 6144) (h : z < used n) :
    2 ≤ ceilDiv (used n - 24) z ∧ (ceilDiv (used n - 24) z - 1) * z + 24 < used n ∧ used n ≤ ceilDiv (used n - 24) z * z ∧
      used n % 64 = 0 ∧ z < tbs n z + 24 ∧ ceilDiv (tbs n z + 24) (z - 24) = ceilDiv (used n - 24) z ∧
      tbs n z + 24 + 24 * ceilDiv (used n - 24) z = used n := by
  have h1 := used_cases n
  have h2 := used_le n
  rw [tbs_eq, if_neg (by omega), if_neg (by omega)]
  have h3 : used n % 64 = 0 := by omega
  unfold ceilDiv
  rcases hz with rfl | rfl <;> (refine ⟨?_, ?_, ?_, h3, ?_, ?_, ?_⟩ <;> omega)

theorem cbsegm_single {n z : Nat} (hn : n < 2147483648) (hz : z = 2048 ∨ z = 6144) (h24 : 24 < used n) (h : used n ≤ z) :
    cbsegm (tbs n z) z = .ok (some ⟨1, 1, 0, up (used n), 0, up (used n) - used n⟩) := by
  have hc := used_cases n
  have ht : tbs n z = used n - 24 := by rw [tbs_eq, if_neg (by omega), if_pos h]
  obtain ⟨i, hi, hk, -, -⟩ := cbIndex_up (x := used n) (by omega)
  unfold cbsegm
  rw [if_neg (by omega)]
  have e : cbSize (tbs n z + 24) z = (1, used n) := by
    unfold cbSize
    rw [if_pos (by omega), ht, Nat.sub_add_cancel (by omega)]
  rw [e]
  simp only [Nat.div_one]
  rw [Nat.sub_add_cancel (by omega), hi]
  simp only [segWith, if_true, hk, Res.ok_bind]
  have hup := up_cases (used n)
  rw [sub32_eq (by omega) (by omega)]
  simp only [Nat.one_mul, Nat.zero_mul, Nat.add_zero]

theorem up_used {n : Nat} (h24 : 24 < used n) (h : used n ≤ 6144) : up (used n) = if used n = 32 then 40 else used n := by
  have := used_cases n
  have := up_cases (used n)
  split <;> omega

theorem up_step {x : Nat} (h1 : 1024 < x) (h2 : x ≤ 6144) :
    up x % step x = 0 ∧ x ≤ up x ∧ up x < x + step x ∧ (step x = 32 ∨ step x = 64) ∧ 64 % step x = 0 := by
  rcases up_cases x with h | h | h | ⟨-, -, h3, h4⟩ | ⟨-, h3, h4⟩
  · omega
  · omega
  · omega
  · rw [h4]; omega
  · rw [h4]; omega

theorem cbsegm_multi {n z : Nat} (hn : n < 2147483648) (hz : z = 2048 ∨ z = 6144) (h : z < used n) :
    ∃ s, cbsegm (tbs n z) z = .ok (some s) ∧ s.C = ceilDiv (used n - 24) z ∧ s.C1 + s.C2 = s.C ∧ 0 < s.C1 ∧
      s.K1 ∈ tcCbSizes ∧ s.K1 ≤ z ∧ s.K2 ∈ tcCbSizes ∧ s.K2 < s.K1 ∧ s.F = 0 ∧ s.C1 * s.K1 + s.C2 * s.K2 = used n := by
  obtain ⟨m1, m2, m3, m4, m5, m6, m7⟩ := multi hz h
  have hun := used_le n
  generalize hc : ceilDiv (used n - 24) z = c at *
  generalize hN : used n = N at *
  have hcz : c * z < 4294967296 := by
    have e : c * z = (c - 1) * z + z := by
      rw [Nat.sub_mul, Nat.one_mul, Nat.sub_add_cancel (Nat.le_mul_of_pos_left z (by omega))]
    have hz2 : z ≤ 6144 := by omega
    omega
  -- size of the largest block
  have hx1 : (N - 1) / c + 1 ≤ z := by
    have : (N - 1) / c < z := Nat.div_lt_of_lt_mul (by omega)
    omega
  have hx2 : z / 2 < (N - 1) / c + 1 := by
    have : z / 2 ≤ (N - 1) / c := by
      rw [Nat.le_div_iff_mul_le (by omega)]
      rcases hz with rfl | rfl <;> omega
    omega
  have hdiv := Nat.div_mul_le_self (N - 1) c
  have hdiv2 : N - 1 < ((N - 1) / c + 1) * c := by
    have h1 := Nat.div_add_mod (N - 1) c
    have h2 := Nat.mod_lt (N - 1) (show 0 < c by omega)
    rw [Nat.add_mul, Nat.one_mul, Nat.mul_comm]
    omega
  generalize hxe : (N - 1) / c + 1 = x at *
  have hxx : (N - 1) / c = x - 1 := by omega
  rw [hxx] at hdiv
  have h1024 : 1024 < x := by rcases hz with rfl | rfl <;> omega
  have h6144 : x ≤ 6144 := by rcases hz with rfl | rfl <;> omega
  obtain ⟨i, hi, hk, hk2, -⟩ := cbIndex_up h6144
  obtain ⟨hi0, hk2⟩ := hk2 (by omega)
  obtain ⟨u1, u2, u3, u4, u5⟩ := up_step h1024 h6144
  have hK1z : up x ≤ z := by
    have := up_cases x
    rcases hz with rfl | rfl <;> omega
  have hmem1 := up_mem h6144
  have hmem2 := down_mem h6144 (by omega)
  obtain ⟨k, hk'⟩ := Nat.dvd_of_mod_eq_zero u1
  obtain ⟨m, hm'⟩ : step x ∣ N := by
    rcases u4 with h4 | h4 <;> rw [h4] <;> omega
  have hs0 : 0 < step x := by omega
  -- relation between the block sizes and the number of bits
  have hA : N ≤ c * up x := by
    calc N ≤ x * c := by omega
      _ ≤ c * up x := by rw [Nat.mul_comm]; exact Nat.mul_le_mul_left _ u2
  have hB : c * (up x - step x) < N := by
    calc c * (up x - step x) ≤ c * (x - 1) := Nat.mul_le_mul_left _ (by omega)
      _ < N := by rw [Nat.mul_comm]; omega
  have hkm : m ≤ c * k := by
    rw [hk', hm'] at hA
    exact Nat.le_of_mul_le_mul_left (by rw [Nat.mul_left_comm] at hA; exact hA) hs0
  have hk1 : up x - step x = step x * (k - 1) := by rw [hk', Nat.mul_sub, Nat.mul_one]
  have hkm2 : c * (k - 1) < m := by
    rw [hk1, hm', Nat.mul_left_comm] at hB
    exact Nat.lt_of_mul_lt_mul_left hB
  have hkpos : 0 < k := by
    rcases Nat.eq_zero_or_pos k with rfl | h0
    · rw [Nat.mul_zero] at hk'; omega
    · exact h0
  have hcK : c * up x < 4294967296 := by
    calc c * up x ≤ c * z := Nat.mul_le_mul_left _ hK1z
      _ < _ := hcz
  have hc2 : (c * up x - N) / step x = c * k - m := by
    rw [hk', hm', Nat.mul_left_comm, ← Nat.mul_sub, Nat.mul_div_cancel_left _ hs0]
  have hc2le : c * k - m < c := by
    have : c * k = c * (k - 1) + c := by
      obtain ⟨j, rfl⟩ : ∃ j, k = j + 1 := ⟨k - 1, by omega⟩
      rw [Nat.add_sub_cancel]; ring
    omega
  have hcs : c < 4294967296 := by
    calc c ≤ c * z := Nat.le_mul_of_pos_right _ (by omega)
      _ < _ := hcz
  have hsum : (c - (c * k - m)) * up x + (c * k - m) * (up x - step x) = N := by
    rw [hk1, hk', hm']
    obtain ⟨j, rfl⟩ : ∃ j, k = j + 1 := ⟨k - 1, by omega⟩
    obtain ⟨d, hd⟩ : ∃ d, c * (j + 1) = m + d := ⟨c * (j + 1) - m, by omega⟩
    obtain ⟨e, rfl⟩ : ∃ e, c = d + e := ⟨c - d, by omega⟩
    rw [hd, Nat.add_sub_cancel_left, Nat.add_sub_cancel_left, Nat.add_sub_cancel]
    have hm3 : m = (d + e) * (j + 1) - d := by omega
    have hm4 : (d + e) * (j + 1) - d = (d + e) * j + e := by
      rw [Nat.mul_add, Nat.mul_one]; omega
    rw [hm3, hm4]; ring
  have hsub : up x - (up x - step x) = step x := by
    have : step x ≤ up x := by omega
    omega
  refine ⟨⟨c, c - (c * k - m), c * k - m, up x, up x - step x, 0⟩, ?_, rfl, ?_, ?_, hmem1, hK1z, hmem2, ?_, rfl, hsum⟩
  · unfold cbsegm
    rw [if_neg (by omega)]
    have e : cbSize (tbs n z + 24) z = (c, N) := by
      unfold cbSize
      rw [if_neg (by omega), m6, m7]
    rw [e]
    simp only
    rw [hxe, hi]
    simp only [segWith, if_neg (show c ≠ 1 by omega), if_neg hi0, hk, hk2]
    rw [if_neg (by omega), sub32_eq hA hcK, hsub, hc2, sub32_eq (by omega) hcs, hsum,
      sub32_eq (Nat.le_refl N) (by omega), Nat.sub_self]
    rfl
  · show c - (c * k - m) + (c * k - m) = c
    omega
  · show 0 < c - (c * k - m)
    omega
  · show up x - step x < up x
    omega

end Verif.Sp3
