import Verif.Props.C28_Encoder
import Verif.Props.C29_Harq

/-!
# C27: windows of encoder and decoder, examples for C27, C28, C29
-/

set_option linter.unusedSimpArgs false

namespace Verif.Phy.Fec

open Sp3 Spec

variable {q : PsDef} {r : PacketSizes} {c : Cfg} {x : TxLib} {rnd : ℚ → ℚ} {m : TxMem} {rv : Nat} {data : Nat → Nat}
  {seq : Nat → Bool}

/-- The decoder reads for each code block the window which the encoder wrote, except that for the first longer code block the
last symbol is missing. Full statement: the windows are equal for every code block; it is refuted by
`C27_negation`. -/
theorem C27_windows_partial (hp : Packet q r c) {i : Nat} (hi : i < c.seg.C) :
    (window c i).1 = Spec.start c i ∧
      ((window c i).2 = blockBits c i ∨
        0 < c.G / c.Qm % c.seg.C ∧ i = c.seg.C - c.G / c.Qm % c.seg.C ∧ (window c i).2 + c.Qm = blockBits c i) := by
  have h := packet_ok hp
  have hq := h.qm
  rw [window_eq' h]
  refine ⟨rfl, ?_⟩
  show usedBits c i = _ ∨ _ ∧ _ ∧ usedBits c i + _ = _
  unfold usedBits
  split
  · rename_i he
    right
    refine ⟨by omega, by omega, ?_⟩
    have : c.Qm ≤ blockBits c i := by
      unfold blockBits
      rw [if_pos (by omega), Nat.mul_add, Nat.mul_one]
      omega
    omega
  · left; omega

/-- The decoder never reads a soft bit for two code blocks or for the wrong code block. -/
theorem C27_disjoint (hp : Packet q r c) {i j : Nat} (hij : i < j) : (window c i).1 + (window c i).2 ≤ (window c j).1 := by
  have h := packet_ok hp
  rw [window_eq' h, window_eq' h]
  exact le_trans (window_end h i) (start_mono hij)

/-- **Finding.** For every packet whose symbols cannot be distributed evenly, there is a code block whose last symbol is
written by the encoder and never read by the decoder. -/
theorem C27_negation (hp : Packet q r c) (hg : c.G / c.Qm % c.seg.C ≠ 0) :
    ∃ i < c.seg.C, (window c i).2 < blockBits c i := by
  have h := packet_ok hp
  have hlt : c.G / c.Qm % c.seg.C < c.seg.C := Nat.mod_lt _ h.pos
  have hi : c.seg.C - c.G / c.Qm % c.seg.C < c.seg.C := by omega
  refine ⟨_, hi, ?_⟩
  rw [window_eq' h]
  show usedBits c _ < _
  unfold usedBits
  have := blockBits_big h (c.seg.C - c.G / c.Qm % c.seg.C)
  have hq := h.qm
  rw [if_pos (by omega)]
  omega

/-- **From the encoder to the decoder.** If the sign of soft bit `p` is that of bit `p` of the encoder, with any amplitude
`a p`, then the soft bits given to the rate matching of code block `i` have the signs of the coded bits of this code block,
in order and with the scrambling removed. -/
theorem C27_end_to_end (hr : F32.Rounds rnd) (hp : Packet q r c) (hf : Fits q c m) {st st' : Enc x} {crc0 : x.W}
    (he : encodeTb x rnd m c rv data seq c.G (st.start crc0) = .ok st') {ys : List Int} {a : Nat → Int}
    (hy : ∀ p < c.G, ys.getD p 0 = if st'.bits p then a p else -a p) {i : Nat} (hi : i < c.seg.C) :
    softBits c (descramble seq (window c i).1 (window c i).2 fun p => ys.getD p 0) i = (List.range (usedBits c i)).map fun k =>
      if (x.rm (st.soft i) (if rv = 0 then encoded x c data crc0 i else st.turbo) (blockSize c i) (blockBits c i) rv).1 k
        then a (Spec.start c i + k) else -a (Spec.start c i + k) := by
  have h := packet_ok hp
  obtain ⟨st1, e1, -, -, -, e2, -, e3⟩ := C27_encoder (rv := rv) (data := data) (seq := seq) hr hp hf st crc0
  rw [he] at e1
  cases e1
  have e3 := e3 i hi
  unfold softBits
  rw [window_eq' h]
  refine List.map_congr_left fun k hk => ?_
  have hk := List.mem_range.mp hk
  have hkb : k < blockBits c i := lt_of_lt_of_le hk (by unfold usedBits; omega)
  have hlt : Spec.start c i + k < c.G := by
    have := window_end h i
    have := start_mono (c := c) (show i + 1 ≤ c.seg.C from hi)
    rw [e2] at this
    omega
  simp only [descramble]
  rw [if_pos ⟨by omega, by omega⟩, hy _ hlt, e3 k hkb]
  cases seq (Spec.start c i + k) <;>
    cases (x.rm (st.soft i) (if rv = 0 then encoded x c data crc0 i else st.turbo) (blockSize c i) (blockBits c i) rv).1 k <;> simp

/-! ## Examples -/

/-- A packet of four slots with MCS 4: three code blocks, the last of which has one symbol more. -/
def exQ : PsDef := ⟨1, 1, 1, 4, 0, 4, 2048⟩

def exC : Cfg := ⟨⟨3, 1, 2, 1920, 1888, 0⟩, 5600, 4, 7672⟩

theorem C27_example_packet : ∃ r, Packet exQ r exC := by
  refine ⟨⟨exQ, ⟨4, 3, 4⟩, ⟨1, 1, false, 1, 1⟩, 40, 1918, 7672, 5754, 5600, 700, 3, 38, 112, 72, 112, 48, 2736, 32, 2848, 2880⟩, ?_⟩
  constructor <;> decide +kernel

theorem C27_example_fits : Fits exQ exC ⟨700, 959, 3, 257⟩ := by constructor <;> decide

/-- Code block windows of encoder and decoder: the last four bits of the packet are never read. -/
theorem C27_example : (List.range 4).map (Spec.start exC) = [0, 2556, 5112, 7672] ∧ (List.range 3).map (window exC) = [(0, 2556), (2556, 2556), (5112, 2556)] := by
  decide +kernel

/-- A decoder: a code block is correct if the first soft bit of any transmission was positive. -/
def exX : RxLib where
  F := Bool
  combine f e _ _ := f || decide (0 < e.headD 0)
  iter f k _ := List.replicate (k / 8) (if f then 1 else 0)
  iter_length _ _ _ := List.length_replicate
  crcCb b := decide (b.headD 0 = 1)
  crcTb b := decide (b.headD 0 = 1)
  crcMatch _ := true
  zero := false

/-- Code block 0 fails at first; in the second transmission only code block 0 can be decoded. -/
def exTs : List Tx :=
  [⟨0, [List.replicate 2556 (-1), List.replicate 5116 1], .keepRunningOrResetAndTerminateIfCrcCorrect⟩,
    ⟨2, [List.replicate 2000 1, List.replicate 556 1, List.replicate 5116 (-1)], .keepRunningOrResetAndTerminateIfCrcCorrect⟩]

def exSt : Dec exX := ⟨0, 0, fun _ => 0, List.replicate 706 0, fun _ => false, fun _ => false, fun _ _ => 0⟩

theorem C29_example : ∃ l, runHistory exX 3 16 exC (fun p => decide (p % 3 = 1)) exTs exSt = .ok l ∧ l.map Prod.fst = [false, true] := by
  obtain ⟨r, hp⟩ := C27_example_packet
  have hr : Represents exC (fresh exX) exSt := ⟨fun _ _ => rfl, fun _ _ => rfl, (fun _ _ b hb => by cases hb), (fun _ _ b hb => by cases hb)⟩
  refine ⟨_, C29_history_partial (seq := fun p => decide (p % 3 = 1)) hp (by decide) (by decide) exTs hr (by decide +kernel) ?_, ?_⟩
  · decide +kernel
  · decide +kernel

end Verif.Phy.Fec
