import Verif.Lemma.FecEnc

/-!
# C27, C28: code blocks of the encoder
-/

set_option linter.unusedSimpArgs false

namespace Verif.Phy.Fec

open Sp3 Spec

variable {q : PsDef} {r : PacketSizes} {c : Cfg} {x : TxLib} {rnd : ℚ → ℚ} {m : TxMem} {rv : Nat} {data : Nat → Nat}
  {seq : Nat → Bool}

theorem mem_ok (hf : Fits q c m) : Mem q.z c m :=
  ⟨hf.a, hf.d, hf.cb, by rw [hf.sys]; omega⟩

theorem inv_start (st : Enc x) (crc0 : x.W) : EInv x c rv data seq crc0 (st.start crc0) (st.start crc0) :=
  ⟨Nat.zero_le _, rfl, rfl, fun _ => rfl, fun _ => rfl, fun _ _ => rfl, fun _ h => absurd h (Nat.not_lt_zero _)⟩

theorem encodeTb_eq (h : Ok q.z c) (hm : Mem q.z c m) (n : Nat) (st : Enc x) :
    encodeTb x rnd m c rv data seq n st = encodeLoop x rnd m c rv data seq (Nat.min n c.G) st := by
  unfold encodeTb
  rw [decide_eq_true h.F, Res.assert_true, Res.ok_bind, decide_eq_true hm.cb, Res.assert_true, Res.ok_bind,
    decide_eq_true (Nat.pos_iff_ne_zero.mp h.qm), Res.assert_true, Res.ok_bind]

theorem encodeAll_ok (hr : F32.Rounds rnd) (h : Ok q.z c) (hm : Mem q.z c m) {crc0 : x.W} {st0 : Enc x} :
    ∀ (ns : List Nat) (st : Enc x), EInv x c rv data seq crc0 st0 st →
      ∃ st', encodeAll x rnd m c rv data seq ns st = .ok st' ∧ EInv x c rv data seq crc0 st0 st' ∧ st.wp ≤ st'.wp ∧
        (∀ n ∈ ns, Nat.min n c.G ≤ st'.wp) ∧ (∀ k < st.wp, st'.bits k = st.bits k) ∧
        encodeTb x rnd m c rv data seq (ns.foldr Nat.max 0) st = .ok st' := by
  intro ns
  induction ns with
  | nil =>
    intro st hi
    refine ⟨st, rfl, hi, Nat.le_refl _, fun n hn => absurd hn (List.not_mem_nil), fun _ _ => rfl, ?_⟩
    rw [encodeTb_eq h hm]
    show encodeLoop x rnd m c rv data seq (Nat.min 0 c.G) st = _
    rw [show Nat.min 0 c.G = 0 from Nat.min_eq_left (Nat.zero_le _), encodeLoop, if_neg (Nat.not_lt_zero _)]
  | cons n ns ih =>
    intro st hi
    obtain ⟨st1, a1, a2, a3, a4, a5, a6, -⟩ := loop_ok (seq := seq) hr h hm (n := Nat.min n c.G) (Nat.min_le_right _ _) _ st rfl hi
    obtain ⟨st', b1, b2, b3, b4, b5, b6⟩ := ih st1 a2
    refine ⟨st', ?_, b2, by omega, ?_, ?_, ?_⟩
    · rw [encodeAll, encodeTb_eq h hm, a1]; exact b1
    · intro k hk
      rcases List.mem_cons.mp hk with rfl | hk
      · omega
      · exact b4 k hk
    · intro k hk
      rw [b5 k (by omega), a5 k hk]
    · rw [encodeTb_eq h hm] at b6 ⊢
      rw [a6] at b6
      rw [← b6]
      congr 1
      show Nat.min (Nat.max n (ns.foldr Nat.max 0)) c.G = Nat.max (Nat.min n c.G) (Nat.min (ns.foldr Nat.max 0) c.G)
      generalize ns.foldr Nat.max 0 = k
      show min (max n k) c.G = max (min n c.G) (min k c.G)
      omega

/-- For every packet and every sequence of requests, the encoder stays within its memories and the asserts hold; afterwards
all requested bits have been produced, and the counters are at the beginning of a code block. -/
theorem C28_encoder_total (hr : F32.Rounds rnd) (hp : Packet q r c) (hf : Fits q c m) (st : Enc x) (crc0 : x.W) (ns : List Nat) :
    ∃ st', encodeAll x rnd m c rv data seq ns (st.start crc0) = .ok st' ∧ (∀ n ∈ ns, min n c.G ≤ st'.wp) ∧
      st'.cbIdx ≤ c.seg.C ∧ st'.wp = Spec.start c st'.cbIdx ∧ st'.rp = offset c st'.cbIdx := by
  obtain ⟨st', h1, h2, -, h4, -⟩ := encodeAll_ok (seq := seq) hr (packet_ok hp) (mem_ok hf) ns _ (inv_start (rv := rv) st crc0)
  exact ⟨st', h1, h4, h2.le, h2.wp, h2.rp⟩

/-- Encoding in pieces yields the state of encoding at once, whatever the requests. -/
theorem C28_pieces (hr : F32.Rounds rnd) (hp : Packet q r c) (hf : Fits q c m) (st : Enc x) (crc0 : x.W) (ns : List Nat) :
    encodeAll x rnd m c rv data seq ns (st.start crc0) = encodeTb x rnd m c rv data seq (ns.foldr max 0) (st.start crc0) := by
  obtain ⟨st', h1, -, -, -, -, h6⟩ := encodeAll_ok (seq := seq) hr (packet_ok hp) (mem_ok hf) ns _ (inv_start (rv := rv) st crc0)
  rw [h1]; exact h6.symm

/-- Bits produced by a request are not changed by later requests. -/
theorem C28_final (hr : F32.Rounds rnd) (hp : Packet q r c) (hf : Fits q c m) {st st1 st2 : Enc x} {crc0 : x.W} {ns ms : List Nat}
    (h1 : encodeAll x rnd m c rv data seq ns (st.start crc0) = .ok st1) (h2 : encodeAll x rnd m c rv data seq ms st1 = .ok st2)
    {k : Nat} (hk : ∃ n ∈ ns, k < n ∧ k < c.G) : st2.bits k = st1.bits k := by
  obtain ⟨st', a1, a2, -, a4, -⟩ := encodeAll_ok (seq := seq) hr (packet_ok hp) (mem_ok hf) ns _ (inv_start (rv := rv) st crc0)
  rw [h1] at a1; cases a1
  obtain ⟨st', b1, -, -, -, b5, -⟩ := encodeAll_ok (seq := seq) hr (packet_ok hp) (mem_ok hf) ms _ a2
  rw [h2] at b1; cases b1
  obtain ⟨n, hn, h3, h4⟩ := hk
  refine b5 k (lt_of_lt_of_le ?_ (a4 n hn))
  show k < min n c.G
  omega

/-- No more code blocks than requested are encoded: the last one starts in front of the largest request. -/
theorem C28_latency (hr : F32.Rounds rnd) (hp : Packet q r c) (hf : Fits q c m) {st st1 : Enc x} {crc0 : x.W} {n : Nat}
    (h1 : encodeTb x rnd m c rv data seq n (st.start crc0) = .ok st1) :
    st1.cbIdx = 0 ∨ ∃ i, st1.cbIdx = i + 1 ∧ Spec.start c i < n := by
  have h := packet_ok hp
  have hm := mem_ok hf
  obtain ⟨st', a1, -, -, -, -, -, a7⟩ := loop_ok (seq := seq) hr h hm (n := Nat.min n c.G) (Nat.min_le_right _ _) _ _ rfl (inv_start (rv := rv) (data := data) st crc0)
  rw [encodeTb_eq h hm, a1] at h1
  cases h1
  rcases a7 with h | ⟨i, h, h'⟩
  · left; rw [h]; rfl
  · right; exact ⟨i, h, lt_of_lt_of_le h' (Nat.min_le_left _ _)⟩

/-- The windows of the code blocks are consecutive, not empty, and end at the number of coded bits. The encoder writes to the
window of code block `i` the scrambled coded bits of this code block, and it uses the whole transport block and
its CRC. -/
theorem C27_encoder (hr : F32.Rounds rnd) (hp : Packet q r c) (hf : Fits q c m) (st : Enc x) (crc0 : x.W) :
    ∃ st', encodeTb x rnd m c rv data seq c.G (st.start crc0) = .ok st' ∧ st'.cbIdx = c.seg.C ∧ st'.wp = c.G ∧ st'.rp = c.tbs + 24 ∧
      Spec.start c c.seg.C = c.G ∧ (∀ i < c.seg.C, 0 < blockBits c i) ∧
      ∀ i < c.seg.C, ∀ j < blockBits c i, st'.bits (Spec.start c i + j) = xor (seq (Spec.start c i + j))
        ((x.rm (st.soft i) (if rv = 0 then encoded x c data crc0 i else st.turbo) (blockSize c i) (blockBits c i) rv).1 j) := by
  have h := packet_ok hp
  have hm := mem_ok hf
  obtain ⟨st', a1, a2, a3, a4, a5, -⟩ := loop_ok (seq := seq) hr h hm (n := c.G) (Nat.le_refl _) _ _ rfl (inv_start (rv := rv) (data := data) st crc0)
  have hC : st'.cbIdx = c.seg.C := by
    by_contra hne
    have := (start_lt h).mpr (Nat.lt_of_le_of_ne a2.le hne)
    rw [← a2.wp] at this
    omega
  refine ⟨st', ?_, hC, ?_, ?_, start_total h, fun i _ => lt_of_lt_of_le (by omega) (blockBits_big h i), ?_⟩
  · rw [encodeTb_eq h hm, show Nat.min c.G c.G = c.G from Nat.min_self _]; exact a1
  · rw [a2.wp, hC, start_total h]
  · rw [a2.rp, hC, offset_total h]
  · intro i hi j hj
    exact a2.bits i (by omega) j hj

/-- The data of code block `i` are bytes of the transport block, in order and without gaps. -/
theorem C27_input (hp : Packet q r c) : (List.range c.seg.C).flatMap (input c data) = (List.range (c.tbs / 8)).map data := by
  have h := packet_ok hp
  have key : ∀ i, i < c.seg.C → (List.range i).flatMap (input c data) = (List.range (offset c i / 8)).map data := by
    intro i hi
    induction i with
    | zero => simp [offset]
    | succ i ih =>
      have o := offset_mod h i
      have p := (payload_ok h i).1
      rw [List.range_succ, List.flatMap_append, ih (by omega), offset, show (offset c i + payload c i) / 8 = offset c i / 8 + payload c i / 8 by omega,
        List.range_add, List.map_append]
      congr 1
      rw [List.flatMap_singleton]
      unfold input
      rw [if_neg (by omega), Nat.sub_zero, List.map_map]
      rfl
  have hp1 := h.pos
  have o := offset_mod h (c.seg.C - 1)
  have p := payload_ok h (c.seg.C - 1)
  have t := offset_total h
  have t8 := h.tbs8
  obtain ⟨n, hn⟩ : ∃ n, c.seg.C = n + 1 := ⟨c.seg.C - 1, by omega⟩
  have k := key n (by omega)
  rw [hn, List.range_succ, List.flatMap_append, k, List.flatMap_singleton]
  rw [hn, Nat.add_sub_cancel] at o p
  rw [hn, offset] at t
  have h24 : 24 ≤ payload c n := by
    have := p.2.2.2
    have hb : blockSize c n = c.seg.K1 := if_neg (by have := h.c2; omega)
    have hk := h.k1
    by_cases hC : c.seg.C = 1
    · rw [if_pos (by omega)] at this; omega
    · rw [if_neg (by omega)] at this
      have := h.k1' (by omega)
      omega
  rw [show c.tbs / 8 = offset c n / 8 + (payload c n - 24) / 8 by omega, List.range_add, List.map_append]
  congr 1
  unfold input
  rw [if_pos (by omega), List.map_map]
  rfl

end Verif.Phy.Fec
