import Verif.Lemma.Channel
import Verif.Lemma.Enum

set_option linter.unusedSimpArgs false

/-!
# C09: cluster beacon message
-/

namespace Verif.Mac
open BitByte

/-- Field ranges (Table 6.4.2.3-1). The frame offset has 8 bits up to mu = 4 and 16 bits above. -/
structure BeaconOk (mu : Nat) (m : ClusterBeacon) : Prop where
  sfn : m.sfn < 256
  txp : ∀ x, m.txp = some x → 3 ≤ x ∧ x ≤ 15
  fo : ∀ x, m.fo = some x → x < if mu ≤ 4 then 256 else 65536
  nextChannel : ∀ x, m.nextChannel = some x → Channel.Assigned x
  ttn : ∀ x, m.ttn = some x → x < 2 ^ 32
  nbp : m.nbp ≤ 6
  cbp : m.cbp ≤ 10
  ctt : m.ctt ≤ 15
  rel : m.relQuality ≤ 3
  min : m.minQuality ≤ 3

/-- The values the C++ members can have: enumerators (including `lower`, `upper`, `not_defined`)
and 32-bit numbers. -/
structure BeaconTyped (m : ClusterBeacon) : Prop where
  txp : ∀ x, m.txp = some x → EnumValL 2 16 x
  ttn : ∀ x, m.ttn = some x → x < 2 ^ 32
  nbp : EnumVal 7 m.nbp
  cbp : EnumVal 11 m.cbp
  ctt : EnumVal 16 m.ctt
  rel : EnumVal 4 m.relQuality
  min : EnumVal 4 m.minQuality

theorem ClusterBeacon.isValid_iff {mu : Nat} {m : ClusterBeacon} (ht : BeaconTyped m) :
    m.isValid mu = true ↔ BeaconOk mu m := by
  have h1 : P.all m.txp (enumValidL 2 16) = true ↔ ∀ x, m.txp = some x → 3 ≤ x ∧ x ≤ 15 := by
    rw [P.all_iff]
    refine forall_congr' fun x => forall_congr' fun hx => ?_
    rw [enumValidL_iff (ht.txp x hx) (by omega)]; omega
  have h2 : P.all m.fo (fun x => !((decide (mu ≤ 4) && decide (bitmaskLsb 8 < x)) ||
      (decide (4 < mu) && decide (bitmaskLsb 16 < x)))) = true ↔
      ∀ x, m.fo = some x → x < if mu ≤ 4 then 256 else 65536 := by
    rw [P.all_iff, show bitmaskLsb 8 = 255 by decide, show bitmaskLsb 16 = 65535 by decide]
    refine forall_congr' fun x => forall_congr' fun hx => ?_
    by_cases hm : mu ≤ 4 <;> simp [hm] <;> omega
  have h3 : P.all m.nextChannel Channel.inRange = true ↔
      ∀ x, m.nextChannel = some x → Channel.Assigned x := by
    rw [P.all_iff]
    exact forall_congr' fun x => forall_congr' fun hx => Channel.inRange_iff x
  simp only [isValid, Bool.and_eq_true, h1, h2, h3, enumValid_iff ht.nbp (by omega),
    enumValid_iff ht.cbp (by omega), enumValid_iff ht.ctt (by omega),
    enumValid_iff ht.rel (by omega), enumValid_iff ht.min (by omega)]
  rw [show bitmaskLsb 8 = 255 by decide]
  constructor
  · rintro ⟨⟨⟨⟨⟨⟨⟨⟨a, b⟩, c⟩, d⟩, e⟩, f⟩, g⟩, h⟩, i⟩
    simp at a
    exact ⟨by omega, b, c, d, ht.ttn, by omega, by omega, by omega, by omega, by omega⟩
  · rintro ⟨a, b, c, d, -, e, f, g, h, i⟩
    refine ⟨⟨⟨⟨⟨⟨⟨⟨?_, b⟩, c⟩, d⟩, ?_⟩, ?_⟩, ?_⟩, ?_⟩, ?_⟩
    · simp; omega
    all_goals omega

theorem BeaconOk.typed {mu : Nat} {m : ClusterBeacon} (h : BeaconOk mu m) : BeaconTyped m where
  txp x hx := Or.inl (by have := h.txp x hx; omega)
  ttn := h.ttn
  nbp := Or.inl (by have := h.nbp; omega)
  cbp := Or.inl (by have := h.cbp; omega)
  ctt := Or.inl (by have := h.ctt; omega)
  rel := Or.inl (by have := h.rel; omega)
  min := Or.inl (by have := h.min; omega)

/-- The packed message. -/
def beaconBytes (mu : Nat) (m : ClusterBeacon) : List Nat :=
  [m.sfn, m.txp.isSome.toNat * 16 + m.powerConst.toNat * 8 + m.fo.isSome.toNat * 4 +
      m.nextChannel.isSome.toNat * 2 + m.ttn.isSome.toNat,
    m.nbp * 16 + m.cbp, m.ctt * 16 + m.relQuality * 4 + m.minQuality] ++
  (P.wr m.txp (fun x => [x]) ++ (P.wr m.fo (beBytes (foSize mu)) ++
    (P.wr m.nextChannel (beBytes 2) ++ P.wr m.ttn (beBytes 4))))

theorem toNat_le (b : Bool) : b.toNat ≤ 1 := by cases b <;> decide

theorem beaconBytes_length (mu : Nat) (m : ClusterBeacon) :
    (beaconBytes mu m).length = m.packedSize mu := by
  obtain ⟨sfn, txp, pc, fo, nc, ttn, a, b, c, d, e⟩ := m
  cases txp <;> cases fo <;> cases nc <;> cases ttn <;>
    simp [beaconBytes, ClusterBeacon.packedSize, P.wr, beBytes_length] <;> omega

theorem beBytes_channel {x : Nat} (h : x < 8192) : beBytes 2 x = wrChannel x := by
  rw [wrChannel_eq h]; simp [beBytes]; omega

theorem foSize_le (mu : Nat) : foSize mu ≤ 4 := by unfold foSize; split <;> omega

/-- C09: the layout of a packed cluster beacon; the size announced by `get_packed_size` and the one
obtained by peeking at the second byte are the number of bytes. -/
theorem C09_pack (mu : Nat) (m : ClusterBeacon) (h : BeaconOk mu m) :
    m.pack mu = .ok (beaconBytes mu m) ∧ (beaconBytes mu m).length = m.packedSize mu ∧
      Bytes (beaconBytes mu m) ∧
      ∀ rest, ClusterBeacon.peek mu (beaconBytes mu m ++ rest) = .ok (m.packedSize mu) := by
  have hv := (ClusterBeacon.isValid_iff h.typed).2 h
  have b1 := toNat_le m.txp.isSome
  have b2 := toNat_le m.powerConst
  have b3 := toNat_le m.fo.isSome
  have b4 := toNat_le m.nextChannel.isSome
  have b5 := toNat_le m.ttn.isSome
  have hsfn := h.sfn
  have hnbp := h.nbp
  have hcbp := h.cbp
  have hctt := h.ctt
  have hrel := h.rel
  have hmin := h.min
  have hpeek : ∀ rest, ClusterBeacon.peek mu (beaconBytes mu m ++ rest) = .ok (m.packedSize mu) := by
    intro rest
    simp only [ClusterBeacon.peek, beaconBytes, List.cons_append, rd_succ, rd_zero, Res.ok_bind,
      Res.pure_eq, ClusterBeacon.packedSize, Res.ok.injEq]
    generalize m.txp.isSome.toNat = x1 at *
    generalize m.powerConst.toNat = x2 at *
    generalize m.fo.isSome.toNat = x3 at *
    generalize m.nextChannel.isSome.toNat = x4 at *
    generalize m.ttn.isSome.toNat = x5 at *
    have e1 : (x1 * 16 + x2 * 8 + x3 * 4 + x4 * 2 + x5) >>> 4 &&& 1 = x1 := by bitsg; omega
    have e2 : (x1 * 16 + x2 * 8 + x3 * 4 + x4 * 2 + x5) >>> 2 &&& 1 = x3 := by bitsg; omega
    have e3 : (x1 * 16 + x2 * 8 + x3 * 4 + x4 * 2 + x5) >>> 1 &&& 1 = x4 := by bitsg; omega
    have e4 : (x1 * 16 + x2 * 8 + x3 * 4 + x4 * 2 + x5) &&& 1 = x5 := by bitsg; omega
    rw [e1, e2, e3, e4]
  refine ⟨?_, beaconBytes_length mu m, ?_, hpeek⟩
  · simp only [ClusterBeacon.pack, hv, Res.assert_true, Res.ok_bind]
    have q1 : P.wr m.txp (fun x => [u8 x]) = P.wr m.txp fun x => [x] :=
      P.wr_congr _ _ _ fun x hx => by have := h.txp x hx; simp [u8]; omega
    have q2 : (P.wrM m.fo fun x => l2bLower 4 x (foSize mu)) =
        .ok (P.wr m.fo (beBytes (foSize mu))) :=
      P.wrM_eq _ _ _ fun x _ => l2bLower_eq x (foSize_le mu)
    have q3 : P.wr m.nextChannel wrChannel = P.wr m.nextChannel (beBytes 2) :=
      P.wr_congr _ _ _ fun x hx => (beBytes_channel (Channel.lt_of_assigned (h.nextChannel x hx))).symm
    have q4 : (P.wrM m.ttn fun x => l2bLower 4 x 4) = .ok (P.wr m.ttn (beBytes 4)) :=
      P.wrM_eq _ _ _ fun x _ => l2bLower_eq x (Nat.le_refl 4)
    rw [q1, q2, q3, q4]
    simp only [Res.ok_bind]
    have e0 : u8 m.sfn = m.sfn := Nat.mod_eq_of_lt hsfn
    have e1 : u8 (u8 (u8 (u8 (u8 (m.txp.isSome.toNat <<< 4) ||| m.powerConst.toNat <<< 3) |||
        m.fo.isSome.toNat <<< 2) ||| m.nextChannel.isSome.toNat <<< 1) ||| m.ttn.isSome.toNat) =
        m.txp.isSome.toNat * 16 + m.powerConst.toNat * 8 + m.fo.isSome.toNat * 4 +
          m.nextChannel.isSome.toNat * 2 + m.ttn.isSome.toNat := by
      clear hpeek q1 q2 q3 q4 hv
      generalize m.txp.isSome.toNat = x1 at *
      generalize m.powerConst.toNat = x2 at *
      generalize m.fo.isSome.toNat = x3 at *
      generalize m.nextChannel.isSome.toNat = x4 at *
      generalize m.ttn.isSome.toNat = x5 at *
      bitsg; omega
    have e2 : u8 (u8 (m.nbp <<< 4) ||| m.cbp) = m.nbp * 16 + m.cbp := by
      bitsg; omega
    have e3 : u8 (u8 (u8 (m.ctt <<< 4) ||| m.relQuality <<< 2) ||| m.minQuality) =
        m.ctt * 16 + m.relQuality * 4 + m.minQuality := by
      clear hpeek q1 q2 q3 q4 hv e1 e2; bitsg; omega
    rw [e0, e1, e2, e3]
    change (ClusterBeacon.peek mu (beaconBytes mu m) >>= fun n => _) = _
    have := hpeek []
    rw [List.append_nil] at this
    rw [this, Res.ok_bind]
    change (Res.assert (decide (m.packedSize mu = (beaconBytes mu m).length)) >>= _) = _
    rw [beaconBytes_length]
    simp [beaconBytes]
  · intro b hb
    simp only [beaconBytes, List.mem_append, List.mem_cons, List.not_mem_nil, or_false] at hb
    have hw : ∀ (o : Option Nat) n, b ∈ P.wr o (beBytes n) → b < 256 := by
      intro o n hb
      cases o with
      | none => simp [P.wr] at hb
      | some x => exact beBytes_bytes n x b hb
    rcases hb with (rfl | rfl | rfl | rfl) | hb | hb | hb | hb
    · omega
    · omega
    · omega
    · omega
    · cases hx : m.txp with
      | none => simp [hx, P.wr] at hb
      | some x =>
        have := h.txp x hx
        simp [hx, P.wr] at hb; omega
    · exact hw _ _ hb
    · exact hw _ _ hb
    · exact hw _ _ hb

theorem bit_ne (x : Nat) : (x % 2 != 0) = decide (x % 2 = 1) := by
  have : x % 2 = 0 ∨ x % 2 = 1 := by omega
  rcases this with h | h <;> simp [h]

theorem ClusterBeacon.parse_run (mu : Nat) (m : ClusterBeacon) (h : BeaconOk mu m)
    (rest : List Nat) :
    (parse mu).run 0 (beaconBytes mu m ++ rest) = .ok (m, m.packedSize mu, rest) := by
  have hlen := beaconBytes_length mu m
  have hnbp := h.nbp
  have hcbp := h.cbp
  have hctt := h.ctt
  have hrel := h.rel
  have hmin := h.min
  have ebits : ∀ (a b c d e : Bool),
      let x := a.toNat * 16 + b.toNat * 8 + c.toNat * 4 + d.toNat * 2 + e.toNat
      (x >>> 4 &&& 1 != 0) = a ∧ (x >>> 3 &&& 1 != 0) = b ∧ (x >>> 2 &&& 1 != 0) = c ∧
        (x >>> 1 &&& 1 != 0) = d ∧ (x &&& 1 != 0) = e := by decide
  obtain ⟨e1, e2, e3, e4, e5⟩ := ebits m.txp.isSome m.powerConst m.fo.isSome m.nextChannel.isSome
    m.ttn.isSome
  have f1 : (m.nbp * 16 + m.cbp) >>> 4 = m.nbp := by bitsg; omega
  have f2 : (m.nbp * 16 + m.cbp) &&& bitmaskLsb 4 = m.cbp := by
    rw [show bitmaskLsb 4 = 15 by decide]; bitsg; omega
  have f3 : (m.ctt * 16 + m.relQuality * 4 + m.minQuality) >>> 4 = m.ctt := by bitsg; omega
  have f4 : (m.ctt * 16 + m.relQuality * 4 + m.minQuality) >>> 2 &&& bitmaskLsb 2 =
      m.relQuality := by rw [show bitmaskLsb 2 = 3 by decide]; bitsg; omega
  have f5 : (m.ctt * 16 + m.relQuality * 4 + m.minQuality) &&& bitmaskLsb 2 = m.minQuality := by
    rw [show bitmaskLsb 2 = 3 by decide]; bitsg; omega
  have r1 := fun o l => P.run_opt (do
      let t ← P.byte
      pure (enumFromL 2 16 (t &&& bitmaskLsb 4))) (fun x => [x]) m.txp o l (by
    intro a ha
    have := h.txp a ha
    have e : a &&& bitmaskLsb 4 = a := by rw [show bitmaskLsb 4 = 15 by decide]; bitsg; omega
    simp only [P.run_bind, List.cons_append, List.nil_append, P.run_byte, Res.ok_bind, e,
      enumFromL_of (show 2 < a by omega) (show a < 16 by omega), P.run_pure, List.length_cons,
      List.length_nil])
  have r2 := fun o l => P.run_opt (P.be 4 (foSize mu)) (beBytes (foSize mu)) m.fo o l (by
    intro a ha
    have := h.fo a ha
    rw [beBytes_length]
    refine P.run_be 4 _ a o l (foSize_le mu) ?_
    unfold foSize
    by_cases hm : mu ≤ 4
    · rw [if_pos hm] at this ⊢; omega
    · rw [if_neg hm] at this ⊢; omega)
  have r3 := fun o l => P.run_opt rdChannel (beBytes 2) m.nextChannel o l (by
    intro a ha
    have := Channel.lt_of_assigned (h.nextChannel a ha)
    rw [beBytes_length, beBytes_channel this]
    exact run_rdChannel this o l)
  have r4 := fun o l => P.run_opt (P.be 4 4) (beBytes 4) m.ttn o l (by
    intro a ha
    have := h.ttn a ha
    rw [beBytes_length]
    exact P.run_be 4 4 a o l (Nat.le_refl 4) (by omega))
  simp only [beaconBytes, List.cons_append, List.nil_append, List.append_assoc, List.length_cons,
    List.length_append] at hlen ⊢
  simp only [parse, P.run_bind, P.run_byte, Res.ok_bind, e1, e2, e3, e4, e5, f1, f2, f3, f4, f5,
    enumFrom_of_lt (show m.nbp < 7 by omega), enumFrom_of_lt (show m.cbp < 11 by omega),
    enumFrom_of_lt (show m.ctt < 16 by omega), enumFrom_of_lt (show m.relQuality < 4 by omega),
    enumFrom_of_lt (show m.minQuality < 4 by omega), P.run_offset, P.run_assert, P.run_pure]
  rw [r1, Res.ok_bind, r2, Res.ok_bind, r3, Res.ok_bind, r4, Res.ok_bind]
  have hoff : 0 + 1 + 1 + 1 + 1 + (P.wr m.txp fun x => [x]).length +
      (P.wr m.fo (beBytes (foSize mu))).length + (P.wr m.nextChannel (beBytes 2)).length +
      (P.wr m.ttn (beBytes 4)).length = m.packedSize mu := by omega
  simp only [hoff]
  simp [ClusterBeacon.packedSize]

/-- C09: round trip, with any bytes after the message. -/
theorem C09_roundtrip (mu : Nat) (m : ClusterBeacon) (h : BeaconOk mu m) (rest : List Nat) :
    ∃ l, m.pack mu = .ok l ∧ ClusterBeacon.unpack mu (l ++ rest) = .ok (m, true) := by
  refine ⟨_, (C09_pack mu m h).1, ?_⟩
  simp [ClusterBeacon.unpack, P.eval, ClusterBeacon.parse_run mu m h rest,
    (ClusterBeacon.isValid_iff h.typed).2 h]

/-- C09: a message with a field out of range aborts when packed. -/
theorem C09_abort (mu : Nat) (m : ClusterBeacon) (ht : BeaconTyped m) (h : ¬ BeaconOk mu m) :
    m.pack mu = .abort := by
  have : m.isValid mu = false := by
    rw [← Bool.not_eq_true, ClusterBeacon.isValid_iff ht]; exact h
  simp [ClusterBeacon.pack, this]

theorem ClusterBeacon.parse_mono (mu : Nat) : P.Mono (parse mu) := by
  unfold parse
  refine P.Mono.byte.bind fun _ => P.Mono.byte.bind fun _ => P.Mono.byte.bind fun _ =>
    P.Mono.byte.bind fun _ => ?_
  refine (P.Mono.opt _ (P.Mono.byte.bind fun _ => P.Mono.pure _)).bind fun _ => ?_
  refine (P.Mono.opt _ (P.Mono.be _ _)).bind fun _ => ?_
  refine (P.Mono.opt _ rdChannel_mono).bind fun _ => ?_
  refine (P.Mono.opt _ (P.Mono.be _ _)).bind fun _ => ?_
  exact P.Mono.offset.bind fun _ => (P.Mono.assert _).bind fun _ => P.Mono.pure _

theorem toNat_bit (x : Nat) : (x &&& 1 != 0).toNat = x &&& 1 := by
  rw [and1]
  have : x % 2 = 0 ∨ x % 2 = 1 := by omega
  rcases this with h | h <;> simp [h]

/-- C09: receiving. Two bytes are enough to know the size; with that many bytes, whatever they are,
unpacking neither aborts nor reads further; the message is accepted only if its fields are in
range, and more bytes behind it do not matter. -/
theorem C09_total (mu : Nat) (p : List Nat) (hp : Bytes p) (h2 : 2 ≤ p.length) :
    ∃ n, ClusterBeacon.peek mu p = .ok n ∧ 4 ≤ n ∧ n ≤ 13 ∧ (n ≤ p.length →
      ∃ m b, (∀ q, ClusterBeacon.unpack mu (p ++ q) = .ok (m, b)) ∧ m.packedSize mu = n ∧
        (b = true ↔ BeaconOk mu m)) := by
  match p, h2 with
  | s :: b1 :: l, _ =>
    have hb1 : b1 < 256 := hp b1 (by simp)
    refine ⟨_, rfl, ?_, ?_, ?_⟩
    · omega
    · have a1 := Nat.and_le_right (n := b1 >>> 4) (m := 1)
      have a2 := Nat.and_le_right (n := b1 >>> 2) (m := 1)
      have a3 := Nat.and_le_right (n := b1 >>> 1) (m := 1)
      have a4 := Nat.and_le_right (n := b1) (m := 1)
      have : foSize mu ≤ 2 := by unfold foSize; split <;> omega
      have := Nat.mul_le_mul a2 this
      omega
    · intro hn
      simp only [List.length_cons] at hn
      match l, hn with
      | [], hn => exact absurd hn (by simp; omega)
      | [_], hn => exact absurd hn (by simp; omega)
      | b2 :: b3 :: l, hn =>
        simp only [List.length_cons] at hn
        have hl : Bytes l := fun b hb => hp b (by simp [hb])
        have hr : P.Reads (do
            let txp ← P.opt ((b1 >>> 4) &&& 1 != 0) do
              let t ← P.byte
              pure (enumFromL 2 16 (t &&& bitmaskLsb 4))
            let fo ← P.opt ((b1 >>> 2) &&& 1 != 0) (P.be 4 (foSize mu))
            let nc ← P.opt ((b1 >>> 1) &&& 1 != 0) rdChannel
            let ttn ← P.opt (b1 &&& 1 != 0) (P.be 4 4)
            pure (txp, fo, nc, ttn)) _ (fun x =>
              (x.1.isSome = (b1 >>> 4 &&& 1 != 0) ∧ ∀ a, x.1 = some a → EnumValL 2 16 a) ∧
              (x.2.1.isSome = (b1 >>> 2 &&& 1 != 0)) ∧
              (x.2.2.1.isSome = (b1 >>> 1 &&& 1 != 0)) ∧
              (x.2.2.2.isSome = (b1 &&& 1 != 0) ∧ ∀ a, x.2.2.2 = some a → a < 2 ^ 32)) :=
          (P.Reads.opt _ (P.Reads.byte.bind fun t _ => P.Reads.pure (enumValL_from 2 16 _))).bind
            fun txp h1 => (P.Reads.opt _ (P.Reads.be (foSize_le mu))).bind
              fun fo h2 => (P.Reads.opt _ rdChannel_reads).bind
                fun nc h3 => (P.Reads.opt _ (P.Reads.be (Nat.le_refl 4))).bind
                  fun ttn h4 => P.Reads.pure ⟨h1, h2.1, h3.1, h4⟩
        obtain ⟨⟨txp, fo, nc, ttn⟩, ⟨⟨h1, h1'⟩, h2, h3, h4, h4'⟩, e⟩ := hr 4 l hl (by
          simp only [toNat_bit]
          omega)
        simp only [P.run_bind, Res.bind_eq_ok, P.run_pure, Res.ok.injEq, Prod.mk.injEq] at e
        obtain ⟨⟨x1, o1, l1⟩, e1, ⟨x2, o2, l2⟩, e2, ⟨x3, o3, l3⟩, e3, ⟨x4, o4, l4⟩, e4,
          ⟨rfl, rfl, rfl, rfl⟩, e5, e6⟩ := e
        simp only at e1 e2 e3 e4 e5 e6
        have hsz : ∀ m : ClusterBeacon, m.txp = x1 → m.fo = x2 → m.nextChannel = x3 →
            m.ttn = x4 → m.packedSize mu = o4 := by
          rintro m rfl rfl rfl rfl
          rw [e5]
          simp only [ClusterBeacon.packedSize, h1, h2, h3, h4, toNat_bit]
          omega
        have hrun : ∃ m, (ClusterBeacon.parse mu).run 0 (s :: b1 :: b2 :: b3 :: l) =
            .ok (m, o4, l4) ∧ m.packedSize mu = o4 ∧ BeaconTyped m := by
          simp only [ClusterBeacon.parse, P.run_bind, P.run_byte, Res.ok_bind, e1, e2, e3, e4,
            P.run_offset, P.run_assert, P.run_pure]
          refine ⟨_, by rw [hsz _ rfl rfl rfl rfl]; simp; rfl, hsz _ rfl rfl rfl rfl, ?_⟩
          exact ⟨h1', h4', enumVal_from _ _, enumVal_from _ _, enumVal_from _ _, enumVal_from _ _,
            enumVal_from _ _⟩
        obtain ⟨m, hm, hms, hmt⟩ := hrun
        refine ⟨m, m.isValid mu, ?_, ?_, ClusterBeacon.isValid_iff hmt⟩
        · intro q
          have hev : (ClusterBeacon.parse mu).eval (s :: b1 :: b2 :: b3 :: l) = .ok m := by
            simp [P.eval, hm]
          have := (ClusterBeacon.parse_mono mu).eval _ q (by rw [hev]; simp)
          rw [ClusterBeacon.unpack, this, hev]
          rfl
        · rw [hms, e5]
          simp only [toNat_bit]
          omega

/-- Non-vacuity: a beacon with all optional fields, mu = 8. -/
def sampleBeacon : ClusterBeacon :=
  { sfn := 200, txp := some 15, powerConst := true, fo := some 0x1234, nextChannel := some 1661
    ttn := some 0xDEADBEEF, nbp := 6, cbp := 10, ctt := 15, relQuality := 3, minQuality := 2 }

example : BeaconOk 8 sampleBeacon := by
  constructor <;> simp [sampleBeacon, Channel.Assigned]

example : sampleBeacon.pack 8 =
    .ok [200, 0x1F, 0x6A, 0xFE, 15, 0x12, 0x34, 0x06, 0x7D, 0xDE, 0xAD, 0xBE, 0xEF] := by
  decide +kernel

/-- Sender and receiver must use the same mu: the same message packed for mu = 1 is not recovered
with mu = 8. -/
theorem C09_mu_matters : ∃ m l, BeaconOk 1 m ∧ m.pack 1 = .ok l ∧
    ∀ b, ClusterBeacon.unpack 8 (l ++ [0, 0]) ≠ .ok (m, b) := by
  refine ⟨⟨0, none, false, some 5, none, none, 0, 0, 0, 0, 0⟩, [0, 4, 0, 0, 5],
    ?_, by decide +kernel, ?_⟩
  · constructor <;> simp [Channel.Assigned]
  · intro b; cases b <;> decide +kernel

end Verif.Mac
