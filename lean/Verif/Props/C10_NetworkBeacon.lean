import Verif.Model.NetworkBeacon
import Verif.Props.C09_ClusterBeacon
import Verif.Base.ParseWP

set_option linter.unusedSimpArgs false

/-!
# C10: network beacon message

The round trip holds if the additional channels are filled without gaps; otherwise the received
message has the channels moved to the front. The conversion of a power in dBm is wrong for every
argument.
-/

namespace Verif.Mac
open BitByte

/-- Field ranges (Table 6.4.2.2-1). -/
structure NetBeaconOk (m : NetworkBeacon) : Prop where
  txp : ∀ x, m.txp = some x → 3 ≤ x ∧ x ≤ 15
  current : ∀ x, m.current = some x → Channel.Assigned x
  ch0 : ∀ x, m.ch0 = some x → Channel.Assigned x
  ch1 : ∀ x, m.ch1 = some x → Channel.Assigned x
  ch2 : ∀ x, m.ch2 = some x → Channel.Assigned x
  nbp : m.nbp ≤ 6
  cbp : m.cbp ≤ 10
  nextChannel : Channel.Assigned m.nextChannel
  ttn : m.ttn < 2 ^ 32

structure NetBeaconTyped (m : NetworkBeacon) : Prop where
  txp : ∀ x, m.txp = some x → EnumValL 2 16 x
  nbp : EnumVal 7 m.nbp
  cbp : EnumVal 11 m.cbp
  ttn : m.ttn < 2 ^ 32

theorem allChannel_iff (o : Option Nat) :
    P.all o Channel.inRange = true ↔ ∀ x, o = some x → Channel.Assigned x := by
  rw [P.all_iff]
  exact forall_congr' fun x => forall_congr' fun _ => Channel.inRange_iff x

theorem NetworkBeacon.isValid_iff {m : NetworkBeacon} (ht : NetBeaconTyped m) :
    m.isValid = true ↔ NetBeaconOk m := by
  have h1 : P.all m.txp (enumValidL 2 16) = true ↔ ∀ x, m.txp = some x → 3 ≤ x ∧ x ≤ 15 := by
    rw [P.all_iff]
    refine forall_congr' fun x => forall_congr' fun hx => ?_
    rw [enumValidL_iff (ht.txp x hx) (by omega)]; omega
  simp only [isValid, Bool.and_eq_true, h1, allChannel_iff, Channel.inRange_iff,
    enumValid_iff ht.nbp (by omega), enumValid_iff ht.cbp (by omega)]
  constructor
  · rintro ⟨⟨⟨⟨⟨⟨⟨a, b⟩, c⟩, d⟩, e⟩, f⟩, g⟩, h⟩
    exact ⟨a, b, c, d, e, by omega, by omega, h, ht.ttn⟩
  · rintro ⟨a, b, c, d, e, f, g, h, -⟩
    exact ⟨⟨⟨⟨⟨⟨⟨a, b⟩, c⟩, d⟩, e⟩, by omega⟩, by omega⟩, h⟩

theorem NetBeaconOk.typed {m : NetworkBeacon} (h : NetBeaconOk m) : NetBeaconTyped m where
  txp x hx := Or.inl (by have := h.txp x hx; omega)
  nbp := Or.inl (by have := h.nbp; omega)
  cbp := Or.inl (by have := h.cbp; omega)
  ttn := h.ttn

/-- Number of additional channels. -/
def nofCh (m : NetworkBeacon) : Nat := m.ch0.isSome.toNat + m.ch1.isSome.toNat + m.ch2.isSome.toNat

def netBeaconBytes (m : NetworkBeacon) : List Nat :=
  [m.txp.isSome.toNat * 16 + m.powerConst.toNat * 8 + m.current.isSome.toNat * 4 + nofCh m,
    m.nbp * 16 + m.cbp] ++ (beBytes 2 m.nextChannel ++ (beBytes 4 m.ttn ++
  (P.wr m.txp (fun x => [x]) ++ (P.wr m.current (beBytes 2) ++ (P.wr m.ch0 (beBytes 2) ++
    (P.wr m.ch1 (beBytes 2) ++ P.wr m.ch2 (beBytes 2)))))))

theorem netBeaconBytes_length (m : NetworkBeacon) : (netBeaconBytes m).length = m.packedSize := by
  obtain ⟨txp, pc, cur, c0, c1, c2, a, b, c, d⟩ := m
  cases txp <;> cases cur <;> cases c0 <;> cases c1 <;> cases c2 <;>
    simp [netBeaconBytes, NetworkBeacon.packedSize, P.wr, beBytes_length]

theorem nofCh_le (m : NetworkBeacon) : nofCh m ≤ 3 := by
  have b1 := toNat_le m.ch0.isSome
  have b2 := toNat_le m.ch1.isSome
  have b3 := toNat_le m.ch2.isSome
  unfold nofCh; omega

/-- C10: layout and size of a packed network beacon. -/
theorem C10_pack (m : NetworkBeacon) (h : NetBeaconOk m) :
    m.pack = .ok (netBeaconBytes m) ∧ (netBeaconBytes m).length = m.packedSize ∧
      Bytes (netBeaconBytes m) ∧
      ∀ rest, NetworkBeacon.peek (netBeaconBytes m ++ rest) = .ok m.packedSize := by
  have hv := (NetworkBeacon.isValid_iff h.typed).2 h
  have b1 := toNat_le m.txp.isSome
  have b2 := toNat_le m.powerConst
  have b3 := toNat_le m.current.isSome
  have b4 := nofCh_le m
  have hnbp := h.nbp
  have hcbp := h.cbp
  have hpeek : ∀ rest, NetworkBeacon.peek (netBeaconBytes m ++ rest) = .ok m.packedSize := by
    intro rest
    simp only [NetworkBeacon.peek, netBeaconBytes, List.cons_append, rd_succ, rd_zero, Res.ok_bind,
      Res.pure_eq, NetworkBeacon.packedSize, Res.ok.injEq]
    have e1 : (m.txp.isSome.toNat * 16 + m.powerConst.toNat * 8 + m.current.isSome.toNat * 4 +
        nofCh m) >>> 4 &&& 1 = m.txp.isSome.toNat := by bitsg; omega
    have e2 : (m.txp.isSome.toNat * 16 + m.powerConst.toNat * 8 + m.current.isSome.toNat * 4 +
        nofCh m) >>> 2 &&& 1 = m.current.isSome.toNat := by bitsg; omega
    have e3 : (m.txp.isSome.toNat * 16 + m.powerConst.toNat * 8 + m.current.isSome.toNat * 4 +
        nofCh m) &&& bitmaskLsb 2 = nofCh m := by
      rw [show bitmaskLsb 2 = 3 by decide]; bitsg; omega
    rw [e1, e2, e3, nofCh]
    omega
  refine ⟨?_, netBeaconBytes_length m, ?_, hpeek⟩
  · simp only [NetworkBeacon.pack, hv, Res.assert_true, Res.ok_bind]
    have q1 : P.wr m.txp (fun x => [u8 x]) = P.wr m.txp fun x => [x] :=
      P.wr_congr _ _ _ fun x hx => by have := h.txp x hx; simp [u8]; omega
    have qc : ∀ o : Option Nat, (∀ x, o = some x → Channel.Assigned x) →
        P.wr o wrChannel = P.wr o (beBytes 2) := fun o ho =>
      P.wr_congr _ _ _ fun x hx => (beBytes_channel (Channel.lt_of_assigned (ho x hx))).symm
    rw [q1, qc _ h.current, qc _ h.ch0, qc _ h.ch1, qc _ h.ch2,
      ← beBytes_channel (Channel.lt_of_assigned h.nextChannel), l2bLower_eq _ (Nat.le_refl 4)]
    simp only [Res.ok_bind]
    have e1 : u8 (u8 (u8 (u8 (m.txp.isSome.toNat <<< 4) ||| m.powerConst.toNat <<< 3) |||
        m.current.isSome.toNat <<< 2) ||| (m.ch0.isSome.toNat + m.ch1.isSome.toNat +
          m.ch2.isSome.toNat)) =
        m.txp.isSome.toNat * 16 + m.powerConst.toNat * 8 + m.current.isSome.toNat * 4 +
          nofCh m := by
      change u8 (_ ||| nofCh m) = _
      bitsg; omega
    have e2 : u8 (u8 (m.nbp <<< 4) ||| m.cbp) = m.nbp * 16 + m.cbp := by bitsg; omega
    rw [e1, e2]
    change (NetworkBeacon.peek (netBeaconBytes m) >>= fun n => _) = _
    have := hpeek []
    rw [List.append_nil] at this
    rw [this, Res.ok_bind]
    change (Res.assert (decide (m.packedSize = (netBeaconBytes m).length)) >>= _) = _
    rw [netBeaconBytes_length]
    simp [netBeaconBytes]
  · intro b hb
    simp only [netBeaconBytes, List.mem_append, List.mem_cons, List.not_mem_nil, or_false] at hb
    have hw : ∀ (o : Option Nat), b ∈ P.wr o (beBytes 2) → b < 256 := fun o hb =>
      P.wr_bytes o (beBytes 2) (fun x _ => beBytes_bytes 2 x) b hb
    rcases hb with (rfl | rfl) | hb | hb | hb | hb | hb | hb | hb
    · omega
    · omega
    · exact beBytes_bytes _ _ _ hb
    · exact beBytes_bytes _ _ _ hb
    · refine P.wr_bytes m.txp (fun x => [x]) (fun x hx => ?_) b hb
      intro c hc
      have := h.txp x hx
      simp at hc; omega
    all_goals exact hw _ hb

/-- What is recovered: the additional channels moved to the front. -/
def netBeaconRecovered (m : NetworkBeacon) : NetworkBeacon :=
  match [m.ch0, m.ch1, m.ch2].filterMap id with
  | [] => { m with ch0 := none, ch1 := none, ch2 := none }
  | [a] => { m with ch0 := some a, ch1 := none, ch2 := none }
  | [a, b] => { m with ch0 := some a, ch1 := some b, ch2 := none }
  | a :: b :: c :: _ => { m with ch0 := some a, ch1 := some b, ch2 := some c }

/-- The additional channels are filled without gaps. -/
def NoGaps (m : NetworkBeacon) : Prop :=
  (m.ch1.isSome = true → m.ch0.isSome = true) ∧ (m.ch2.isSome = true → m.ch1.isSome = true)

theorem recovered_of_noGaps {m : NetworkBeacon} (h : NoGaps m) : netBeaconRecovered m = m := by
  obtain ⟨txp, pc, cur, c0, c1, c2, a, b, c, d⟩ := m
  cases c0 <;> cases c1 <;> cases c2 <;> simp_all [NoGaps, netBeaconRecovered]

theorem recovered_gapless (m : NetworkBeacon) : NoGaps (netBeaconRecovered m) := by
  obtain ⟨txp, pc, cur, c0, c1, c2, a, b, c, d⟩ := m
  cases c0 <;> cases c1 <;> cases c2 <;> simp [NoGaps, netBeaconRecovered]

theorem recovered_ok {m : NetworkBeacon} (h : NetBeaconOk m) : NetBeaconOk (netBeaconRecovered m) := by
  obtain ⟨txp, pc, cur, c0, c1, c2, a, b, c, d⟩ := m
  obtain ⟨h1, h2, h3, h4, h5, h6, h7, h8, h9⟩ := h
  cases c0 <;> cases c1 <;> cases c2 <;>
    constructor <;> simp_all [netBeaconRecovered]

theorem recovered_bytes (m : NetworkBeacon) :
    netBeaconBytes (netBeaconRecovered m) = netBeaconBytes m := by
  obtain ⟨txp, pc, cur, c0, c1, c2, a, b, c, d⟩ := m
  cases c0 <;> cases c1 <;> cases c2 <;> simp [netBeaconRecovered, netBeaconBytes, nofCh, P.wr]

theorem noGaps_count {m : NetworkBeacon} (hg : NoGaps m) :
    (nofCh m == 3 || nofCh m == 2 || nofCh m == 1) = m.ch0.isSome ∧
    (nofCh m == 3 || nofCh m == 2) = m.ch1.isSome ∧ (nofCh m == 3) = m.ch2.isSome := by
  have key : ∀ a b c : Bool, (b = true → a = true) → (c = true → b = true) →
      let k := a.toNat + b.toNat + c.toNat
      (k == 3 || k == 2 || k == 1) = a ∧ (k == 3 || k == 2) = b ∧ (k == 3) = c := by decide
  exact key _ _ _ hg.1 hg.2

theorem NetworkBeacon.parse_run (m : NetworkBeacon) (h : NetBeaconOk m) (hg : NoGaps m)
    (rest : List Nat) : parse.run 0 (netBeaconBytes m ++ rest) = .ok (m, m.packedSize, rest) := by
  have hlen := netBeaconBytes_length m
  have hnbp := h.nbp
  have hcbp := h.cbp
  have ebits : ∀ (a b c : Bool), ∀ k < 4,
      let x := a.toNat * 16 + b.toNat * 8 + c.toNat * 4 + k
      (x >>> 4 &&& 1 != 0) = a ∧ (x >>> 3 &&& 1 != 0) = b ∧ (x >>> 2 &&& 1 != 0) = c ∧
        (x &&& bitmaskLsb 2) = k := by decide +kernel
  obtain ⟨e1, e2, e3, e4⟩ := ebits m.txp.isSome m.powerConst m.current.isSome (nofCh m)
    (by have := nofCh_le m; omega)
  obtain ⟨g0, g1, g2⟩ := noGaps_count hg
  have f1 : (m.nbp * 16 + m.cbp) >>> 4 = m.nbp := by bitsg; omega
  have f2 : (m.nbp * 16 + m.cbp) &&& bitmaskLsb 4 = m.cbp := by
    rw [show bitmaskLsb 4 = 15 by decide]; bitsg; omega
  have r1 := fun o l => P.run_opt (do
      let t ← P.byte
      pure (enumFromL 2 16 (t &&& bitmaskLsb 4))) (fun x => [x]) m.txp o l (by
    intro a ha
    have := h.txp a ha
    have e : a &&& bitmaskLsb 4 = a := by rw [show bitmaskLsb 4 = 15 by decide]; bitsg; omega
    simp only [P.run_bind, List.cons_append, List.nil_append, P.run_byte, Res.ok_bind, e,
      enumFromL_of (show 2 < a by omega) (show a < 16 by omega), P.run_pure, List.length_cons,
      List.length_nil])
  have rc : ∀ x : Option Nat, (∀ a, x = some a → Channel.Assigned a) → ∀ o l,
      (P.opt x.isSome rdChannel).run o (P.wr x (beBytes 2) ++ l) =
        .ok (x, o + (P.wr x (beBytes 2)).length, l) := fun x hx o l =>
    P.run_opt rdChannel (beBytes 2) x o l (by
      intro a ha
      have := Channel.lt_of_assigned (hx a ha)
      rw [beBytes_length, beBytes_channel this]
      exact run_rdChannel this o l)
  have rn : ∀ o l, rdChannel.run o (beBytes 2 m.nextChannel ++ l) = .ok (m.nextChannel, o + 2, l) := by
    intro o l
    rw [beBytes_channel (Channel.lt_of_assigned h.nextChannel)]
    exact run_rdChannel (Channel.lt_of_assigned h.nextChannel) o l
  have rt : ∀ o l, (P.be 4 4).run o (beBytes 4 m.ttn ++ l) = .ok (m.ttn, o + 4, l) := fun o l =>
    P.run_be 4 4 m.ttn o l (Nat.le_refl 4) (by have := h.ttn; omega)
  simp only [netBeaconBytes, List.cons_append, List.nil_append, List.append_assoc,
    List.length_cons, List.length_append, beBytes_length] at hlen ⊢
  unfold parse
  refine P.step (P.run_byte _ _ _) (P.step (P.run_byte _ _ _) ?_)
  refine P.step (rn _ _) (P.step (rt _ _) ?_)
  rw [e1, e2, e3, e4, f1, f2, g0, g1, g2, enumFrom_of_lt (show m.nbp < 7 by omega),
    enumFrom_of_lt (show m.cbp < 11 by omega)]
  refine P.step (r1 _ _) (P.step (rc _ h.current _ _) (P.step (rc _ h.ch0 _ _) ?_))
  refine P.step (rc _ h.ch1 _ _) (P.step (rc _ h.ch2 _ _) (P.step (P.run_offset _ _) ?_))
  refine P.step (P.run_assert_true ?_ _ _) ?_
  · rw [decide_eq_true_iff, show NetworkBeacon.packedSize _ = m.packedSize from rfl]; omega
  · rw [P.run_pure, ← hlen]
    congr 3
    omega

theorem NetworkBeacon.parse_mono : P.Mono parse := by
  have := rdChannel_mono
  unfold parse
  pmono

/-- C10 (partial): round trip, exact characterisation: the message with its additional channels
moved to the front is recovered. -/
theorem C10_recovered_partial (m : NetworkBeacon) (h : NetBeaconOk m) (rest : List Nat) :
    ∃ l, m.pack = .ok l ∧ NetworkBeacon.unpack (l ++ rest) = .ok (netBeaconRecovered m, true) := by
  refine ⟨_, (C10_pack m h).1, ?_⟩
  have h' := recovered_ok h
  have := NetworkBeacon.parse_run _ h' (recovered_gapless m) rest
  rw [recovered_bytes] at this
  simp [NetworkBeacon.unpack, P.eval, this, (NetworkBeacon.isValid_iff h'.typed).2 h']

/-- C10 (partial): round trip for messages without gaps. -/
theorem C10_roundtrip_partial (m : NetworkBeacon) (h : NetBeaconOk m) (hg : NoGaps m)
    (rest : List Nat) :
    ∃ l, m.pack = .ok l ∧ NetworkBeacon.unpack (l ++ rest) = .ok (m, true) := by
  have := C10_recovered_partial m h rest
  rwa [recovered_of_noGaps hg] at this

/-- C10: a message with a field out of range aborts when packed. -/
theorem C10_abort (m : NetworkBeacon) (ht : NetBeaconTyped m) (h : ¬ NetBeaconOk m) :
    m.pack = .abort := by
  have : m.isValid = false := by
    rw [← Bool.not_eq_true, NetworkBeacon.isValid_iff ht]; exact h
  simp [NetworkBeacon.pack, this]

/-- C10: receiving. One byte is enough to know the size; with that many bytes, whatever they are,
unpacking neither aborts nor reads further; the message is accepted exactly if its fields are in
range, and more bytes behind it do not matter. -/
theorem C10_total (p : List Nat) (hp : Bytes p) (h1 : 1 ≤ p.length) :
    ∃ n, NetworkBeacon.peek p = .ok n ∧ 8 ≤ n ∧ n ≤ 17 ∧ (n ≤ p.length →
      ∃ m b, (∀ q, NetworkBeacon.unpack (p ++ q) = .ok (m, b)) ∧ m.packedSize = n ∧
        (b = true ↔ NetBeaconOk m)) := by
  match p, h1 with
  | b0 :: l, _ =>
    have a1 := Nat.and_le_right (n := b0 >>> 4) (m := 1)
    have a2 := Nat.and_le_right (n := b0 >>> 2) (m := 1)
    have a3 : b0 &&& bitmaskLsb 2 < 4 := by rw [show bitmaskLsb 2 = 3 by decide]; bitsg; omega
    have kc : ∀ k < 4, (k == 3 || k == 2 || k == 1).toNat * 2 + (k == 3 || k == 2).toNat * 2 +
        (k == 3).toNat * 2 = k * 2 := by decide
    have kb := kc _ a3
    refine ⟨_, rfl, by omega, by omega, fun hn => ?_⟩
    have hl : Bytes l := fun b hb => hp b (by simp [hb])
    have hrun : ∃ m o l', NetworkBeacon.parse.run 0 (b0 :: l) = .ok (m, o, l') ∧
        (m.packedSize = o ∧ o = 8 + (b0 >>> 4 &&& 1) + (b0 >>> 2 &&& 1) * 2 +
          (b0 &&& bitmaskLsb 2) * 2 ∧ NetBeaconTyped m) := by
      unfold NetworkBeacon.parse
      refine P.run_step (P.run_byte _ _ _) (P.WP.run (N := l.length + 1) ?_ hl (by omega))
      rw [List.length_cons] at hn
      have t1 := toNat_bit (b0 >>> 4)
      have t2 := toNat_bit (b0 >>> 2)
      refine .bind (.byte (by omega) fun b1 _ => ?_)
      refine .bind (.ofReads rdChannel_reads (by omega) fun nc _ => ?_)
      refine .bind (.be (Nat.le_refl 4) (by omega) fun ttn httn => ?_)
      refine .bind (.opt (P.Reads.byte.bind fun t _ => .pure (enumValL_from 2 16 _)) (by omega)
        fun txp x1 y1 => ?_)
      refine .bind (.opt rdChannel_reads (by omega) fun cur x2 y2 => ?_)
      refine .bind (.opt rdChannel_reads (by omega) fun ch0 x3 y3 => ?_)
      refine .bind (.opt rdChannel_reads (by omega) fun ch1 x4 y4 => ?_)
      refine .bind (.opt rdChannel_reads (by omega) fun ch2 x5 y5 => ?_)
      refine .bind (.offset (.bind (.assert ?_ (.pure ⟨?_, ?_, ?_⟩))))
      · simp only [NetworkBeacon.packedSize, x1, x2, x3, x4, x5, decide_eq_true_iff]; omega
      · simp only [NetworkBeacon.packedSize, x1, x2, x3, x4, x5]; omega
      · omega
      · exact ⟨y1, enumVal_from _ _, enumVal_from _ _, by omega⟩
    obtain ⟨m, o, l', e, hm, ho, ht⟩ := hrun
    refine ⟨m, m.isValid, fun q => ?_, by omega, NetworkBeacon.isValid_iff ht⟩
    rw [NetworkBeacon.unpack, NetworkBeacon.parse_mono.eval_of_run e]
    rfl

/-- A valid message with channel 1 but without channel 0. -/
def gapBeacon : NetworkBeacon :=
  ⟨some 9, false, none, none, some 1661, none, 0, 0, 1657, 77⟩

/-- C10, negation: a valid message that is accepted by the receiver with different contents. -/
theorem C10_negation : NetBeaconOk gapBeacon ∧ ∃ l m', gapBeacon.pack = .ok l ∧
    NetworkBeacon.unpack l = .ok (m', true) ∧ m' ≠ gapBeacon := by
  refine ⟨by constructor <;> simp [gapBeacon, Channel.Assigned], ?_⟩
  exact ⟨[0x11, 0, 6, 0x79, 0, 0, 0, 77, 9, 6, 0x7D], { gapBeacon with ch0 := some 1661, ch1 := none },
    by decide +kernel, by decide +kernel, by decide +kernel⟩

theorem clusterTxPowerAt_mem {i : Nat} {lvl : Int} (h : clusterTxPowerAt i = .ok lvl) :
    lvl ∈ clusterTxPowerTable := by
  unfold clusterTxPowerAt at h
  cases hy : clusterTxPowerTable[i]? with
  | none => simp only [hy] at h; cases h
  | some y =>
    simp only [hy, Res.ok.injEq] at h
    exact h ▸ List.mem_of_getElem? hy

/-- C10, finding: the code computed for a power in dBm never stands for that power: for every
argument, reading the code back either fails or yields a different level than the smallest level
not below the argument. -/
theorem C10_power_negation (dBm lvl : Int)
    (hl : clusterTxPowerToDbm (clusterTxPowerFromDbm dBm) = .ok lvl) :
    ¬ (dBm ≤ lvl ∧ ∀ x ∈ clusterTxPowerTable, dBm ≤ x → lvl ≤ x) ∧ ¬ (32 < dBm ∧ lvl = 32) := by
  have key : ∀ (l : Int), l ∈ clusterTxPowerTable → clusterTxPowerToDbm (toU32 l) ≠ .ok l := by
    decide +kernel
  have hlm : lvl ∈ clusterTxPowerTable := by
    exact clusterTxPowerAt_mem hl
  have hle : ∀ y ∈ clusterTxPowerTable, y ≤ 32 := by decide
  have hsorted : clusterTxPowerTable.Pairwise (· < ·) := by decide
  unfold clusterTxPowerFromDbm at hl
  cases hf : clusterTxPowerTable.find? (fun x => decide (dBm ≤ x)) with
  | none =>
    simp only [hf] at hl
    rw [List.find?_eq_none] at hf
    have h32 := hf 32 (by decide)
    simp at h32
    have := hle lvl hlm
    refine ⟨fun h => by omega, fun h => ?_⟩
    rw [h.2] at hl
    exact key 32 (by decide) hl
  | some x =>
    simp only [hf] at hl
    have hx : x ∈ clusterTxPowerTable := List.mem_of_find?_eq_some hf
    have hne : lvl ≠ x := by
      rintro rfl
      exact key lvl hx hl
    obtain ⟨h1, as, bs, h2, h3⟩ := List.find?_eq_some_iff_append.1 hf
    simp only [decide_eq_true_iff] at h1
    refine ⟨fun h => ?_, fun h => ?_⟩
    · have a1 := h.2 x hx h1
      rw [h2] at hlm hsorted
      rcases List.mem_append.1 hlm with hm | hm
      · have := h3 lvl hm
        simp at this
        omega
      · rcases List.mem_cons.1 hm with hm | hm
        · exact hne hm
        · have := (List.pairwise_cons.1 (List.pairwise_append.1 hsorted).2.1).1 lvl hm
          omega
    · have := hle x hx
      omega

/-- The least level not below 15 dBm is 19 dBm; the code computed is 19, which stands for no level
and is received, after the cut to four bits, as the code of -13 dBm. -/
example : clusterTxPowerFromDbm 15 = 19 ∧ clusterTxPowerToDbm 19 = .abort ∧
    clusterTxPowerToDbm (19 % 16) = .ok (-13) := by decide +kernel

end Verif.Mac
