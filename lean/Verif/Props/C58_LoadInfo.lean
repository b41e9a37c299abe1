import Verif.Model.LoadInfo
import Verif.Props.C54_RandomAccess
import Verif.Lemma.Split

set_option linter.unusedSimpArgs false

/-!
# C58: load info IE and measurement report IE

The size found by peeking is too large if the load info IE has a load of portable points or of the
random access channel, and if the measurement report has a transmission count. Such IEs abort the
sender, and whatever follows them in a received PDU is read at the wrong place.
-/

namespace Verif.Mac
open BitByte

/-- An optional octet. -/
def OctetOk (x : Option Nat) : Prop := ∀ a, x = some a → a ≤ 255

/-- Field ranges (Table 6.4.3.10-1). -/
structure LoadOk (m : LoadInfo) : Prop where
  maxAssoc : m.maxAssoc ≤ 1
  pt : OctetOk m.pt
  rach : OctetOk m.rach
  channel : ∀ x, m.channel = some x → x.1 ≤ 255 ∧ x.2 ≤ 255
  traffic : m.traffic ≤ 255
  maxRd : m.maxRd < 256 ^ (m.maxAssoc + 1)
  ft : m.ft ≤ 255

theorem octet_iff (x : Option Nat) :
    P.all x (fun x => !decide (0xff < x)) = true ↔ OctetOk x := by
  rw [P.all_iff]; simp [OctetOk]

theorem LoadInfo.isValid_iff {m : LoadInfo} (ht : EnumVal 2 m.maxAssoc) :
    m.isValid = true ↔ LoadOk m := by
  have e1 := enumValid_iff ht (by omega : 2 ≤ 1000)
  have e2 : P.all m.channel (fun x => !(decide (0xff < x.1) || decide (0xff < x.2))) = true ↔
      ∀ x, m.channel = some x → x.1 ≤ 255 ∧ x.2 ≤ 255 := by
    rw [P.all_iff]; simp
  have e3 : m.maxAssoc ≤ 1 → (¬ (if m.maxAssoc = 0 then 0xff else 0xffff) < m.maxRd ↔
      m.maxRd < 256 ^ (m.maxAssoc + 1)) := by
    intro h
    have : m.maxAssoc = 0 ∨ m.maxAssoc = 1 := by omega
    rcases this with h | h <;> simp [h] <;> omega
  unfold isValid
  generalize (if m.maxAssoc = 0 then 0xff else 0xffff) = z at e3 ⊢
  constructor
  · intro hv
    split at hv
    · cases hv
    · rename_i c0
      split at hv
      · cases hv
      · rename_i c1
        split at hv
        · cases hv
        · rename_i c2
          split at hv
          · cases hv
          · rename_i c3
            split at hv
            · cases hv
            · split at hv
              · cases hv
              · rename_i c5
                have h0 := e1.1 (by simpa using c0)
                exact ⟨by omega, (octet_iff _).1 (by simpa using c1),
                  (octet_iff _).1 (by simpa using c2), e2.1 (by simpa using c3), by omega,
                  (e3 (by omega)).1 c5, by simpa using hv⟩
  · rintro ⟨a, b, c, d, e, f, g⟩
    rw [e1.2 (by omega), (octet_iff _).2 b, (octet_iff _).2 c, e2.2 d]
    rw [if_neg (by decide), if_neg (by decide), if_neg (by decide), if_neg (by decide),
      if_neg (by omega), if_neg ((e3 a).2 f)]
    simpa using g

/-- The octets of the load info IE. -/
def loadBytes (m : LoadInfo) : List Nat :=
  [m.maxAssoc * 8 + m.pt.isSome.toNat * 4 + m.rach.isSome.toNat * 2 + m.channel.isSome.toNat,
    m.traffic] ++ (beBytes (m.maxAssoc + 1) m.maxRd ++ ([m.ft] ++ (P.wr m.pt (fun x => [x]) ++
    (P.wr m.rach (fun x => [x]) ++ P.wr m.channel (fun x => [x.1, x.2])))))

/-- The size of the load info IE. -/
def loadSize (m : LoadInfo) : Nat :=
  4 + m.maxAssoc + m.pt.isSome.toNat + m.rach.isSome.toNat + m.channel.isSome.toNat * 2

theorem loadBytes_length (m : LoadInfo) : (loadBytes m).length = loadSize m := by
  simp only [loadBytes, loadSize, List.length_append, beBytes_length, List.length_cons,
    List.length_nil, wr_length m.pt (fun x => [x]) 1 (fun _ => rfl),
    wr_length m.rach (fun x => [x]) 1 (fun _ => rfl),
    wr_length m.channel (fun x => [x.1, x.2]) 2 (fun _ => rfl)]
  omega

/-- C58, the code does not meet the claim: the size the receiver finds by peeking is three octets too
large with a load of portable points, and one octet too large with a load of the random access
channel. -/
theorem C58_load_finding_peek (m : LoadInfo) (h : m.maxAssoc ≤ 1) (rest : List Nat) :
    LoadInfo.peek (loadBytes m ++ rest) =
      .ok (loadSize m + 3 * m.pt.isSome.toNat + m.rach.isSome.toNat) := by
  have bits : ∀ (a b c : Bool), ∀ k < 2,
      let x := k * 8 + a.toNat * 4 + b.toNat * 2 + c.toNat
      (if x &&& 8 = 0 then 4 else 5) = 4 + k ∧ x &&& 4 = a.toNat * 4 ∧ x &&& 2 = b.toNat * 2 ∧
        x &&& 1 = c.toNat := by decide +kernel
  obtain ⟨e1, e2, e3, e4⟩ := bits m.pt.isSome m.rach.isSome m.channel.isSome m.maxAssoc (by omega)
  simp only [LoadInfo.peek, loadBytes, List.cons_append, rd_zero, Res.ok_bind, e1, e2, e3, e4,
    Res.pure_eq, Res.ok.injEq, loadSize]
  omega

theorem LoadInfo.pack_eq (m : LoadInfo) (h : LoadOk m) : m.pack =
    (LoadInfo.peek (loadBytes m) >>= fun n => Res.assert (decide (n = (loadBytes m).length)) >>=
      fun _ => pure (loadBytes m)) := by
  obtain ⟨h1, h2, h3, h4, h5, h6, h7⟩ := h
  have hv : m.isValid = true := (LoadInfo.isValid_iff (Or.inl (by omega))).2
    ⟨h1, h2, h3, h4, h5, h6, h7⟩
  have hk : (if m.maxAssoc = 0 then 1 else 2) = m.maxAssoc + 1 := by split <;> omega
  have e0 : ∀ (a b c : Bool), ∀ k < 2, u8 (u8 (u8 (u8 (k <<< 3) ||| a.toNat <<< 2) |||
      b.toNat <<< 1) ||| c.toNat) = k * 8 + a.toNat * 4 + b.toNat * 2 + c.toNat := by
    decide +kernel
  have hu : ∀ x, x ≤ 255 → u8 x = x := fun x hx => Nat.mod_eq_of_lt (by omega)
  simp only [LoadInfo.pack, hv, Res.assert_true, Res.ok_bind, hk,
    l2bLower_eq _ (show m.maxAssoc + 1 ≤ 4 by omega), e0 _ _ _ _ (show m.maxAssoc < 2 by omega),
    hu _ h5, hu _ h7]
  rw [P.wr_congr m.pt _ (fun x => [x]) (fun x hx => by rw [hu x (h2 x hx)]),
    P.wr_congr m.rach _ (fun x => [x]) (fun x hx => by rw [hu x (h3 x hx)]),
    P.wr_congr m.channel _ (fun x => [x.1, x.2]) (fun x hx => by
      rw [hu _ (h4 x hx).1, hu _ (h4 x hx).2])]
  rfl

/-- C58, exact: a load info IE in range is packed in the layout of the standard if it has neither a
load of portable points nor of the random access channel, and aborts the sender otherwise. -/
theorem C58_load_pack_partial (m : LoadInfo) (h : LoadOk m) :
    (m.pt = none → m.rach = none → m.pack = .ok (loadBytes m) ∧ m.packedSize = .ok (loadSize m) ∧
      (loadBytes m).length = loadSize m) ∧
    ((m.pt.isSome = true ∨ m.rach.isSome = true) → m.pack = .abort) := by
  have hpk := C58_load_finding_peek m h.maxAssoc []
  rw [List.append_nil] at hpk
  have hv : m.isValid = true := (LoadInfo.isValid_iff (Or.inl (by have := h.maxAssoc; omega))).2 h
  have hm := h.maxAssoc
  rw [LoadInfo.pack_eq m h, hpk, loadBytes_length]
  constructor
  · intro h1 h2
    refine ⟨by simp [h1, h2], ?_, rfl⟩
    simp only [LoadInfo.packedSize, hv, Res.assert_true, Res.ok_bind, Res.pure_eq, Res.ok.injEq,
      loadSize]
    split <;> omega
  · intro hc
    have : decide (loadSize m + 3 * m.pt.isSome.toNat + m.rach.isSome.toNat = loadSize m) =
        false := by
      rw [decide_eq_false_iff_not]
      rcases hc with hc | hc <;> rw [hc] <;> simp <;> omega
    simp only [Res.ok_bind, this]
    rfl

/-- C58: a load info IE with a field out of range aborts the sender. -/
theorem C58_load_abort (m : LoadInfo) (ht : EnumVal 2 m.maxAssoc) (h : ¬ LoadOk m) :
    m.pack = .abort := by
  have : m.isValid = false := by
    rw [← Bool.not_eq_true, LoadInfo.isValid_iff ht]; exact h
  simp [LoadInfo.pack, this]

theorem LoadInfo.parse_run (m : LoadInfo) (h : LoadOk m) (rest : List Nat) :
    parse.run 0 (loadBytes m ++ rest) = .ok ((m, loadSize m), loadSize m, rest) := by
  have h1 := h.maxAssoc
  have hlen := loadBytes_length m
  simp only [loadBytes, List.length_append, beBytes_length, List.length_cons,
    List.length_nil] at hlen
  have bits : ∀ (a b c : Bool), ∀ k < 2,
      let x := k * 8 + a.toNat * 4 + b.toNat * 2 + c.toNat
      (x >>> 3) &&& 1 = k ∧ (x &&& 4 != 0) = a ∧ (x &&& 2 != 0) = b ∧ (x &&& 1 != 0) = c := by
    decide +kernel
  obtain ⟨e1, e2, e3, e4⟩ := bits m.pt.isSome m.rach.isSome m.channel.isSome m.maxAssoc (by omega)
  have hk : (if m.maxAssoc = 0 then 1 else 2) = m.maxAssoc + 1 := by split <;> omega
  have r1 := fun o l => P.run_opt P.byte (fun x => [x]) m.pt o l fun a _ => rfl
  have r2 := fun o l => P.run_opt P.byte (fun x => [x]) m.rach o l fun a _ => rfl
  have r3 := fun o l => P.run_opt (do
    let c ← P.byte
    let d ← P.byte
    pure (c, d)) (fun x => [x.1, x.2]) m.channel o l fun a _ => rfl
  have rs : ∀ o l, (P.be 4 (m.maxAssoc + 1)).run o (beBytes (m.maxAssoc + 1) m.maxRd ++ l) =
      .ok (m.maxRd, o + (m.maxAssoc + 1), l) := fun o l =>
    P.run_be 4 _ _ _ _ (by omega) h.maxRd
  unfold loadBytes
  simp only [List.cons_append, List.nil_append, List.append_assoc]
  unfold parse
  refine P.step (P.run_byte _ _ _) ?_
  simp only [e1, e2, e3, e4, enumFrom_of_lt (show m.maxAssoc < 2 by omega), hk]
  refine P.step (P.run_byte _ _ _) (P.step (rs _ _) (P.step (P.run_byte _ _ _) ?_))
  refine P.step (r1 _ _) (P.step (r2 _ _) (P.step (r3 _ rest) (P.step (P.run_offset _ _) ?_)))
  rw [P.run_pure]
  have he : 0 + 1 + 1 + (m.maxAssoc + 1) + 1 + (P.wr m.pt fun x => [x]).length +
      (P.wr m.rach fun x => [x]).length + (P.wr m.channel fun x => [x.1, x.2]).length =
      loadSize m := by omega
  rw [he]

/-- C58: an IE in the layout of the standard is received correctly: the reading itself handles all
optional fields. -/
theorem C58_load_receive_standard (m : LoadInfo) (h : LoadOk m) (rest : List Nat) :
    LoadInfo.unpack (loadBytes m ++ rest) = .ok (m, true) := by
  have hm := h.maxAssoc
  have hv : m.isValid = true := (LoadInfo.isValid_iff (Or.inl (by omega))).2 h
  have hsz : m.packedSize = .ok (loadSize m) := by
    simp only [LoadInfo.packedSize, hv, Res.assert_true, Res.ok_bind, Res.pure_eq, Res.ok.injEq,
      loadSize]
    split <;> omega
  have hev : LoadInfo.parse.eval (loadBytes m ++ rest) = .ok (m, loadSize m) := by
    unfold P.eval; rw [LoadInfo.parse_run m h rest]; rfl
  simp only [LoadInfo.unpack, hev, Res.ok_bind, hsz, decide_true, Res.assert_true, hv, Res.pure_eq]

/-- C58 (partial): round trip. Missing: loads of portable points and of the random access channel. -/
theorem C58_load_roundtrip_partial (m : LoadInfo) (h : LoadOk m) (h1 : m.pt = none)
    (h2 : m.rach = none) (rest : List Nat) :
    ∃ l, m.pack = .ok l ∧ LoadInfo.unpack (l ++ rest) = .ok (m, true) :=
  ⟨_, ((C58_load_pack_partial m h).1 h1 h2).1, C58_load_receive_standard m h rest⟩

/-- The octets a load info IE with first octet `b` has by the standard. -/
def loadNeed (b : Nat) : Nat := 4 + b / 8 % 2 + b / 4 % 2 + b / 2 % 2 + b % 2 * 2

/-- C58: whatever octets arrive, as many as the first one announces by the standard, the receiver
delivers a valid IE; re-encoded in the layout of the standard it gives the octets received, up to the
reserved bits of the first. -/
theorem C58_load_receive (b : Nat) (q : List Nat) (hb : Bytes (b :: q))
    (hn : loadNeed b ≤ (b :: q).length) :
    ∃ m rest, LoadInfo.unpack (b :: q) = .ok (m, true) ∧ LoadOk m ∧
      (b % 16) :: q = loadBytes m ++ rest ∧ (loadBytes m).length = loadNeed b := by
  have hb0 : b < 256 := hb b (by simp)
  have hq : Bytes q := fun c hc => hb c (by simp [hc])
  have hbits : ∀ x < 256, ∃ k < 2, ∃ (u v w : Bool), x % 16 = k * 8 + u.toNat * 4 + v.toNat * 2 +
      w.toNat ∧ loadNeed x = 4 + k + u.toNat + v.toNat + w.toNat * 2 ∧
      ((x % 16) >>> 3) &&& 1 = (x >>> 3) &&& 1 ∧ (x % 16) &&& 4 = x &&& 4 ∧
      (x % 16) &&& 2 = x &&& 2 ∧ (x % 16) &&& 1 = x &&& 1 := by decide +kernel
  obtain ⟨k, hk, u, v, w, he, hneed, i1, i2, i3, i4⟩ := hbits b hb0
  rw [hneed, List.length_cons] at hn
  obtain ⟨t, q1, rfl, ht, hq1⟩ := split_octet q hq (by omega)
  rw [List.length_cons] at hn
  obtain ⟨x, q2, rfl, hx, hq2⟩ := split_be (k + 1) q1 hq1 (by omega)
  rw [List.length_append, beBytes_length] at hn
  obtain ⟨f, q3, rfl, hf, hq3⟩ := split_octet q2 hq2 (by omega)
  rw [List.length_cons] at hn
  obtain ⟨pt, q4, rfl, hpt, hpt2, hq4⟩ := split_opt u q3 hq3 (by omega)
  rw [List.length_append, wr_length pt (fun x => [x]) 1 (fun _ => rfl), hpt] at hn
  obtain ⟨ra, q5, rfl, hra, hra2, hq5⟩ := split_opt v q4 hq4 (by omega)
  rw [List.length_append, wr_length ra (fun x => [x]) 1 (fun _ => rfl), hra] at hn
  obtain ⟨ch, q6, rfl, hch, hch2, hq6⟩ := split_opt2 w q5 hq5 (by omega)
  have hok : LoadOk ⟨k, pt, ra, ch, t, x, f⟩ :=
    ⟨Nat.le_of_lt_succ hk, hpt2, hra2, hch2, ht, hx, hf⟩
  have heq : (b % 16) :: t :: (beBytes (k + 1) x ++ f :: (P.wr pt (fun x => [x]) ++
      (P.wr ra (fun x => [x]) ++ (P.wr ch (fun x => [x.1, x.2]) ++ q6)))) =
      loadBytes ⟨k, pt, ra, ch, t, x, f⟩ ++ q6 := by
    simp only [loadBytes, List.cons_append, List.nil_append, List.append_assoc, hpt, hra, hch, he]
  refine ⟨⟨k, pt, ra, ch, t, x, f⟩, q6, ?_, hok, heq, ?_⟩
  · have := C58_load_receive_standard _ hok q6
    rw [← heq] at this
    rw [← this]
    simp only [LoadInfo.unpack, LoadInfo.parse, P.eval, P.run_bind, P.run_byte, Res.ok_bind, i1, i2,
      i3, i4]
  · rw [loadBytes_length, hneed]
    simp only [loadSize, hpt, hra, hch]

/-! ## Measurement report -/

/-- Field ranges (Table 6.4.3.12-1). -/
structure MeasurementOk (m : Measurement) : Prop where
  snr : OctetOk m.snr
  rssi2 : OctetOk m.rssi2
  rssi1 : OctetOk m.rssi1
  txCount : OctetOk m.txCount
  rach : m.rach ≤ 1

theorem Measurement.isValid_iff {m : Measurement} (ht : EnumVal 2 m.rach) :
    m.isValid = true ↔ MeasurementOk m := by
  simp only [isValid, Bool.and_eq_true, octet_iff, enumValid_iff ht (by omega : 2 ≤ 1000)]
  constructor
  · rintro ⟨⟨⟨⟨a, b⟩, c⟩, d⟩, e⟩
    exact ⟨a, b, c, d, by omega⟩
  · rintro ⟨a, b, c, d, e⟩
    exact ⟨⟨⟨⟨a, b⟩, c⟩, d⟩, by omega⟩

/-- The octets of the measurement report IE. -/
def measurementBytes (m : Measurement) : List Nat :=
  [m.snr.isSome.toNat * 16 + m.rssi2.isSome.toNat * 8 + m.rssi1.isSome.toNat * 4 +
    m.txCount.isSome.toNat * 2 + m.rach] ++ (P.wr m.snr (fun x => [x]) ++
    (P.wr m.rssi2 (fun x => [x]) ++ (P.wr m.rssi1 (fun x => [x]) ++
    P.wr m.txCount (fun x => [x]))))

/-- The size of the measurement report IE. -/
def measurementSize (m : Measurement) : Nat :=
  1 + m.snr.isSome.toNat + m.rssi2.isSome.toNat + m.rssi1.isSome.toNat + m.txCount.isSome.toNat

theorem measurementBytes_length (m : Measurement) :
    (measurementBytes m).length = measurementSize m := by
  simp only [measurementBytes, measurementSize, List.length_append, List.length_cons,
    List.length_nil, wr_length m.snr (fun x => [x]) 1 (fun _ => rfl),
    wr_length m.rssi2 (fun x => [x]) 1 (fun _ => rfl),
    wr_length m.rssi1 (fun x => [x]) 1 (fun _ => rfl),
    wr_length m.txCount (fun x => [x]) 1 (fun _ => rfl)]
  omega

/-- C58, the code does not meet the claim: the size the receiver finds by peeking is one octet too
large with a transmission count. -/
theorem C58_measurement_finding_peek (m : Measurement) (h : m.rach ≤ 1) (rest : List Nat) :
    Measurement.peek (measurementBytes m ++ rest) =
      .ok (measurementSize m + m.txCount.isSome.toNat) := by
  have bits : ∀ (a b c d : Bool), ∀ k < 2,
      let x := a.toNat * 16 + b.toNat * 8 + c.toNat * 4 + d.toNat * 2 + k
      (x >>> 4) &&& 1 = a.toNat ∧ (x >>> 3) &&& 1 = b.toNat ∧ (x >>> 2) &&& 1 = c.toNat ∧
        x &&& 2 = d.toNat * 2 := by decide +kernel
  obtain ⟨e1, e2, e3, e4⟩ := bits m.snr.isSome m.rssi2.isSome m.rssi1.isSome m.txCount.isSome m.rach
    (by omega)
  simp only [Measurement.peek, measurementBytes, List.cons_append, rd_zero, Res.ok_bind, e1, e2, e3,
    e4, Res.pure_eq, Res.ok.injEq, measurementSize]
  omega

theorem Measurement.pack_eq (m : Measurement) (h : MeasurementOk m) : m.pack =
    (Measurement.peek (measurementBytes m) >>= fun n =>
      Res.assert (decide (n = (measurementBytes m).length)) >>=
      fun _ => pure (measurementBytes m)) := by
  obtain ⟨h1, h2, h3, h4, h5⟩ := h
  have hv : m.isValid = true := (Measurement.isValid_iff (Or.inl (by omega))).2 ⟨h1, h2, h3, h4, h5⟩
  have e0 : ∀ (a b c d : Bool), ∀ k < 2, u8 (u8 (u8 (u8 (u8 (a.toNat <<< 4) ||| b.toNat <<< 3) |||
      c.toNat <<< 2) ||| d.toNat <<< 1) ||| k) =
      a.toNat * 16 + b.toNat * 8 + c.toNat * 4 + d.toNat * 2 + k := by
    decide +kernel
  have hu : ∀ x, x ≤ 255 → u8 x = x := fun x hx => Nat.mod_eq_of_lt (by omega)
  simp only [Measurement.pack, hv, Res.assert_true, Res.ok_bind,
    e0 _ _ _ _ _ (show m.rach < 2 by omega)]
  rw [P.wr_congr m.snr _ (fun x => [x]) (fun x hx => by rw [hu x (h1 x hx)]),
    P.wr_congr m.rssi2 _ (fun x => [x]) (fun x hx => by rw [hu x (h2 x hx)]),
    P.wr_congr m.rssi1 _ (fun x => [x]) (fun x hx => by rw [hu x (h3 x hx)]),
    P.wr_congr m.txCount _ (fun x => [x]) (fun x hx => by rw [hu x (h4 x hx)])]
  rfl

/-- C58, exact: a measurement report in range is packed in the layout of the standard if it has no
transmission count, and aborts the sender otherwise. -/
theorem C58_measurement_pack_partial (m : Measurement) (h : MeasurementOk m) :
    (m.txCount = none → m.pack = .ok (measurementBytes m) ∧ m.packedSize = measurementSize m ∧
      (measurementBytes m).length = measurementSize m) ∧
    (m.txCount.isSome = true → m.pack = .abort) := by
  have hpk := C58_measurement_finding_peek m h.rach []
  rw [List.append_nil] at hpk
  rw [Measurement.pack_eq m h, hpk, measurementBytes_length]
  constructor
  · intro h1
    exact ⟨by simp [h1], rfl, rfl⟩
  · intro hc
    rw [hc]
    have : decide (measurementSize m + true.toNat = measurementSize m) = false := by
      rw [decide_eq_false_iff_not]
      simp
    simp only [Res.ok_bind, this]
    rfl

/-- C58: a measurement report with a field out of range aborts the sender. -/
theorem C58_measurement_abort (m : Measurement) (ht : EnumVal 2 m.rach) (h : ¬ MeasurementOk m) :
    m.pack = .abort := by
  have : m.isValid = false := by
    rw [← Bool.not_eq_true, Measurement.isValid_iff ht]; exact h
  simp [Measurement.pack, this]

theorem Measurement.parse_run (m : Measurement) (h : m.rach ≤ 1) (rest : List Nat) :
    parse.run 0 (measurementBytes m ++ rest) =
      .ok ((m, measurementSize m), measurementSize m, rest) := by
  have hlen := measurementBytes_length m
  simp only [measurementBytes, List.length_append, List.length_cons, List.length_nil] at hlen
  have bits : ∀ (a b c d : Bool), ∀ k < 2,
      let x := a.toNat * 16 + b.toNat * 8 + c.toNat * 4 + d.toNat * 2 + k
      ((x >>> 4) &&& 1 != 0) = a ∧ ((x >>> 3) &&& 1 != 0) = b ∧ ((x >>> 2) &&& 1 != 0) = c ∧
        (x &&& 2 != 0) = d ∧ x &&& 1 = k := by decide +kernel
  obtain ⟨e1, e2, e3, e4, e5⟩ := bits m.snr.isSome m.rssi2.isSome m.rssi1.isSome m.txCount.isSome
    m.rach (by omega)
  have r := fun (x : Option Nat) o l => P.run_opt P.byte (fun x => [x]) x o l fun a _ => rfl
  unfold measurementBytes
  simp only [List.cons_append, List.nil_append, List.append_assoc]
  unfold parse
  refine P.step (P.run_byte _ _ _) ?_
  simp only [e1, e2, e3, e4, e5, enumFrom_of_lt (show m.rach < 2 by omega)]
  refine P.step (r _ _ _) (P.step (r _ _ _) (P.step (r _ _ _) (P.step (r _ _ rest)
    (P.step (P.run_offset _ _) ?_))))
  rw [P.run_pure]
  have he : 0 + 1 + (P.wr m.snr fun x => [x]).length + (P.wr m.rssi2 fun x => [x]).length +
      (P.wr m.rssi1 fun x => [x]).length + (P.wr m.txCount fun x => [x]).length =
      measurementSize m := by omega
  rw [he]

/-- C58: a report in the layout of the standard is received correctly. -/
theorem C58_measurement_receive_standard (m : Measurement) (h : MeasurementOk m)
    (rest : List Nat) : Measurement.unpack (measurementBytes m ++ rest) = .ok (m, true) := by
  have hm := h.rach
  have hv : m.isValid = true := (Measurement.isValid_iff (Or.inl (by omega))).2 h
  have hsz : m.packedSize = measurementSize m := rfl
  have hev : Measurement.parse.eval (measurementBytes m ++ rest) = .ok (m, measurementSize m) := by
    unfold P.eval; rw [Measurement.parse_run m hm rest]; rfl
  simp only [Measurement.unpack, hev, Res.ok_bind, hsz, decide_true, Res.assert_true, hv,
    Res.pure_eq]

/-- C58 (partial): round trip. Missing: reports with a transmission count. -/
theorem C58_measurement_roundtrip_partial (m : Measurement) (h : MeasurementOk m)
    (h1 : m.txCount = none) (rest : List Nat) :
    ∃ l, m.pack = .ok l ∧ Measurement.unpack (l ++ rest) = .ok (m, true) :=
  ⟨_, ((C58_measurement_pack_partial m h).1 h1).1, C58_measurement_receive_standard m h rest⟩

/-- The octets a measurement report with first octet `b` has by the standard. -/
def measurementNeed (b : Nat) : Nat := 1 + b / 16 % 2 + b / 8 % 2 + b / 4 % 2 + b / 2 % 2

/-- C58: whatever octets arrive, as many as the first one announces by the standard, the receiver
delivers a valid report; re-encoded in the layout of the standard it gives the octets received, up to
the reserved bits of the first. -/
theorem C58_measurement_receive (b : Nat) (q : List Nat) (hb : Bytes (b :: q))
    (hn : measurementNeed b ≤ (b :: q).length) :
    ∃ m rest, Measurement.unpack (b :: q) = .ok (m, true) ∧ MeasurementOk m ∧
      (b % 32) :: q = measurementBytes m ++ rest ∧
      (measurementBytes m).length = measurementNeed b := by
  have hb0 : b < 256 := hb b (by simp)
  have hq : Bytes q := fun c hc => hb c (by simp [hc])
  have hbits : ∀ x < 256, ∃ k < 2, ∃ (t u v w : Bool), x % 32 = t.toNat * 16 + u.toNat * 8 +
      v.toNat * 4 + w.toNat * 2 + k ∧
      measurementNeed x = 1 + t.toNat + u.toNat + v.toNat + w.toNat ∧
      ((x % 32) >>> 4) &&& 1 = (x >>> 4) &&& 1 ∧ ((x % 32) >>> 3) &&& 1 = (x >>> 3) &&& 1 ∧
      ((x % 32) >>> 2) &&& 1 = (x >>> 2) &&& 1 ∧ (x % 32) &&& 2 = x &&& 2 ∧
      (x % 32) &&& 1 = x &&& 1 := by decide +kernel
  obtain ⟨k, hk, t, u, v, w, he, hneed, i1, i2, i3, i4, i5⟩ := hbits b hb0
  rw [hneed, List.length_cons] at hn
  obtain ⟨x1, q1, rfl, a1, b1, hq1⟩ := split_opt t q hq (by omega)
  rw [List.length_append, wr_length x1 (fun x => [x]) 1 (fun _ => rfl), a1] at hn
  obtain ⟨x2, q2, rfl, a2, b2, hq2⟩ := split_opt u q1 hq1 (by omega)
  rw [List.length_append, wr_length x2 (fun x => [x]) 1 (fun _ => rfl), a2] at hn
  obtain ⟨x3, q3, rfl, a3, b3, hq3⟩ := split_opt v q2 hq2 (by omega)
  rw [List.length_append, wr_length x3 (fun x => [x]) 1 (fun _ => rfl), a3] at hn
  obtain ⟨x4, q4, rfl, a4, b4, hq4⟩ := split_opt w q3 hq3 (by omega)
  have hok : MeasurementOk ⟨x1, x2, x3, x4, k⟩ := ⟨b1, b2, b3, b4, Nat.le_of_lt_succ hk⟩
  have heq : (b % 32) :: (P.wr x1 (fun x => [x]) ++ (P.wr x2 (fun x => [x]) ++
      (P.wr x3 (fun x => [x]) ++ (P.wr x4 (fun x => [x]) ++ q4)))) =
      measurementBytes ⟨x1, x2, x3, x4, k⟩ ++ q4 := by
    simp only [measurementBytes, List.cons_append, List.nil_append, List.append_assoc, a1, a2, a3,
      a4, he]
  refine ⟨⟨x1, x2, x3, x4, k⟩, q4, ?_, hok, heq, ?_⟩
  · have := C58_measurement_receive_standard _ hok q4
    rw [← heq] at this
    rw [← this]
    simp only [Measurement.unpack, Measurement.parse, P.eval, P.run_bind, P.run_byte, Res.ok_bind,
      i1, i2, i3, i4, i5]
  · rw [measurementBytes_length, hneed]
    simp only [measurementSize, a1, a2, a3, a4]

theorem C58_example :
    LoadInfo.pack ⟨1, none, none, some (70, 30), 12, 1000, 50⟩ = .ok [9, 12, 3, 232, 50, 70, 30] ∧
    LoadInfo.unpack [9, 12, 3, 232, 50, 70, 30] =
      .ok (⟨1, none, none, some (70, 30), 12, 1000, 50⟩, true) ∧
    Measurement.pack ⟨some 1, none, some 200, none, 1⟩ = .ok [21, 1, 200] ∧
    Measurement.unpack [21, 1, 200] = .ok (⟨some 1, none, some 200, none, 1⟩, true) := by
  decide +kernel

/-- C58, negation: IEs with all fields in range that abort the sender. -/
theorem C58_negation :
    (∃ m, LoadOk m ∧ m.pack = .abort) ∧ ∃ m, MeasurementOk m ∧ m.pack = .abort :=
  ⟨⟨⟨0, some 5, none, none, 0, 0, 0⟩, ⟨by decide, by rintro _ ⟨⟩; decide, by rintro _ ⟨⟩,
      by rintro _ ⟨⟩, by decide, by decide, by decide⟩, by decide +kernel⟩,
    ⟨⟨none, none, none, some 3, 0⟩, ⟨by rintro _ ⟨⟩, by rintro _ ⟨⟩, by rintro _ ⟨⟩,
      by rintro _ ⟨⟩; decide, by decide⟩, by decide +kernel⟩⟩

end Verif.Mac
