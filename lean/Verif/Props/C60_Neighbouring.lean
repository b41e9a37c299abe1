import Verif.Model.BroadcastIndication
import Verif.Props.C58_LoadInfo

set_option linter.unusedSimpArgs false

/-!
# C60: neighbouring IE

No neighbouring IE can be sent, and of those sent by others only those with a radio device class and
a network beacon period of 50 ms are received.
-/

namespace Verif.Mac
open BitByte

/-- Field ranges (Table 6.4.3.6-1). -/
structure NeighbourOk (m : Neighbour) : Prop where
  shortId : m.shortId < 65536
  cls : ∀ x, m.cls = some x → x.1 ≤ 3 ∧ x.2 ≤ 5
  snr : OctetOk m.snr
  rssi2 : OctetOk m.rssi2
  channel : ∀ x, m.channel = some x → Channel.Assigned x
  ttn : ∀ x, m.ttn = some x → x < 2 ^ 32
  nbp : m.nbp ≤ 6
  cbp : m.cbp ≤ 10

/-- Values the members can hold. -/
structure NeighbourTyped (m : Neighbour) : Prop where
  cls : ∀ x, m.cls = some x → EnumVal 4 x.1 ∧ EnumVal 6 x.2
  ttn : ∀ x, m.ttn = some x → x < 2 ^ 32
  nbp : EnumVal 7 m.nbp
  cbp : EnumVal 11 m.cbp

theorem Neighbour.isValid_some {m : Neighbour} (ht : NeighbourTyped m) (hi : m.shortId < 65536)
    {c : Nat × Nat} (hc : m.cls = some c) :
    ∃ v, m.isValid = .ok v ∧ (v = true ↔ NeighbourOk m) := by
  have eb : bitmaskLsb 16 = 65535 := by decide
  refine ⟨_, by rw [isValid, eb, if_neg (by omega), hc, optValue_some, Res.ok_bind]; rfl, ?_⟩
  obtain ⟨t1, t2⟩ := ht.cls c hc
  have e1 := enumValid_iff t1 (by omega : 4 ≤ 1000)
  have e2 := enumValid_iff t2 (by omega : 6 ≤ 1000)
  have e3 := enumValid_iff ht.nbp (by omega : 7 ≤ 1000)
  have e4 := enumValid_iff ht.cbp (by omega : 11 ≤ 1000)
  simp only [Bool.and_eq_true, octet_iff, allChannel_iff, e3, e4, Option.isSome_some,
    Bool.true_and, Bool.not_or, Bool.not_not, e1, e2]
  constructor
  · rintro ⟨⟨⟨⟨⟨⟨x1, x2⟩, x3⟩, x4⟩, x5⟩, x6⟩, x7⟩
    exact ⟨hi, by rw [hc]; rintro _ ⟨⟩; exact ⟨by omega, by omega⟩, x3, x4, x5, ht.ttn, by omega,
      by omega⟩
  · intro h
    have h1 := h.cls c hc
    have h2 := h.nbp
    have h3 := h.cbp
    exact ⟨⟨⟨⟨⟨⟨by omega, by omega⟩, h.snr⟩, h.rssi2⟩, h.channel⟩, by omega⟩, by omega⟩

/-- The octets of the IE. -/
def neighbourBytes (m : Neighbour) : List Nat :=
  beBytes 2 m.shortId ++ ([m.cls.isSome.toNat * 32 + m.snr.isSome.toNat * 16 +
    m.rssi2.isSome.toNat * 8 + m.power.toNat * 4 + m.channel.isSome.toNat * 2 + m.ttn.isSome.toNat,
    m.nbp * 16 + m.cbp] ++ (P.wr m.channel (beBytes 2) ++ (P.wr m.ttn (beBytes 4) ++
    (P.wr m.rssi2 (fun x => [x]) ++ (P.wr m.snr (fun x => [x]) ++
    P.wr m.cls (fun x => [x.1 * 32 + x.2 * 2]))))))

theorem neighbourBytes_length (m : Neighbour) :
    (neighbourBytes m).length = m.packedSize := by
  simp only [neighbourBytes, Neighbour.packedSize, List.length_append, List.length_cons,
    List.length_nil, beBytes_length, wr_length m.snr (fun x => [x]) 1 (fun _ => rfl),
    wr_length m.rssi2 (fun x => [x]) 1 (fun _ => rfl), wr_length _ _ 2 (beBytes_length 2),
    wr_length _ _ 4 (beBytes_length 4),
    wr_length m.cls (fun x => [x.1 * 32 + x.2 * 2]) 1 (fun _ => rfl)]
  omega

theorem rd_two (x b : Nat) (r : List Nat) : rd (beBytes 2 x ++ b :: r) 2 = .ok b := rfl

theorem neighbour_bits : ∀ (a b c d e f : Bool),
    let x := a.toNat * 32 + b.toNat * 16 + c.toNat * 8 + d.toNat * 4 + e.toNat * 2 + f.toNat
    (x >>> 5) &&& 1 = a.toNat ∧ (x >>> 4) &&& 1 = b.toNat ∧ (x >>> 3) &&& 1 = c.toNat ∧
      (x >>> 2) &&& 1 = d.toNat ∧ x &&& 2 = e.toNat * 2 ∧ x &&& 1 = f.toNat ∧
      u8 (u8 (u8 (u8 (u8 (u8 (a.toNat <<< 5) ||| b.toNat <<< 4) ||| c.toNat <<< 3) |||
        d.toNat <<< 2) ||| e.toNat <<< 1) ||| f.toNat) = x := by decide +kernel

/-- C60, the code does not meet the claim: the size the receiver finds by peeking is two octets too
large with a channel. -/
theorem C60_finding_peek (m : Neighbour) (rest : List Nat) :
    Neighbour.peek (neighbourBytes m ++ rest) =
      .ok (m.packedSize + 2 * m.channel.isSome.toNat) := by
  obtain ⟨e1, e2, e3, -, e5, e6, -⟩ := neighbour_bits m.cls.isSome m.snr.isSome m.rssi2.isSome
    m.power m.channel.isSome m.ttn.isSome
  simp only [Neighbour.peek, neighbourBytes, List.append_assoc, List.cons_append, rd_two,
    Res.ok_bind, e1, e2, e3, e5, e6, Res.pure_eq, Res.ok.injEq, Neighbour.packedSize]
  omega

/-- C60, the code does not meet the claim: no neighbouring IE can be sent. -/
theorem C60_finding_sender (m : Neighbour) : m.pack = .abort := by
  unfold Neighbour.pack
  cases hc : m.cls with
  | none =>
    unfold Neighbour.isValid
    rw [hc]
    split <;> rfl
  | some c =>
    have hv : ∃ v, m.isValid = .ok v := by
      unfold Neighbour.isValid
      rw [hc]
      split <;> exact ⟨_, rfl⟩
    obtain ⟨v, hv⟩ := hv
    rw [hv, Res.ok_bind]
    cases v with
    | false => rfl
    | true =>
      rw [Res.assert_true, Res.ok_bind, l2bLower_eq _ (by omega), Res.ok_bind]
      cases hch : m.channel with
      | none => rfl
      | some x =>
        rw [optValue_some, Res.ok_bind, P.wrM_eq m.ttn _ (beBytes 4)
          (fun a _ => l2bLower_eq _ (by omega)), Res.ok_bind, optValue_some, Res.ok_bind]
        obtain ⟨e1, e2, e3, -, e5, e6, e7⟩ := neighbour_bits true m.snr.isSome m.rssi2.isSome
          m.power true m.ttn.isSome
        simp only [Option.isSome_some, e7, List.cons_append, Neighbour.peek, rd_two, Res.ok_bind,
          e1, e2, e3, e5, e6, Res.pure_eq, List.length_append, beBytes_length, List.length_cons,
          List.nil_append, wr_length m.snr (fun x => [u8 x]) 1 (fun _ => rfl),
          wr_length m.rssi2 (fun x => [u8 x]) 1 (fun _ => rfl), wr_length _ _ 4 (beBytes_length 4)]
        rw [decide_eq_false]
        · rfl
        · simp only [P.wr, List.length_cons, List.length_nil, Bool.toNat_true]
          omega

theorem Neighbour.parse_run (m : Neighbour) (h : NeighbourOk m) (rest : List Nat) :
    parse.run 0 (neighbourBytes m ++ rest) =
      .ok (({ m with nbp := enumFrom 7 (m.nbp * 16) }, m.packedSize), m.packedSize, rest) := by
  obtain ⟨e1, e2, e3, e4, e5, e6, -⟩ := neighbour_bits m.cls.isSome m.snr.isSome m.rssi2.isSome
    m.power m.channel.isSome m.ttn.isSome
  have hlen := neighbourBytes_length m
  simp only [neighbourBytes, List.length_append, beBytes_length, List.length_cons,
    List.length_nil] at hlen
  have hbool : ∀ b : Bool, (b.toNat != 0) = b := by decide
  have hbool2 : ∀ b : Bool, (b.toNat * 2 != 0) = b := by decide
  have h7 := h.nbp
  have h8 := h.cbp
  have c1 : ∀ a < 7, ∀ b < 11, (a * 16 + b) &&& 0xf0 = a * 16 ∧ (a * 16 + b) &&& 0xf = b := by
    decide +kernel
  obtain ⟨d1, d2⟩ := c1 m.nbp (by omega) m.cbp (by omega)
  have r := fun (x : Option Nat) o l => P.run_opt P.byte (fun x => [x]) x o l fun a _ => rfl
  have rch := fun o l => P.run_opt (do
    let x ← P.byte
    let y ← P.byte
    pure ((x &&& 0x1f) <<< 8 ||| y)) (beBytes 2) m.channel o l (by
      intro a ha
      have hlt := Channel.lt_of_assigned (h.channel a ha)
      have : ((a / 256 % 256) &&& 31) <<< 8 ||| a % 256 = a := by
        bitsg; omega
      show Res.ok ((((a / 256 % 256) &&& 31) <<< 8 ||| a % 256), o + 1 + 1, l) = _
      rw [this]
      rfl)
  have rt := fun o l => P.run_opt (P.be 4 4) (beBytes 4) m.ttn o l (by
    intro a ha
    rw [beBytes_length]
    exact P.run_be 4 4 a o l (by omega) (h.ttn a ha))
  have rc := fun o l => P.run_opt (do
    let x ← P.byte
    pure (enumFrom 4 ((x >>> 5) &&& 7), enumFrom 6 ((x >>> 1) &&& 0xf)))
    (fun x => [x.1 * 32 + x.2 * 2]) m.cls o l (by
      intro a ha
      have hb : ∀ x < 4, ∀ y < 6, enumFrom 4 (((x * 32 + y * 2) >>> 5) &&& 7) = x ∧
          enumFrom 6 (((x * 32 + y * 2) >>> 1) &&& 0xf) = y := by decide +kernel
      obtain ⟨g1, g2⟩ := hb a.1 (by have := (h.cls a ha).1; omega) a.2
        (by have := (h.cls a ha).2; omega)
      refine P.step (P.run_byte _ _ _) ?_
      rw [P.run_pure, g1, g2]
      rfl)
  have rs : ∀ o l, (P.be 4 2).run o (beBytes 2 m.shortId ++ l) = .ok (m.shortId, o + 2, l) :=
    fun o l => P.run_be 4 2 _ _ _ (by omega) h.shortId
  unfold neighbourBytes
  simp only [List.append_assoc, List.cons_append, List.nil_append]
  unfold parse
  refine P.step (rs _ _) (P.step (P.run_byte _ _ _) (P.step (P.run_byte _ _ _) ?_))
  simp only [e1, e2, e3, e4, e5, e6, hbool, hbool2, d1, d2,
    enumFrom_of_lt (show m.cbp < 11 by omega)]
  refine P.step (rch _ _) (P.step (rt _ _) (P.step (r _ _ _) (P.step (r _ _ _)
    (P.step (rc _ rest) (P.step (P.run_offset _ _) ?_)))))
  rw [P.run_pure]
  have he : 0 + 2 + 1 + 1 + (P.wr m.channel (beBytes 2)).length +
      (P.wr m.ttn (beBytes 4)).length + (P.wr m.rssi2 fun x => [x]).length +
      (P.wr m.snr fun x => [x]).length + (P.wr m.cls fun x => [x.1 * 32 + x.2 * 2]).length =
      m.packedSize := by omega
  rw [he]

/-- C60 (partial): what becomes of an IE in the layout of the standard. It is received correctly if it
has a radio device class and a network beacon period of 50 ms (code 0); without a class the receiver
aborts; with another period it is reported invalid. -/
theorem C60_receive_standard_partial (m : Neighbour) (h : NeighbourOk m) (rest : List Nat) :
    Neighbour.unpack (neighbourBytes m ++ rest) =
      if m.cls = none then .abort
      else if m.nbp = 0 then .ok (m, true)
      else .ok ({ m with nbp := undef32 }, false) := by
  have hev : Neighbour.parse.eval (neighbourBytes m ++ rest) =
      .ok ({ m with nbp := enumFrom 7 (m.nbp * 16) }, m.packedSize) := by
    unfold P.eval; rw [Neighbour.parse_run m h rest]; rfl
  have hsz : ({ m with nbp := enumFrom 7 (m.nbp * 16) } : Neighbour).packedSize = m.packedSize := rfl
  simp only [Neighbour.unpack, hev, Res.ok_bind, hsz, decide_true, Res.assert_true]
  have h3 := h.cbp
  by_cases hn : m.cls = none
  · have hs := h.shortId
    rw [if_pos hn, Neighbour.isValid]
    simp only [show bitmaskLsb 16 = 65535 by decide]
    rw [if_neg (by omega), hn]
    rfl
  · obtain ⟨c, hc⟩ := Option.ne_none_iff_exists'.1 hn
    rw [if_neg hn]
    have ht : NeighbourTyped { m with nbp := enumFrom 7 (m.nbp * 16) } :=
      ⟨fun x hx => by
        obtain ⟨a, b⟩ := h.cls x hx
        exact ⟨Or.inl (by omega), Or.inl (by omega)⟩, h.ttn, enumVal_from _ _,
        Or.inl (by show m.cbp ≤ 11; omega)⟩
    obtain ⟨v, hv, hiff⟩ := Neighbour.isValid_some ht h.shortId hc
    rw [hv, Res.ok_bind]
    split
    · rename_i h0
      have hm : ({ m with nbp := enumFrom 7 (m.nbp * 16) } : Neighbour) = m := by
        rw [h0]
        cases m
        simp_all [enumFrom]
      rw [hm] at hiff ⊢
      rw [hiff.2 h]
      rfl
    · rename_i h0
      have hu : enumFrom 7 (m.nbp * 16) = undef32 := by unfold enumFrom; rw [if_neg (by omega)]
      rw [hu] at hiff ⊢
      have : v = false := by
        rw [← Bool.not_eq_true, hiff]
        intro hc
        have := hc.nbp
        simp [undef32] at this
      rw [this]
      rfl

/-- A neighbour with all optional fields. -/
def sampleNeighbour : Neighbour :=
  ⟨0x1234, some (1, 2), some 40, some 90, true, some 1657, some 1000000, 0, 3⟩

theorem sampleNeighbour_ok : NeighbourOk sampleNeighbour := by
  refine ⟨by decide, ?_, ?_, ?_, ?_, ?_, by decide, by decide⟩
  · rintro _ ⟨⟩; decide
  · rintro _ ⟨⟩; decide
  · rintro _ ⟨⟩; decide
  · rintro _ ⟨⟩; simp [Channel.Assigned]
  · rintro _ ⟨⟩; decide

theorem C60_example : neighbourBytes sampleNeighbour =
      [18, 52, 63, 3, 6, 121, 0, 15, 66, 64, 90, 40, 36] ∧
    Neighbour.unpack [18, 52, 63, 3, 6, 121, 0, 15, 66, 64, 90, 40, 36] =
      .ok (sampleNeighbour, true) := by decide +kernel

/-- C60, negation: the same IE cannot be sent. -/
theorem C60_negation : NeighbourOk sampleNeighbour ∧ sampleNeighbour.pack = .abort :=
  ⟨sampleNeighbour_ok, C60_finding_sender _⟩

end Verif.Mac
