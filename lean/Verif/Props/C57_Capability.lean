import Verif.Model.Capability
import Verif.Props.C56_Reconfiguration

set_option linter.unusedSimpArgs false

/-!
# C57: RD capability IE and group assignment IE
-/

namespace Verif.Mac
open BitByte

structure PhyCapOk (c : PhyCap) : Prop where
  power : c.power ≤ 2
  nss : c.nss ≤ 3
  diversity : c.diversity ≤ 3
  gain : c.gain ≤ 8
  mcs : c.mcs ≤ 9
  buffer : c.buffer ≤ 8
  harq : c.harq ≤ 3
  delay : c.delay ≤ 6

/-- Field ranges (Table 6.4.3.5-1). -/
structure CapabilityOk (m : RdCapability) : Prop where
  count : m.extra.length ≤ 7
  extra : ∀ e ∈ m.extra, e.mu ≤ 3 ∧ e.beta ≤ 5 ∧ PhyCapOk e.cap
  release : 1 ≤ m.release ∧ m.release ≤ 4
  modes : m.modes ≤ 2
  security : m.security ≤ 1
  dlc : m.dlc ≤ 4
  cap : PhyCapOk m.cap

structure PhyCapTyped (c : PhyCap) : Prop where
  power : EnumVal 3 c.power
  nss : EnumVal 4 c.nss
  diversity : EnumVal 4 c.diversity
  mcs : EnumVal 10 c.mcs
  buffer : EnumVal 9 c.buffer
  harq : EnumVal 4 c.harq
  delay : EnumVal 7 c.delay

/-- Values the members can hold. -/
structure CapabilityTyped (m : RdCapability) : Prop where
  extra : ∀ e ∈ m.extra, EnumVal 4 e.mu ∧ EnumVal 6 e.beta ∧ PhyCapTyped e.cap
  release : EnumValL 0 5 m.release
  modes : EnumVal 3 m.modes
  security : EnumVal 2 m.security
  dlc : EnumVal 5 m.dlc
  cap : PhyCapTyped m.cap

theorem PhyCap.gain_iff (c : PhyCap) : c.getGain.isSome = true ↔ c.gain ≤ 8 := by
  unfold getGain
  rw [Option.isSome_iff_exists]
  simp only [List.getElem?_eq_some_iff, rxGainTable, List.length_cons, List.length_nil]
  constructor
  · rintro ⟨a, h, _⟩; omega
  · intro h; exact ⟨_, by omega, rfl⟩

theorem PhyCap.isValid_iff {c : PhyCap} (h : PhyCapTyped c) : c.isValid = true ↔ PhyCapOk c := by
  simp only [isValid, Bool.and_eq_true, PhyCap.gain_iff,
    enumValid_iff h.power (by omega : 3 ≤ 1000), enumValid_iff h.nss (by omega : 4 ≤ 1000),
    enumValid_iff h.diversity (by omega : 4 ≤ 1000), enumValid_iff h.mcs (by omega : 10 ≤ 1000),
    enumValid_iff h.buffer (by omega : 9 ≤ 1000), enumValid_iff h.harq (by omega : 4 ≤ 1000),
    enumValid_iff h.delay (by omega : 7 ≤ 1000)]
  constructor
  · rintro ⟨⟨⟨⟨⟨⟨⟨a, b⟩, c⟩, d⟩, e⟩, f⟩, g⟩, h⟩
    exact ⟨by omega, by omega, by omega, by omega, by omega, by omega, by omega, by omega⟩
  · rintro ⟨a, b, c, d, e, f, g, h⟩
    refine ⟨⟨⟨⟨⟨⟨⟨?_, ?_⟩, ?_⟩, ?_⟩, ?_⟩, ?_⟩, ?_⟩, ?_⟩ <;> omega

theorem PhyCapOk.typed {c : PhyCap} (h : PhyCapOk c) : PhyCapTyped c := by
  obtain ⟨a, b, d, e, f, g, i, j⟩ := h
  exact ⟨Or.inl (by omega), Or.inl (by omega), Or.inl (by omega), Or.inl (by omega),
    Or.inl (by omega), Or.inl (by omega), Or.inl (by omega)⟩

theorem CapabilityOk.typed {m : RdCapability} (h : CapabilityOk m) : CapabilityTyped m := by
  have h1 := h.release
  have h2 := h.modes
  have h3 := h.security
  have h4 := h.dlc
  exact ⟨fun e he => ⟨Or.inl (by have := (h.extra e he).1; omega),
    Or.inl (by have := (h.extra e he).2.1; omega), (h.extra e he).2.2.typed⟩,
    Or.inl (by omega), Or.inl (by omega), Or.inl (by omega), Or.inl (by omega), h.cap.typed⟩

theorem RdCapability.isValid_iff {m : RdCapability} (h : CapabilityTyped m) :
    m.isValid = true ↔ CapabilityOk m := by
  have e1 : m.extra.all (fun e => enumValid 4 e.mu && enumValid 6 e.beta && e.cap.isValid) = true ↔
      ∀ e ∈ m.extra, e.mu ≤ 3 ∧ e.beta ≤ 5 ∧ PhyCapOk e.cap := by
    rw [List.all_eq_true]
    refine forall_congr' fun e => forall_congr' fun he => ?_
    obtain ⟨a, b, c⟩ := h.extra e he
    rw [Bool.and_eq_true, Bool.and_eq_true, enumValid_iff a (by omega), enumValid_iff b (by omega),
      PhyCap.isValid_iff c, and_assoc]
    constructor
    · rintro ⟨x, y, z⟩; exact ⟨by omega, by omega, z⟩
    · rintro ⟨x, y, z⟩; exact ⟨by omega, by omega, z⟩
  have e2 : (decide (m.extra.length > 7) || !m.extra.all (fun e =>
      enumValid 4 e.mu && enumValid 6 e.beta && e.cap.isValid)) = false ↔ m.extra.length ≤ 7 ∧
      ∀ e ∈ m.extra, e.mu ≤ 3 ∧ e.beta ≤ 5 ∧ PhyCapOk e.cap := by
    rw [Bool.or_eq_false_iff, Bool.not_eq_false', e1, decide_eq_false_iff_not]
    exact and_congr_left fun _ => by omega
  have e3 : (!enumValidL 0 5 m.release || !enumValid 3 m.modes || !enumValid 2 m.security ||
      !enumValid 5 m.dlc || !m.cap.isValid) = false ↔ (1 ≤ m.release ∧ m.release ≤ 4) ∧
      m.modes ≤ 2 ∧ m.security ≤ 1 ∧ m.dlc ≤ 4 ∧ PhyCapOk m.cap := by
    simp only [Bool.or_eq_false_iff, Bool.not_eq_false', enumValidL_iff h.release
      (by omega : 5 ≤ 1000), enumValid_iff h.modes (by omega : 3 ≤ 1000),
      enumValid_iff h.security (by omega : 2 ≤ 1000), enumValid_iff h.dlc (by omega : 5 ≤ 1000),
      PhyCap.isValid_iff h.cap]
    constructor
    · rintro ⟨⟨⟨⟨a, b⟩, c⟩, d⟩, e⟩
      exact ⟨by omega, by omega, by omega, by omega, e⟩
    · rintro ⟨a, b, c, d, e⟩
      exact ⟨⟨⟨⟨by omega, by omega⟩, by omega⟩, by omega⟩, e⟩
  unfold isValid
  constructor
  · intro hv
    split at hv
    · cases hv
    · rename_i c1
      split at hv
      · cases hv
      · rename_i c2
        obtain ⟨a1, a2⟩ := e2.1 (Bool.not_eq_true _ ▸ c1)
        obtain ⟨b1, b2, b3, b4, b5⟩ := e3.1 (Bool.not_eq_true _ ▸ c2)
        exact ⟨a1, a2, b1, b2, b3, b4, b5⟩
  · rintro ⟨a1, a2, b1, b2, b3, b4, b5⟩
    rw [e2.2 ⟨a1, a2⟩, e3.2 ⟨b1, b2, b3, b4, b5⟩]
    rfl

/-! ## Layout -/

/-- The four octets of a physical layer capability. -/
def capOctets (c : PhyCap) : List Nat :=
  [c.power * 16 + c.nss * 4 + c.diversity, c.gain * 16 + c.mcs, c.buffer * 16 + c.harq * 4,
    c.delay * 16]

/-- The five octets of an additional capability. -/
def extraOctets (e : PhyCapExtra) : List Nat := (e.mu * 32 + e.beta * 2) :: capOctets e.cap

/-- The octets of the IE. -/
def capabilityBytes (m : RdCapability) : List Nat :=
  [m.extra.length * 32 + m.release, m.modes * 4 + m.mesh.toNat * 2 + m.scheduled.toNat,
    m.security * 32 + m.dlc * 4] ++ (capOctets m.cap ++ m.extra.flatMap extraOctets)

theorem capOctets_eq {c : PhyCap} (h : PhyCapOk c) : c.octets = capOctets c := by
  obtain ⟨h1, h2, h3, h4, h5, h6, h7, h8⟩ := h
  have e0 : u8 (u8 (u8 (c.power <<< 4) ||| c.nss <<< 2) ||| c.diversity) =
      c.power * 16 + c.nss * 4 + c.diversity := by bitsg; omega
  have e1 : u8 (u8 (c.gain <<< 4) ||| c.mcs) = c.gain * 16 + c.mcs := by bitsg; omega
  have e2 : u8 (u8 (c.buffer <<< 4) ||| c.harq <<< 2) = c.buffer * 16 + c.harq * 4 := by
    bitsg; omega
  have e3 : u8 (c.delay <<< 4) = c.delay * 16 := by bitsg; omega
  simp only [PhyCap.octets, capOctets, e0, e1, e2, e3]

theorem extraOctets_eq {e : PhyCapExtra} (h : e.mu ≤ 3 ∧ e.beta ≤ 5 ∧ PhyCapOk e.cap) :
    e.octets = extraOctets e := by
  obtain ⟨h1, h2, h3⟩ := h
  have e0 : u8 (u8 (e.mu <<< 5) ||| e.beta <<< 1) = e.mu * 32 + e.beta * 2 := by bitsg; omega
  simp only [PhyCapExtra.octets, extraOctets, e0, capOctets_eq h3]

theorem flatMap_len5 (l : List PhyCapExtra) : (l.flatMap extraOctets).length = l.length * 5 := by
  induction l with
  | nil => rfl
  | cons a l ih =>
    simp only [List.flatMap_cons, List.length_append, ih, extraOctets, capOctets, List.length_cons,
      List.length_nil]
    omega

theorem capabilityBytes_length (m : RdCapability) :
    (capabilityBytes m).length = 7 + m.extra.length * 5 := by
  simp only [capabilityBytes, List.length_append, flatMap_len5, capOctets, List.length_cons,
    List.length_nil]
  omega

theorem capOctets_bytes {c : PhyCap} (h : PhyCapOk c) : Bytes (capOctets c) := by
  obtain ⟨h1, h2, h3, h4, h5, h6, h7, h8⟩ := h
  intro b hb
  simp only [capOctets, List.mem_cons, List.not_mem_nil, or_false] at hb
  omega

/-- C57: layout and size of a packed RD capability IE with any number of additional capabilities up
to seven. -/
theorem C57_pack (m : RdCapability) (h : CapabilityOk m) :
    m.pack = .ok (capabilityBytes m) ∧ (capabilityBytes m).length = 7 + m.extra.length * 5 ∧
      m.packedSize = .ok (7 + m.extra.length * 5) ∧ Bytes (capabilityBytes m) ∧
      ∀ rest, RdCapability.peek (capabilityBytes m ++ rest) =
        .ok (some (7 + m.extra.length * 5)) := by
  have hv := (RdCapability.isValid_iff h.typed).2 h
  have k1 := h.count
  have k2 := h.release
  have k3 := h.modes
  have k4 := h.security
  have k5 := h.dlc
  have t1 := toNat_le m.mesh
  have t2 := toNat_le m.scheduled
  have hpk : ∀ rest, RdCapability.peek (capabilityBytes m ++ rest) =
        .ok (some (7 + m.extra.length * 5)) := by
    intro rest
    have e : (m.extra.length * 32 + m.release) >>> 5 = m.extra.length := by bitsg; omega
    simp only [RdCapability.peek, capabilityBytes, List.cons_append, rd_zero, Res.ok_bind, e,
      Res.pure_eq]
  have hpk0 := hpk []
  rw [List.append_nil] at hpk0
  refine ⟨?_, capabilityBytes_length m, ?_, ?_, hpk⟩
  · have e0 : u8 (u8 (m.extra.length <<< 5) ||| m.release) = m.extra.length * 32 + m.release := by
      bitsg; omega
    have e1 : u8 (u8 (u8 (m.modes <<< 2) ||| m.mesh.toNat <<< 1) ||| m.scheduled.toNat) =
        m.modes * 4 + m.mesh.toNat * 2 + m.scheduled.toNat := by bitsg; omega
    have e2 : u8 (u8 (m.security <<< 5) ||| m.dlc <<< 2) = m.security * 32 + m.dlc * 4 := by
      bitsg; omega
    have e3 : m.extra.flatMap PhyCapExtra.octets = m.extra.flatMap extraOctets :=
      List.flatMap_congr fun e he => extraOctets_eq (h.extra e he)
    simp only [RdCapability.pack, hv, Res.assert_true, Res.ok_bind, e0, e1, e2, e3,
      capOctets_eq h.cap]
    change (RdCapability.peek (capabilityBytes m) >>= fun n => Res.assert n.isSome >>= fun _ =>
      Res.assert (decide (n = some (capabilityBytes m).length)) >>= fun _ =>
        pure (capabilityBytes m)) = _
    rw [hpk0, capabilityBytes_length]
    simp
  · simp [RdCapability.packedSize, hv]
  · intro b hb
    simp only [capabilityBytes, List.mem_append, List.mem_cons, List.not_mem_nil, or_false,
      List.mem_flatMap] at hb
    rcases hb with (rfl | rfl | rfl) | hb | ⟨e, he, hb⟩
    · omega
    · omega
    · omega
    · exact capOctets_bytes h.cap b hb
    · obtain ⟨x1, x2, x3⟩ := h.extra e he
      rcases List.mem_cons.1 hb with rfl | hb
      · omega
      · exact capOctets_bytes x3 b hb

/-- C57: an IE with a field out of range aborts the sender. -/
theorem C57_abort (m : RdCapability) (ht : CapabilityTyped m) (h : ¬ CapabilityOk m) :
    m.pack = .abort := by
  have : m.isValid = false := by
    rw [← Bool.not_eq_true, RdCapability.isValid_iff ht]; exact h
  simp [RdCapability.pack, this]

/-! ## Receiving -/

theorem run_capRead {c : PhyCap} (h : PhyCapOk c) (o : Nat) (l : List Nat) :
    PhyCap.read.run o (capOctets c ++ l) = .ok (c, o + 4, l) := by
  obtain ⟨h1, h2, h3, h4, h5, h6, h7, h8⟩ := h
  have a1 : ((c.power * 16 + c.nss * 4 + c.diversity) >>> 4) &&& 7 = c.power := by bitsg; omega
  have a2 : ((c.power * 16 + c.nss * 4 + c.diversity) >>> 2) &&& 3 = c.nss := by bitsg; omega
  have a3 : (c.power * 16 + c.nss * 4 + c.diversity) &&& 3 = c.diversity := by bitsg; omega
  have a4 : (c.gain * 16 + c.mcs) >>> 4 = c.gain := by bitsg; omega
  have a5 : (c.gain * 16 + c.mcs) &&& 15 = c.mcs := by bitsg; omega
  have a6 : (c.buffer * 16 + c.harq * 4) >>> 4 = c.buffer := by bitsg; omega
  have a7 : ((c.buffer * 16 + c.harq * 4) >>> 2) &&& 3 = c.harq := by bitsg; omega
  have a8 : (c.delay * 16) >>> 4 = c.delay := by bitsg; omega
  simp only [capOctets, List.cons_append, List.nil_append]
  unfold PhyCap.read
  refine P.step (P.run_byte _ _ _) (P.step (P.run_byte _ _ _) (P.step (P.run_byte _ _ _)
    (P.step (P.run_byte _ _ _) ?_)))
  rw [P.run_pure, a1, a2, a3, a4, a5, a6, a7, a8, enumFrom_of_lt (by omega),
    enumFrom_of_lt (by omega), enumFrom_of_lt (by omega), enumFrom_of_lt (by omega),
    enumFrom_of_lt (by omega), enumFrom_of_lt (by omega), enumFrom_of_lt (by omega)]

theorem run_extraRead {e : PhyCapExtra} (h : e.mu ≤ 3 ∧ e.beta ≤ 5 ∧ PhyCapOk e.cap) (o : Nat)
    (l : List Nat) :
    PhyCapExtra.read.run o (extraOctets e ++ l) = .ok (e, o + (extraOctets e).length, l) := by
  obtain ⟨h1, h2, h3⟩ := h
  have a1 : (e.mu * 32 + e.beta * 2) >>> 5 = e.mu := by bitsg; omega
  have a2 : ((e.mu * 32 + e.beta * 2) >>> 1) &&& 15 = e.beta := by bitsg; omega
  simp only [extraOctets, List.cons_append]
  unfold PhyCapExtra.read
  refine P.step (P.run_byte _ _ _) (P.step (run_capRead h3 _ _) ?_)
  rw [P.run_pure, a1, a2, enumFrom_of_lt (by omega), enumFrom_of_lt (by omega)]
  rfl

/-- C57: round trip. Every RD capability IE is recovered unchanged, whatever follows. -/
theorem C57_roundtrip (m : RdCapability) (h : CapabilityOk m) (rest : List Nat) :
    ∃ l, m.pack = .ok l ∧ RdCapability.unpack (l ++ rest) = .ok (m, true) := by
  obtain ⟨hp, hlen, hsz, -, -⟩ := C57_pack m h
  refine ⟨_, hp, ?_⟩
  have hv := (RdCapability.isValid_iff h.typed).2 h
  have k1 := h.count
  have k2 := h.release
  have k3 := h.modes
  have k4 := h.security
  have k5 := h.dlc
  have e0 : (m.extra.length * 32 + m.release) >>> 5 = m.extra.length := by bitsg; omega
  have e1 : (m.extra.length * 32 + m.release) &&& bitmaskLsb 5 = m.release := by
    rw [show bitmaskLsb 5 = 31 by decide]; bitsg; omega
  have e2 : ∀ (a b : Bool), ∀ k < 3, ((k * 4 + a.toNat * 2 + b.toNat) >>> 2) &&& 3 = k ∧
      ((k * 4 + a.toNat * 2 + b.toNat) &&& 2 != 0) = a ∧
      ((k * 4 + a.toNat * 2 + b.toNat) &&& 1 != 0) = b := by decide +kernel
  obtain ⟨f1, f2, f3⟩ := e2 m.mesh m.scheduled m.modes (by omega)
  have e3 : (m.security * 32 + m.dlc * 4) >>> 5 = m.security := by bitsg; omega
  have e4 : ((m.security * 32 + m.dlc * 4) >>> 2) &&& 7 = m.dlc := by bitsg; omega
  have hrun : RdCapability.parse.run 0 (capabilityBytes m ++ rest) =
      .ok ((m, 7 + m.extra.length * 5), 7 + m.extra.length * 5, rest) := by
    simp only [capabilityBytes, List.cons_append, List.nil_append, List.append_assoc]
    unfold RdCapability.parse
    refine P.step (P.run_byte _ _ _) (P.step (P.run_byte _ _ _) (P.step (P.run_byte _ _ _)
      (P.step (run_capRead h.cap _ _) ?_)))
    rw [e0]
    refine P.step (P.run_many PhyCapExtra.read extraOctets m.extra _ _
      fun e he o l => run_extraRead (h.extra e he) o l) (P.step (P.run_offset _ _) ?_)
    rw [P.run_pure, flatMap_len5, e1, f1, f2, f3, e3, e4, enumFromL_of (by omega) (by omega),
      enumFrom_of_lt (by omega), enumFrom_of_lt (by omega), enumFrom_of_lt (by omega)]
  have hev : RdCapability.parse.eval (capabilityBytes m ++ rest) =
      .ok (m, 7 + m.extra.length * 5) := by
    unfold P.eval; rw [hrun]; rfl
  simp only [RdCapability.unpack, hev, Res.ok_bind, hsz, decide_true, Res.assert_true, hv,
    Res.pure_eq]

theorem capRead_reads : P.Reads PhyCap.read 4 PhyCapTyped :=
  (P.Reads.byte.bind fun a _ => P.Reads.byte.bind fun b _ => P.Reads.byte.bind fun c _ =>
    P.Reads.byte.bind fun d _ => P.Reads.pure
      ⟨enumVal_from _ _, enumVal_from _ _, enumVal_from _ _, enumVal_from _ _, enumVal_from _ _,
        enumVal_from _ _, enumVal_from _ _⟩).congr rfl

theorem extraRead_reads : P.Reads PhyCapExtra.read 5
    (fun e => EnumVal 4 e.mu ∧ EnumVal 6 e.beta ∧ PhyCapTyped e.cap) :=
  (P.Reads.byte.bind fun a _ => capRead_reads.bind fun c hc => P.Reads.pure
    ⟨enumVal_from _ _, enumVal_from _ _, hc⟩).congr rfl

/-- C57: what the receiver does with arbitrary octets, as many as the first one announces: it returns
a valid IE with the announced number of additional capabilities, or aborts. -/
theorem C57_receive (b : Nat) (q : List Nat) (hb : Bytes (b :: q))
    (hn : 7 + b / 32 * 5 ≤ 1 + q.length) :
    RdCapability.unpack (b :: q) = .abort ∨ ∃ m, RdCapability.unpack (b :: q) = .ok (m, true) ∧
      CapabilityOk m ∧ m.extra.length = b / 32 ∧ m.release = b % 32 := by
  have hb0 : b < 256 := hb b (by simp)
  have e0 : b >>> 5 = b / 32 := by bitsg
  have e1 : b &&& bitmaskLsb 5 = b % 32 := by
    rw [show bitmaskLsb 5 = 31 by decide]; bitsg
  have hwp : P.WP (do
      let b1 ← P.byte
      let b2 ← P.byte
      let c ← PhyCap.read
      let e ← P.many PhyCapExtra.read (b >>> 5)
      let o ← P.offset
      pure ((⟨e, enumFromL 0 5 (b &&& bitmaskLsb 5), enumFrom 3 ((b1 >>> 2) &&& 3), b1 &&& 2 != 0,
        b1 &&& 1 != 0, enumFrom 2 (b2 >>> 5), enumFrom 5 ((b2 >>> 2) &&& 7), c⟩ : RdCapability), o))
      (1 + q.length) 1 (fun x _ => CapabilityTyped x.1 ∧ x.2 = 7 + b / 32 * 5 ∧
        x.1.extra.length = b / 32 ∧ x.1.release = enumFromL 0 5 (b % 32)) := by
    refine P.WP.bind (P.WP.byte (by omega) fun b1 _ => ?_)
    refine P.WP.bind (P.WP.byte (by omega) fun b2 _ => ?_)
    refine P.WP.bind (P.WP.ofReads capRead_reads (by omega) fun c hc => ?_)
    refine P.WP.bind (P.WP.ofReads (P.Reads.many (b >>> 5) extraRead_reads) (by rw [e0]; omega)
      fun e he => ?_)
    refine P.WP.bind (P.WP.offset (P.WP.pure ⟨⟨he.2, enumValL_from _ _ _, enumVal_from _ _,
      enumVal_from _ _, enumVal_from _ _, hc⟩, ?_, ?_, ?_⟩))
    · simp only [e0]
    · rw [← e0]; exact he.1
    · rw [e1]
  obtain ⟨x, o', l', hrun, ht, ho, hl, hr⟩ :=
    hwp.run (l := q) (fun c hc => hb c (by simp [hc])) rfl
  have hev : RdCapability.parse.eval (b :: q) = .ok x := by
    unfold RdCapability.parse P.eval
    rw [P.run_bind, P.run_byte, Res.ok_bind]
    simp only [Nat.zero_add]
    rw [hrun]; rfl
  simp only [RdCapability.unpack, hev, Res.ok_bind, RdCapability.packedSize]
  cases hv : x.1.isValid with
  | false => left; rfl
  | true =>
    right
    have hok := (RdCapability.isValid_iff ht).1 hv
    refine ⟨x.1, ?_, hok, hl, ?_⟩
    · simp only [Res.assert_true, Res.ok_bind, Res.pure_eq, hl, ho, decide_true]
    · have := hok.release
      rw [hr] at this ⊢
      unfold enumFromL at this ⊢
      split
      · rfl
      · rename_i hc
        rw [if_neg hc] at this
        unfold undef32 at this
        omega

/-- C57: the announced gain is the smallest entry of the table that is not below the requested gain,
and the largest entry for larger requests. -/
theorem C57_gain (c : PhyCap) (dB : Int) :
    ∃ g, (c.setGain dB).getGain = some g ∧ g ∈ rxGainTable ∧
      (dB ≤ 6 → dB ≤ g ∧ ∀ x ∈ rxGainTable, dB ≤ x → g ≤ x) ∧ (6 < dB → g = 6) := by
  unfold PhyCap.setGain PhyCap.getGain rxGainTable
  simp only [List.takeWhile]
  by_cases h1 : -10 < dB
  · by_cases h2 : -8 < dB
    · by_cases h3 : -6 < dB
      · by_cases h4 : -4 < dB
        · by_cases h5 : -2 < dB
          · by_cases h6 : 0 < dB
            · by_cases h7 : 2 < dB
              · by_cases h8 : 4 < dB
                · by_cases h9 : 6 < dB
                  · simp [h1, h2, h3, h4, h5, h6, h7, h8, h9]
                  · simp [h1, h2, h3, h4, h5, h6, h7, h8, h9]
                · simp [h1, h2, h3, h4, h5, h6, h7, h8]; omega
              · simp [h1, h2, h3, h4, h5, h6, h7]; omega
            · simp [h1, h2, h3, h4, h5, h6]; omega
          · simp [h1, h2, h3, h4, h5]; omega
        · simp [h1, h2, h3, h4]; omega
      · simp [h1, h2, h3]; omega
    · simp [h1, h2]; omega
  · simp [h1]; omega

/-! ## Group assignment -/

/-- Field ranges (Table 6.4.3.9-1). -/
structure GroupOk (m : GroupAssignment) : Prop where
  count : (m.single = 1 ∧ m.assignments.length = 1) ∨ (m.single = 0 ∧ 2 ≤ m.assignments.length)
  groupId : m.groupId ≤ 127
  assignments : ∀ a ∈ m.assignments, a.1 ≤ 1 ∧ a.2 ≤ 127

structure GroupTyped (m : GroupAssignment) : Prop where
  single : EnumVal 2 m.single
  direct : ∀ a ∈ m.assignments, EnumVal 2 a.1

theorem GroupAssignment.isValid_iff {m : GroupAssignment} (h : GroupTyped m) :
    m.isValid = true ↔ GroupOk m := by
  have e1 : m.assignments.all (fun a => enumValid 2 a.1 && decide (a.2 ≤ bitmaskLsb 7)) = true ↔
      ∀ a ∈ m.assignments, a.1 ≤ 1 ∧ a.2 ≤ 127 := by
    rw [List.all_eq_true, show bitmaskLsb 7 = 127 by decide]
    refine forall_congr' fun a => forall_congr' fun ha => ?_
    rw [Bool.and_eq_true, enumValid_iff (h.direct a ha) (by omega), decide_eq_true_iff]
    constructor
    · rintro ⟨x, y⟩; exact ⟨by omega, y⟩
    · rintro ⟨x, y⟩; exact ⟨by omega, y⟩
  have e2 := enumValid_iff h.single (by omega : 2 ≤ 1000)
  unfold isValid
  rw [show bitmaskLsb 7 = 127 by decide] at e1 ⊢
  constructor
  · intro hv
    split at hv
    · cases hv
    · rename_i c0
      have := e2.1 (by simpa using c0)
      split at hv
      · cases hv
      · split at hv
        · cases hv
        · split at hv
          · cases hv
          · exact ⟨by omega, by omega, e1.1 hv⟩
  · rintro ⟨a, b, c⟩
    have : enumValid 2 m.single = true := e2.2 (by omega)
    rw [this, if_neg (by decide), if_neg (by omega), if_neg (by omega), if_neg (by omega)]
    exact e1.2 c

/-- The octets of the IE. -/
def groupBytes (m : GroupAssignment) : List Nat :=
  (m.single * 128 + m.groupId) :: m.assignments.map (fun a => a.1 * 128 + a.2)

/-- C57, partial (missing: the multiplexing header, see `C57_finding_group`): the body of a group
assignment IE, given the length in its multiplexing header, is packed and recovered
unchanged, for any number of assignments. -/
theorem C57_group_body_partial (m : GroupAssignment) (h : GroupOk m) (rest : List Nat) :
    m.pack = .ok (groupBytes m) ∧ m.packedSize = .ok (groupBytes m).length ∧
      GroupAssignment.unpack (groupBytes m).length (groupBytes m ++ rest) = .ok (m, true) := by
  have k1 := h.count
  have k2 := h.groupId
  have ht : GroupTyped m := ⟨Or.inl (by omega), fun a ha => Or.inl (by
    have := (h.assignments a ha).1; omega)⟩
  have hv := (GroupAssignment.isValid_iff ht).2 h
  have hsz : m.packedSize = .ok (groupBytes m).length := by
    simp [GroupAssignment.packedSize, hv, groupBytes]; omega
  have hfm : ∀ l : List (Nat × Nat), (∀ a ∈ l, a.1 ≤ 1 ∧ a.2 ≤ 127) →
      l.flatMap (fun a => [u8 (u8 (a.1 <<< 7) ||| a.2)]) = l.map (fun a => a.1 * 128 + a.2) := by
    intro l hl
    induction l with
    | nil => rfl
    | cons a l ih =>
      have ha := hl a (by simp)
      have e : u8 (u8 (a.1 <<< 7) ||| a.2) = a.1 * 128 + a.2 := by bitsg; omega
      rw [List.flatMap_cons, ih fun x hx => hl x (by simp [hx]), e]
      rfl
  have hfs : ∀ l : List (Nat × Nat), l.flatMap (fun a => [a.1 * 128 + a.2]) =
      l.map (fun a => a.1 * 128 + a.2) := by
    intro l
    induction l with
    | nil => rfl
    | cons a l ih => rw [List.flatMap_cons, ih]; rfl
  refine ⟨?_, hsz, ?_⟩
  · have e : u8 (u8 (m.single <<< 7) ||| m.groupId) = m.single * 128 + m.groupId := by bitsg; omega
    simp only [GroupAssignment.pack, hv, Res.assert_true, Res.ok_bind, e, hfm _ h.assignments]
    rfl
  · have e1 : (m.single * 128 + m.groupId) >>> 7 = m.single := by bitsg; omega
    have e2 : (m.single * 128 + m.groupId) &&& bitmaskLsb 7 = m.groupId := by
      rw [show bitmaskLsb 7 = 127 by decide]; bitsg; omega
    have hl : (groupBytes m).length - 1 = m.assignments.length := by simp [groupBytes]
    have hrun : ∀ a ∈ m.assignments, ∀ o l, (do
        let c ← P.byte
        pure (enumFrom 2 (c >>> 7), c &&& bitmaskLsb 7) : P (Nat × Nat)).run o
        ([a.1 * 128 + a.2] ++ l) = .ok (a, o + 1, l) := by
      intro a ha o l
      have := h.assignments a ha
      have f1 : (a.1 * 128 + a.2) >>> 7 = a.1 := by bitsg; omega
      have f2 : (a.1 * 128 + a.2) &&& bitmaskLsb 7 = a.2 := by
        rw [show bitmaskLsb 7 = 127 by decide]; bitsg; omega
      refine P.step (P.run_byte _ _ _) ?_
      rw [P.run_pure, f1, f2, enumFrom_of_lt (by omega)]
      rfl
    unfold GroupAssignment.unpack
    rw [hl]
    have hmany := P.run_many (do
        let c ← P.byte
        pure (enumFrom 2 (c >>> 7), c &&& bitmaskLsb 7) : P (Nat × Nat))
      (fun a => [a.1 * 128 + a.2]) m.assignments 1 rest hrun
    rw [hfs] at hmany
    have hev : (do
        let b ← P.byte
        let a ← P.many (do
          let c ← P.byte
          pure (enumFrom 2 (c >>> 7), c &&& bitmaskLsb 7)) m.assignments.length
        pure (GroupAssignment.mk (enumFrom 2 (b >>> 7)) (b &&& bitmaskLsb 7) a) :
        P GroupAssignment).eval (groupBytes m ++ rest) = .ok m := by
      refine eval_byte (g := do
        let a ← P.many (do
          let c ← P.byte
          pure (enumFrom 2 (c >>> 7), c &&& bitmaskLsb 7)) m.assignments.length
        pure (GroupAssignment.mk m.single m.groupId a)) (o := _) (l := rest) ?_
        (P.step hmany (P.run_pure _ _ _))
      simp only [e1, e2, enumFrom_of_lt (show m.single < 2 by omega)]
    rw [hev, Res.ok_bind, hsz, Res.ok_bind]
    simp only [decide_true, Res.assert_true, Res.ok_bind, hv, Res.pure_eq]

/-- C57, the code does not meet the claim: no group assignment IE can be sent. The constructor leaves
the extension of the multiplexing header undefined, nothing else sets it, and packing the header
aborts. -/
theorem C57_finding_group (m : GroupAssignment) : m.packMmhSdu = .abort := rfl

/-- C57, negation: a valid group assignment IE that cannot be sent. -/
theorem C57_negation : GroupOk ⟨0, 5, [(1, 3), (0, 4)]⟩ ∧
    GroupAssignment.packMmhSdu ⟨0, 5, [(1, 3), (0, 4)]⟩ = .abort := by
  refine ⟨⟨Or.inr ⟨rfl, by decide⟩, by decide, ?_⟩, rfl⟩
  intro a ha
  simp at ha
  rcases ha with rfl | rfl <;> decide

/-- A capability with two additional numerologies. -/
def sampleCapability : RdCapability :=
  ⟨[⟨1, 2, ⟨0, 1, 2, 3, 4, 5, 1, 6⟩⟩, ⟨3, 5, ⟨2, 3, 3, 8, 9, 8, 3, 0⟩⟩], 1, 2, true, false, 1, 4,
    ⟨1, 0, 1, 5, 9, 2, 3, 6⟩⟩

theorem C57_example : sampleCapability.pack = .ok [65, 10, 48, 17, 89, 44, 96, 36, 6, 52, 84, 96,
      106, 47, 137, 140, 0] ∧
    RdCapability.unpack [65, 10, 48, 17, 89, 44, 96, 36, 6, 52, 84, 96, 106, 47, 137, 140, 0] =
      .ok (sampleCapability, true) := by decide +kernel

end Verif.Mac
