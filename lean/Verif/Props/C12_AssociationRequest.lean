import Verif.Model.AssociationRequest
import Verif.Props.C10_NetworkBeacon
import Mathlib.Data.Finset.Card
import Mathlib.Order.Interval.Finset.Nat

set_option linter.unusedSimpArgs false

/-!
# C12: association request message
-/

namespace Verif.Mac
open BitByte

structure HarqOk (h : HarqConfig) : Prop where
  n : h.n ≤ 7
  delay : h.delay ≤ 30

structure FtOk (f : FtConfig) : Prop where
  nbp : f.nbp ≤ 6
  cbp : f.cbp ≤ 10
  nextChannel : Channel.Assigned f.nextChannel
  ttn : f.ttn < 2 ^ 32

/-- Field ranges (Table 6.4.2.4-1): a set of at least one flow with IDs 1 to 6. -/
structure AssocOk (m : AssociationRequest) : Prop where
  cause : m.cause ≤ 6
  flows : m.flows ≠ []
  flowIds : ∀ x ∈ m.flows, 1 ≤ x ∧ x ≤ 6
  ft : ∀ f, m.ft = some f → FtOk f
  current : ∀ x, m.current = some x → Channel.Assigned x
  tx : HarqOk m.tx
  rx : HarqOk m.rx

/-- Values the members can hold: a set lists its elements in strictly ascending order. -/
structure AssocTyped (m : AssociationRequest) : Prop where
  cause : EnumVal 7 m.cause
  sorted : m.flows.Pairwise (· < ·)
  flows : ∀ x ∈ m.flows, EnumValL 0 7 x
  ft : ∀ f, m.ft = some f → EnumVal 7 f.nbp ∧ EnumVal 11 f.cbp ∧ f.ttn < 2 ^ 32
  tx : EnumVal 31 m.tx.delay
  rx : EnumVal 31 m.rx.delay

theorem HarqConfig.isValid_iff {h : HarqConfig} (ht : EnumVal 31 h.delay) :
    h.isValid = true ↔ HarqOk h := by
  simp only [isValid, Bool.and_eq_true, Bool.not_eq_true', decide_eq_false_iff_not,
    enumValid_iff ht (by omega : 31 ≤ 1000)]
  exact ⟨fun ⟨a, b⟩ => ⟨by omega, by omega⟩, fun ⟨a, b⟩ => ⟨by omega, by omega⟩⟩

theorem FtConfig.isValid_iff {f : FtConfig}
    (ht : EnumVal 7 f.nbp ∧ EnumVal 11 f.cbp ∧ f.ttn < 2 ^ 32) : f.isValid = true ↔ FtOk f := by
  simp only [isValid, Bool.and_eq_true, Channel.inRange_iff,
    enumValid_iff ht.1 (by omega : 7 ≤ 1000), enumValid_iff ht.2.1 (by omega : 11 ≤ 1000)]
  exact ⟨fun ⟨⟨a, b⟩, c⟩ => ⟨by omega, by omega, c, ht.2.2⟩,
    fun ⟨a, b, c, _⟩ => ⟨⟨by omega, by omega⟩, c⟩⟩

theorem AssociationRequest.isValid_iff {m : AssociationRequest} (ht : AssocTyped m) :
    m.isValid = true ↔ AssocOk m := by
  have h1 : m.flows.all (enumValidL 0 7) = true ↔ ∀ x ∈ m.flows, 1 ≤ x ∧ x ≤ 6 := by
    rw [List.all_eq_true]
    refine forall_congr' fun x => forall_congr' fun hx => ?_
    rw [enumValidL_iff (ht.flows x hx) (by omega)]; omega
  have h2 : P.all m.ft FtConfig.isValid = true ↔ ∀ f, m.ft = some f → FtOk f := by
    rw [P.all_iff]
    exact forall_congr' fun f => forall_congr' fun hf => FtConfig.isValid_iff (ht.ft f hf)
  have h3 : (!m.flows.isEmpty) = true ↔ m.flows ≠ [] := by
    cases m.flows <;> simp
  simp only [isValid, Bool.and_eq_true, h1, h2, h3, allChannel_iff,
    enumValid_iff ht.cause (by omega : 7 ≤ 1000), HarqConfig.isValid_iff ht.tx,
    HarqConfig.isValid_iff ht.rx]
  constructor
  · rintro ⟨⟨⟨⟨⟨a, b, c⟩, d⟩, e⟩, f⟩, g⟩
    exact ⟨by omega, b, c, d, e, f, g⟩
  · rintro ⟨a, b, c, d, e, f, g⟩
    exact ⟨⟨⟨⟨⟨by omega, b, c⟩, d⟩, e⟩, f⟩, g⟩

/-- A strictly ascending list of values from 1 to 6 has at most six elements. -/
theorem flows_length {l : List Nat} (hs : l.Pairwise (· < ·)) (h : ∀ x ∈ l, 1 ≤ x ∧ x ≤ 6) :
    l.length ≤ 6 := by
  have hn : l.Nodup := hs.imp fun h => Nat.ne_of_lt h
  have := List.toFinset_card_of_nodup hn
  rw [← this]
  have hsub : l.toFinset ⊆ Finset.Icc 1 6 := by
    intro x hx
    simpa using h x (by simpa using hx)
  simpa using Finset.card_le_card hsub

def ftBytes (f : FtConfig) : List Nat :=
  [f.nbp * 16 + f.cbp] ++ (beBytes 2 f.nextChannel ++ beBytes 4 f.ttn)

def assocBytes (m : AssociationRequest) : List Nat :=
  [m.cause * 32 + m.flows.length * 4 + m.powerConst.toNat * 2 + m.ft.isSome.toNat,
    m.current.isSome.toNat * 128, m.tx.n * 32 + m.tx.delay, m.rx.n * 32 + m.rx.delay] ++
  (m.flows ++ (P.wr m.ft ftBytes ++ P.wr m.current (beBytes 2)))

def assocSize (m : AssociationRequest) : Nat :=
  4 + m.flows.length + m.ft.isSome.toNat * 7 + m.current.isSome.toNat * 2

theorem assocBytes_length (m : AssociationRequest) : (assocBytes m).length = assocSize m := by
  obtain ⟨a, b, c, ft, cur, d, e⟩ := m
  cases ft <;> cases cur <;> simp [assocBytes, assocSize, P.wr, beBytes_length, ftBytes] <;> omega

theorem harqByte {h : HarqConfig} (hk : HarqOk h) : h.byte = h.n * 32 + h.delay := by
  have := hk.n
  have := hk.delay
  unfold HarqConfig.byte
  bitsg; omega

theorem harq_ofByte {h : HarqConfig} (hk : HarqOk h) :
    HarqConfig.ofByte (h.n * 32 + h.delay) = h := by
  have := hk.n
  have := hk.delay
  have e1 : (h.n * 32 + h.delay) >>> 5 = h.n := by bitsg; omega
  have e2 : (h.n * 32 + h.delay) &&& bitmaskLsb 5 = h.delay := by
    rw [show bitmaskLsb 5 = 31 by decide]; bitsg; omega
  simp [HarqConfig.ofByte, e1, e2, enumFrom_of_lt (show h.delay < 31 by omega)]

theorem ftPack_eq {f : FtConfig} (h : FtOk f) : AssociationRequest.ftPack f = .ok (ftBytes f) := by
  have h1 := h.nbp
  have h2 := h.cbp
  have e : u8 (u8 (f.nbp <<< 4) ||| f.cbp) = f.nbp * 16 + f.cbp := by bitsg; omega
  simp only [AssociationRequest.ftPack, e, l2bLower_eq _ (Nat.le_refl 4), Res.ok_bind, Res.pure_eq,
    ftBytes, beBytes_channel (Channel.lt_of_assigned h.nextChannel)]

theorem flatMap_u8 {l : List Nat} (h : ∀ x ∈ l, 1 ≤ x ∧ x ≤ 6) :
    l.flatMap (fun x => [u8 x]) = l := by
  induction l with
  | nil => rfl
  | cons a l ih =>
    have ha := h a (by simp)
    rw [List.flatMap_cons, ih fun x hx => h x (by simp [hx]), u8, Nat.mod_eq_of_lt (by omega)]
    rfl

/-- C12: layout and size of a packed association request; the receiver can tell the size from the
first two bytes. -/
theorem C12_pack (m : AssociationRequest) (ht : AssocTyped m) (h : AssocOk m) :
    m.pack = .ok (assocBytes m) ∧ (assocBytes m).length = assocSize m ∧
      m.packedSize = .ok (assocSize m) ∧ Bytes (assocBytes m) ∧
      ∀ rest, AssociationRequest.peek (assocBytes m ++ rest) = .ok (some (assocSize m)) := by
  have hv := (AssociationRequest.isValid_iff ht).2 h
  have hlen := flows_length ht.sorted h.flowIds
  have b1 := toNat_le m.powerConst
  have b2 := toNat_le m.ft.isSome
  have b3 := toNat_le m.current.isSome
  have hc := h.cause
  have hpeek : ∀ rest, AssociationRequest.peek (assocBytes m ++ rest) =
      .ok (some (assocSize m)) := by
    intro rest
    have e1 : (m.cause * 32 + m.flows.length * 4 + m.powerConst.toNat * 2 + m.ft.isSome.toNat) >>> 2
        &&& 7 = m.flows.length := by bitsg; omega
    have e2 : (m.cause * 32 + m.flows.length * 4 + m.powerConst.toNat * 2 + m.ft.isSome.toNat) &&& 1
        = m.ft.isSome.toNat := by bitsg; omega
    have e3 : (m.current.isSome.toNat * 128) >>> 7 = m.current.isSome.toNat := by bitsg; omega
    simp only [AssociationRequest.peek, assocBytes, List.cons_append, rd_succ, rd_zero, Res.ok_bind,
      e1, e2, e3]
    rw [if_pos (by omega)]
    rfl
  refine ⟨?_, assocBytes_length m, ?_, ?_, hpeek⟩
  · simp only [AssociationRequest.pack, hv, Res.assert_true, Res.ok_bind]
    rw [P.wrM_eq m.ft AssociationRequest.ftPack ftBytes fun f hf => ftPack_eq (h.ft f hf),
      P.wr_congr m.current wrChannel (beBytes 2)
        fun x hx => (beBytes_channel (Channel.lt_of_assigned (h.current x hx))).symm,
      flatMap_u8 h.flowIds, harqByte h.tx, harqByte h.rx]
    have e1 : u8 (u8 (u8 (u8 (m.cause <<< 5) ||| m.flows.length <<< 2) |||
        m.powerConst.toNat <<< 1) ||| m.ft.isSome.toNat) =
        m.cause * 32 + m.flows.length * 4 + m.powerConst.toNat * 2 + m.ft.isSome.toNat := by
      bitsg; omega
    have e2 : u8 (m.current.isSome.toNat <<< 7) = m.current.isSome.toNat * 128 := by bitsg; omega
    rw [e1, e2, Res.ok_bind]
    change (AssociationRequest.peek (assocBytes m) >>= fun n => _) = _
    have := hpeek []
    rw [List.append_nil] at this
    rw [this, Res.ok_bind]
    change (Res.assert true >>= fun _ =>
      Res.assert (decide (some (assocSize m) = some (assocBytes m).length)) >>= _) = _
    rw [assocBytes_length]
    simp [assocBytes]
  · simp [AssociationRequest.packedSize, hv, assocSize]
  · intro b hb
    simp only [assocBytes, List.mem_append, List.mem_cons, List.not_mem_nil, or_false] at hb
    have t1 := h.tx.n
    have t2 := h.tx.delay
    have t3 := h.rx.n
    have t4 := h.rx.delay
    rcases hb with (rfl | rfl | rfl | rfl) | hb | hb | hb
    · omega
    · omega
    · omega
    · omega
    · have := h.flowIds b hb; omega
    · refine P.wr_bytes m.ft ftBytes (fun f hf => ?_) b hb
      intro c hc
      have f1 := (h.ft f hf).nbp
      have f2 := (h.ft f hf).cbp
      simp only [ftBytes, List.mem_append, List.mem_cons, List.not_mem_nil, or_false] at hc
      rcases hc with rfl | hc | hc
      · omega
      · exact beBytes_bytes _ _ _ hc
      · exact beBytes_bytes _ _ _ hc
    · exact P.wr_bytes m.current (beBytes 2) (fun x _ => beBytes_bytes 2 x) b hb

theorem C12_pack_abort (m : AssociationRequest) (ht : AssocTyped m) (h : ¬ AssocOk m) :
    m.pack = .abort := by
  have : m.isValid = false := by
    rw [← Bool.not_eq_true, AssociationRequest.isValid_iff ht]; exact h
  simp [AssociationRequest.pack, this]

/-! ## The set of flows -/

theorem setInsert_last {x : Nat} {l : List Nat} (h : ∀ y ∈ l, y < x) :
    setInsert x l = l ++ [x] := by
  induction l with
  | nil => rfl
  | cons y l ih =>
    have := h y (by simp)
    rw [setInsert, if_neg (by omega), if_neg (by omega), ih fun z hz => h z (by simp [hz])]
    rfl

/-- The set of the listed values. -/
def setOf' (l : List Nat) : List Nat := l.foldl (fun s x => setInsert x s) []

theorem setOf_sorted {l : List Nat} (h : l.Pairwise (· < ·)) : setOf' l = l := by
  have key : ∀ (l acc : List Nat), (acc ++ l).Pairwise (· < ·) →
      l.foldl (fun s x => setInsert x s) acc = acc ++ l := by
    intro l
    induction l with
    | nil => intro acc _; simp
    | cons x l ih =>
      intro acc h
      rw [List.foldl_cons, setInsert_last, ih]
      · simp
      · simpa using h
      · intro y hy
        exact (List.pairwise_append.1 h).2.2 y hy x (by simp)
  exact key l [] (by simpa using h)

theorem mem_setInsert {x y : Nat} {l : List Nat} : y ∈ setInsert x l ↔ y = x ∨ y ∈ l := by
  induction l with
  | nil => simp [setInsert]
  | cons z l ih =>
    unfold setInsert
    split
    · simp
    · split
      · rename_i h; subst h; simp
      · simp only [List.mem_cons, ih]; tauto

theorem setInsert_sorted {x : Nat} {l : List Nat} (h : l.Pairwise (· < ·)) :
    (setInsert x l).Pairwise (· < ·) := by
  induction l with
  | nil => simp [setInsert]
  | cons z l ih =>
    unfold setInsert
    rw [List.pairwise_cons] at h
    split
    · rename_i hx
      rw [List.pairwise_cons]
      refine ⟨fun y hy => ?_, List.pairwise_cons.2 h⟩
      rcases List.mem_cons.1 hy with rfl | hy
      · exact hx
      · have := h.1 y hy; omega
    · split
      · exact List.pairwise_cons.2 h
      · rw [List.pairwise_cons]
        refine ⟨fun y hy => ?_, ih h.2⟩
        rcases mem_setInsert.1 hy with rfl | hy
        · omega
        · exact h.1 y hy

theorem setOf_spec (l : List Nat) : (setOf' l).Pairwise (· < ·) ∧ ∀ x, x ∈ setOf' l ↔ x ∈ l := by
  have key : ∀ (l acc : List Nat), acc.Pairwise (· < ·) →
      (l.foldl (fun s x => setInsert x s) acc).Pairwise (· < ·) ∧
      ∀ x, x ∈ l.foldl (fun s x => setInsert x s) acc ↔ x ∈ acc ∨ x ∈ l := by
    intro l
    induction l with
    | nil => intro acc h; simpa using h
    | cons y l ih =>
      intro acc h
      rw [List.foldl_cons]
      obtain ⟨a, b⟩ := ih (setInsert y acc) (setInsert_sorted h)
      refine ⟨a, fun x => ?_⟩
      rw [b, mem_setInsert, List.mem_cons]; tauto
  simpa [setOf'] using key l [] (by simp)

theorem setOf_length (l : List Nat) : (setOf' l).length = l.length ↔ l.Nodup := by
  obtain ⟨h1, h2⟩ := setOf_spec l
  have hn : (setOf' l).Nodup := h1.imp fun h => Nat.ne_of_lt h
  have e : (setOf' l).toFinset = l.toFinset := by ext x; simp [h2]
  rw [← List.toFinset_card_of_nodup hn, e, List.card_toFinset]
  constructor
  · intro h
    exact List.dedup_eq_self.1 ((List.dedup_sublist l).eq_of_length h)
  · intro h
    rw [List.dedup_eq_self.2 h]

/-! ## Receiving -/

/-- What is recovered: the network beacon period of the FT configuration is always code 0. -/
def assocRecovered (m : AssociationRequest) : AssociationRequest :=
  { m with ft := m.ft.map fun f => { f with nbp := 0 } }

theorem and_msb32 {b : Nat} (h : b < 256) : b &&& bitmaskMsb 32 4 = 0 := by
  have : ∀ b < 256, b &&& bitmaskMsb 32 4 = 0 := by decide +kernel
  exact this b h

theorem run_ftParse {f : FtConfig} (h : FtOk f) (o : Nat) (l : List Nat) :
    AssociationRequest.ftParse.run o (ftBytes f ++ l) = .ok ({ f with nbp := 0 }, o + 7, l) := by
  have h1 := h.nbp
  have h2 := h.cbp
  have h3 := Channel.lt_of_assigned h.nextChannel
  have h4 := h.ttn
  simp only [ftBytes, List.cons_append, List.nil_append, List.append_assoc]
  unfold AssociationRequest.ftParse
  refine P.step (P.run_byte _ _ _) ?_
  rw [beBytes_channel h3]
  refine P.step (run_rdChannel h3 _ _) (P.step (P.run_be 4 4 _ _ _ (Nat.le_refl 4) (by omega)) ?_)
  have e : (f.nbp * 16 + f.cbp) &&& bitmaskLsb 4 = f.cbp := by
    rw [show bitmaskLsb 4 = 15 by decide]; bitsg; omega
  rw [P.run_pure, and_msb32 (by omega), e, enumFrom_of_lt (show 0 < 7 by omega),
    enumFrom_of_lt (show f.cbp < 11 by omega)]

theorem AssociationRequest.parse_run (m : AssociationRequest) (ht : AssocTyped m) (h : AssocOk m)
    (rest : List Nat) :
    parse.run 0 (assocBytes m ++ rest) = .ok (assocRecovered m, assocSize m, rest) := by
  have hlen := assocBytes_length m
  have hfl := flows_length ht.sorted h.flowIds
  have hc := h.cause
  have b1 := toNat_le m.powerConst
  have b2 := toNat_le m.ft.isSome
  have ebits : ∀ (a b : Bool), ∀ c < 7, ∀ k < 7,
      let x := c * 32 + k * 4 + a.toNat * 2 + b.toNat
      x >>> 5 = c ∧ (x >>> 2 &&& bitmaskLsb 3) = k ∧ (x &&& 2 != 0) = a ∧ (x &&& 1 != 0) = b := by
    decide +kernel
  obtain ⟨e1, e2, e3, e4⟩ := ebits m.powerConst m.ft.isSome m.cause (by omega) m.flows.length
    (by omega)
  have e5 : ((m.current.isSome.toNat * 128) >>> 7 != 0) = m.current.isSome := by
    cases m.current <;> simp
  have r1 : ∀ o l, (P.many (do
      let x ← P.byte
      pure (enumFromL 0 7 (x &&& bitmaskLsb 6)) : P Nat) m.flows.length).run o (m.flows ++ l) =
      .ok (m.flows, o + m.flows.length, l) := by
    intro o l
    have := P.run_many (do
      let x ← P.byte
      pure (enumFromL 0 7 (x &&& bitmaskLsb 6))) (fun x => [x]) m.flows o l (by
        intro a ha o l
        have := h.flowIds a ha
        have e : a &&& bitmaskLsb 6 = a := by
          rw [show bitmaskLsb 6 = 63 by decide]; bitsg; omega
        refine P.step (P.run_byte _ _ _) ?_
        rw [e, enumFromL_of (by omega) (by omega)]
        rfl)
    rw [show m.flows.flatMap (fun x => [x]) = m.flows from by simp] at this
    exact this
  have r2 : ∀ o l, (P.opt m.ft.isSome ftParse).run o (P.wr m.ft ftBytes ++ l) =
      .ok ((assocRecovered m).ft, o + (P.wr m.ft ftBytes).length, l) := by
    intro o l
    have hh := h.ft
    cases hf : m.ft with
    | none => simp [P.opt, P.wr, assocRecovered, hf]
    | some f =>
      simp only [P.opt, Option.isSome_some, if_true, P.wr]
      refine P.step (run_ftParse (hh f hf) _ _) ?_
      simp [assocRecovered, hf, ftBytes, beBytes_length]
  have r3 : ∀ o l, (P.opt m.current.isSome rdChannel).run o (P.wr m.current (beBytes 2) ++ l) =
      .ok (m.current, o + (P.wr m.current (beBytes 2)).length, l) := fun o l =>
    P.run_opt rdChannel (beBytes 2) m.current o l (by
      intro a ha
      have := Channel.lt_of_assigned (h.current a ha)
      rw [beBytes_length, beBytes_channel this]
      exact run_rdChannel this o l)
  simp only [assocBytes, List.cons_append, List.nil_append, List.append_assoc,
    List.length_cons, List.length_append] at hlen ⊢
  unfold parse
  refine P.step (P.run_byte _ _ _) (P.step (P.run_byte _ _ _) (P.step (P.run_byte _ _ _)
    (P.step (P.run_byte _ _ _) ?_)))
  rw [e1, e2, e3, e4, e5]
  refine P.step (r1 _ _) (P.step (r2 _ _) (P.step (r3 _ _) ?_))
  rw [P.run_pure, harq_ofByte h.tx, harq_ofByte h.rx, enumFrom_of_lt (show m.cause < 7 by omega)]
  have := setOf_sorted ht.sorted
  unfold setOf' at this
  rw [this, ← hlen]
  have : 0 + 1 + 1 + 1 + 1 + m.flows.length + (P.wr m.ft ftBytes).length +
      (P.wr m.current (beBytes 2)).length = m.flows.length + ((P.wr m.ft ftBytes).length +
      (P.wr m.current (beBytes 2)).length) + 1 + 1 + 1 + 1 := by omega
  rw [this]
  rfl

theorem assocRecovered_ok {m : AssociationRequest} (h : AssocOk m) : AssocOk (assocRecovered m) := by
  obtain ⟨a, b, c, d, e, f, g⟩ := h
  refine ⟨a, b, c, ?_, e, f, g⟩
  intro x hx
  simp only [assocRecovered, Option.map_eq_some_iff] at hx
  obtain ⟨y, hy, rfl⟩ := hx
  obtain ⟨h1, h2, h3, h4⟩ := d y hy
  exact ⟨by simp, h2, h3, h4⟩

theorem assocRecovered_typed {m : AssociationRequest} (h : AssocTyped m) :
    AssocTyped (assocRecovered m) := by
  obtain ⟨a, b, c, d, e, f⟩ := h
  refine ⟨a, b, c, ?_, e, f⟩
  intro x hx
  simp only [assocRecovered, Option.map_eq_some_iff] at hx
  obtain ⟨y, hy, rfl⟩ := hx
  obtain ⟨-, h2, h3⟩ := d y hy
  exact ⟨Or.inl (by simp), h2, h3⟩

/-- C12 (partial): exact result of the round trip: everything is recovered except the network beacon
period of an FT configuration, which is always received as code 0. -/
theorem C12_recovered_partial (m : AssociationRequest) (ht : AssocTyped m) (h : AssocOk m)
    (rest : List Nat) :
    ∃ l, m.pack = .ok l ∧
      AssociationRequest.unpack (l ++ rest) = .ok (assocRecovered m, true) := by
  refine ⟨_, (C12_pack m ht h).1, ?_⟩
  have h' := assocRecovered_ok h
  have hv := (AssociationRequest.isValid_iff (assocRecovered_typed ht)).2 h'
  have hrun := AssociationRequest.parse_run m ht h rest
  have hs : (assocRecovered m).packedSize = .ok (assocSize m) := by
    have : (assocRecovered m).ft.isSome = m.ft.isSome := by simp [assocRecovered]
    simp only [AssociationRequest.packedSize, hv, Res.assert_true, Res.ok_bind, this]
    rfl
  unfold AssociationRequest.unpack
  have : (AssociationRequest.parse >>= fun m => P.offset >>= fun o =>
      (pure (m, o) : P (AssociationRequest × Nat))).eval (assocBytes m ++ rest) =
      .ok (assocRecovered m, assocSize m) := by
    unfold P.eval
    rw [P.run_bind, hrun]
    rfl
  rw [this, Res.ok_bind, hs]
  simp [hv]

/-- C12 (partial): round trip without FT configuration, or with network beacon period code 0. -/
theorem C12_roundtrip_partial (m : AssociationRequest) (ht : AssocTyped m) (h : AssocOk m)
    (hf : ∀ f, m.ft = some f → f.nbp = 0) (rest : List Nat) :
    ∃ l, m.pack = .ok l ∧ AssociationRequest.unpack (l ++ rest) = .ok (m, true) := by
  have := C12_recovered_partial m ht h rest
  have e : assocRecovered m = m := by
    obtain ⟨a, b, c, ft, d, e, f⟩ := m
    cases ft with
    | none => rfl
    | some f =>
      obtain ⟨f1, f2, f3, f4⟩ := f
      have := hf _ rfl
      simp only at this
      subst this
      rfl
  rwa [e] at this

theorem ftParse_reads : P.Reads AssociationRequest.ftParse 7 (fun f => EnumVal 7 f.nbp ∧
    EnumVal 11 f.cbp ∧ f.ttn < 2 ^ 32) := by
  refine P.Reads.congr (k := 1 + (2 + (4 + 0))) (P.Reads.byte.bind fun b _ => rdChannel_reads.bind
    fun c _ => (P.Reads.be (Nat.le_refl 4)).bind fun t ht => P.Reads.pure ?_) rfl
  exact ⟨enumVal_from _ _, enumVal_from _ _, by omega⟩

theorem AssociationRequest.parse_mono : P.Mono parse := by
  have := rdChannel_mono
  have : P.Mono ftParse := by unfold ftParse; pmono
  unfold parse
  pmono

/-- The flow IDs in the received bytes, in the order received; unassigned codes are replaced. -/
def receivedFlows (p : List Nat) (n : Nat) : List Nat :=
  ((p.drop 4).take n).map fun b => enumFromL 0 7 (b % 64)

/-- Reading `n` flow IDs. -/
theorem run_flows (n o : Nat) (l : List Nat) (h : n ≤ l.length) :
    (P.many (do
      let x ← P.byte
      pure (enumFromL 0 7 (x &&& bitmaskLsb 6)) : P Nat) n).run o l =
      .ok ((l.take n).map fun b => enumFromL 0 7 (b % 64), o + n, l.drop n) := by
  induction n generalizing o l with
  | zero => simp [P.many]
  | succ n ih =>
    match l, h with
    | b :: l, h =>
      rw [P.many]
      refine P.step (P.step (P.run_byte _ _ _) (P.run_pure _ _ _)) ?_
      refine P.step (ih _ _ (by simpa using h)) ?_
      rw [P.run_pure, show bitmaskLsb 6 = 63 by decide, and63]
      simp; omega

/-- C12 (partial): what the receiver does with arbitrary bytes. Two bytes are enough to know the
size or that the message is refused. With that many bytes, whatever they are, the receiver does not
read further; if the message found has its fields in range and no flow occurs twice it is
delivered, in every other case the receiver aborts. -/
theorem C12_receive_partial (p : List Nat) (hp : Bytes p) (h2 : 2 ≤ p.length) :
    (p[0]! / 4 % 8 = 7 ∧ AssociationRequest.peek p = .ok none) ∨
    (p[0]! / 4 % 8 < 7 ∧ ∃ n, AssociationRequest.peek p = .ok (some n) ∧ 4 ≤ n ∧ n ≤ 19 ∧
      (n ≤ p.length → ∃ m, AssocTyped m ∧
        (∀ x, x ∈ m.flows ↔ x ∈ receivedFlows p (p[0]! / 4 % 8)) ∧
        (AssocOk m ∧ (receivedFlows p (p[0]! / 4 % 8)).Nodup →
          ∀ q, AssociationRequest.unpack (p ++ q) = .ok (m, true)) ∧
        (¬ (AssocOk m ∧ (receivedFlows p (p[0]! / 4 % 8)).Nodup) →
          ∀ q, AssociationRequest.unpack (p ++ q) = .abort))) := by
  match p, h2 with
  | b0 :: b1 :: l, _ =>
    have hb0 : b0 < 256 := hp b0 (by simp)
    have hb1 : b1 < 256 := hp b1 (by simp)
    have hl : Bytes l := fun b hb => hp b (by simp [hb])
    have e1 : b0 >>> 2 &&& 7 = b0 / 4 % 8 := by bitsg
    have e1' : b0 >>> 2 &&& bitmaskLsb 3 = b0 / 4 % 8 := by
      rw [show bitmaskLsb 3 = 7 by decide]; bitsg
    have e2 : b0 &&& 1 = b0 % 2 := by bitsg
    have e3 : b1 >>> 7 = b1 / 128 := by bitsg
    have e3' : (b1 / 128 != 0).toNat = b1 / 128 := by
      have : b1 / 128 = 0 ∨ b1 / 128 = 1 := by omega
      rcases this with h | h <;> rw [h] <;> rfl
    have e2' : (b0 % 2 != 0).toNat = b0 % 2 := by
      have : b0 % 2 = 0 ∨ b0 % 2 = 1 := by omega
      rcases this with h | h <;> rw [h] <;> rfl
    simp only [List.getElem!_cons_zero, AssociationRequest.peek, rd_zero, rd_succ, Res.ok_bind, e1,
      e2, e3]
    by_cases hk : b0 / 4 % 8 < 7
    · right
      refine ⟨hk, 4 + b0 / 4 % 8 + b0 % 2 * 7 + b1 / 128 * 2, by rw [if_pos hk]; rfl, by omega,
        by omega, fun hn => ?_⟩
      match l, hn with
      | [], hn => exact absurd hn (by simp; omega)
      | [_], hn => exact absurd hn (by simp; omega)
      | b2 :: b3 :: l, hn =>
        simp only [List.length_cons] at hn
        have hl' : Bytes l := fun b hb => hl b (by simp [hb])
        have hrun : ∃ m o l', AssociationRequest.parse.run 0 (b0 :: b1 :: b2 :: b3 :: l) =
            .ok (m, o, l') ∧ (o = 4 + b0 / 4 % 8 + b0 % 2 * 7 + b1 / 128 * 2 ∧ AssocTyped m ∧
              m.flows = setOf' ((l.take (b0 / 4 % 8)).map fun b => enumFromL 0 7 (b % 64)) ∧
              m.ft.isSome.toNat = b0 % 2 ∧ m.current.isSome.toNat = b1 / 128) := by
          unfold AssociationRequest.parse
          refine P.run_step (P.run_byte _ _ _) (P.run_step (P.run_byte _ _ _)
            (P.run_step (P.run_byte _ _ _) (P.run_step (P.run_byte _ _ _) ?_)))
          rw [e1', e2, e3]
          refine P.run_step (run_flows _ _ _ (by omega)) ?_
          refine P.WP.run (N := l.length + 4) ?_ (P.Bytes.drop hl' _) (by simp; omega)
          refine .bind (.opt ftParse_reads (by omega) fun ft x1 y1 => ?_)
          refine .bind (.opt rdChannel_reads (by omega) fun cur x2 y2 => ?_)
          refine .pure ⟨by omega, ?_, rfl, ?_, ?_⟩
          · obtain ⟨s1, s2⟩ := setOf_spec ((l.take (b0 / 4 % 8)).map fun b => enumFromL 0 7 (b % 64))
            refine ⟨enumVal_from _ _, s1, ?_, y1, enumVal_from _ _, enumVal_from _ _⟩
            intro x hx
            have := (s2 x).1 hx
            rw [List.mem_map] at this
            obtain ⟨b, -, rfl⟩ := this
            exact enumValL_from _ _ _
          · simp only [x1, e2']
          · simp only [x2, e3']
        obtain ⟨m, o, l', e, ho, ht, hfl, hft, hcur⟩ := hrun
        have hrf : receivedFlows (b0 :: b1 :: b2 :: b3 :: l) (b0 / 4 % 8) =
            (l.take (b0 / 4 % 8)).map fun b => enumFromL 0 7 (b % 64) := rfl
        have hlen : (receivedFlows (b0 :: b1 :: b2 :: b3 :: l) (b0 / 4 % 8)).length = b0 / 4 % 8 := by
          rw [hrf, List.length_map, List.length_take]; omega
        have heval : ∀ q, (AssociationRequest.parse >>= fun m => P.offset >>= fun o =>
            (pure (m, o) : P (AssociationRequest × Nat))).eval
              (b0 :: b1 :: b2 :: b3 :: l ++ q) = .ok (m, o) := by
          intro q
          have hm : P.Mono (AssociationRequest.parse >>= fun m => P.offset >>= fun o =>
              (pure (m, o) : P (AssociationRequest × Nat))) := by
            have := AssociationRequest.parse_mono
            pmono
          exact hm.eval_of_run (P.step e (P.step (P.run_offset _ _) (P.run_pure _ _ _))) q
        refine ⟨m, ht, fun x => ?_, ?_, ?_⟩
        · rw [hfl, hrf]; exact (setOf_spec _).2 x
        · rintro ⟨h1, h2⟩ q
          have hv := (AssociationRequest.isValid_iff ht).2 h1
          have hl2 : m.flows.length = b0 / 4 % 8 := by
            rw [hfl, ← hrf, (setOf_length _).2 h2, hlen]
          unfold AssociationRequest.unpack
          rw [heval, Res.ok_bind]
          simp only [AssociationRequest.packedSize, hv, Res.assert_true, Res.ok_bind, Res.pure_eq]
          rw [hl2, hft, hcur, ho]
          simp
        · intro hn q
          unfold AssociationRequest.unpack
          rw [heval, Res.ok_bind]
          by_cases h1 : AssocOk m
          · have h2 : ¬ (receivedFlows (b0 :: b1 :: b2 :: b3 :: l) (b0 / 4 % 8)).Nodup :=
              fun h => hn ⟨h1, h⟩
            have hv := (AssociationRequest.isValid_iff ht).2 h1
            have hl2 : m.flows.length ≠ b0 / 4 % 8 := by
              rw [hfl, ← hrf]
              intro hc
              exact h2 ((setOf_length _).1 (by rw [hc, hlen]))
            simp only [AssociationRequest.packedSize, hv, Res.assert_true, Res.ok_bind, Res.pure_eq]
            rw [hft, hcur, ho, decide_eq_false (by omega)]
            rfl
          · have hv : m.isValid = false := by
              rw [← Bool.not_eq_true, AssociationRequest.isValid_iff ht]; exact h1
            simp [AssociationRequest.packedSize, hv]
    · left
      exact ⟨by omega, by rw [if_neg hk]; rfl⟩

/-- A request with an FT configuration with a network beacon period of 100 ms. -/
def sampleAssoc : AssociationRequest :=
  ⟨1, [1, 3, 6], true, some ⟨1, 4, 1657, 0xABCDEF⟩, some 1661, ⟨7, 30⟩, ⟨4, 0⟩⟩

/-- Hypotheses of `C12_recovered_partial` can be met. -/
theorem sampleAssoc_ok : AssocTyped sampleAssoc ∧ AssocOk sampleAssoc := by
  refine ⟨⟨Or.inl (by decide), by decide, ?_, ?_, Or.inl (by decide), Or.inl (by decide)⟩,
    ⟨by decide, by decide, by decide, ?_, ?_, ⟨by decide, by decide⟩, ⟨by decide, by decide⟩⟩⟩
  · intro x hx
    have : ∀ x ∈ sampleAssoc.flows, 0 ≤ x ∧ x ≤ 7 := by decide
    exact Or.inl (this x hx)
  · rintro f ⟨⟩
    exact ⟨Or.inl (by decide), Or.inl (by decide), by decide⟩
  · rintro f ⟨⟩
    exact ⟨by decide, by decide, by simp [Channel.Assigned], by decide⟩
  · rintro x ⟨⟩
    simp [Channel.Assigned]

/-- C12, negation of the round trip: a valid request that is received as a different one. -/
theorem C12_negation : ∃ m l m', AssocTyped m ∧ AssocOk m ∧ m.pack = .ok l ∧
    AssociationRequest.unpack l = .ok (m', true) ∧ m' ≠ m := by
  refine ⟨sampleAssoc, assocBytes sampleAssoc, assocRecovered sampleAssoc, sampleAssoc_ok.1,
    sampleAssoc_ok.2, (C12_pack _ sampleAssoc_ok.1 sampleAssoc_ok.2).1, ?_, by decide⟩
  obtain ⟨l, e1, e2⟩ := C12_recovered_partial sampleAssoc sampleAssoc_ok.1 sampleAssoc_ok.2 []
  rw [(C12_pack _ sampleAssoc_ok.1 sampleAssoc_ok.2).1] at e1
  cases e1
  simpa using e2

/-- C12, negation of the robustness claim: four received zero bytes (a request with no flow) pass the
size check and make the receiver abort. -/
theorem C12_abort_negation : AssociationRequest.peek [0, 0, 0, 0] = .ok (some 4) ∧
    AssociationRequest.unpack [0, 0, 0, 0] = .abort := by decide +kernel

/-- Also a request that names the same flow twice. -/
theorem C12_abort_duplicate : AssociationRequest.peek [8, 0, 0, 0, 3, 3] = .ok (some 6) ∧
    AssociationRequest.unpack [8, 0, 0, 0, 3, 3] = .abort := by decide +kernel

end Verif.Mac
