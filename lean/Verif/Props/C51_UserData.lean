import Verif.Model.P2pData
import Verif.Model.PacketSizes
import Verif.Props.C08_Pdu
import Verif.Props.C13_Queue

set_option linter.unusedSimpArgs false

/-!
# C51: user data arrives complete, unchanged and in order
-/

namespace Verif.P2p

open Verif.Mac Verif.App Dec

/-- Bytes of a transport block that a datagram takes: the datagram, and a header of 2 or 3 bytes. -/
def need (d : List Nat) : Nat := d.length + if d.length ≤ 255 then 2 else 3

/-- Bytes that several datagrams take. -/
def needs (ds : List (List Nat)) : Nat := (ds.map need).sum

/-- A datagram that can be sent. -/
def DatagramOk (d : List Nat) : Prop := 0 < d.length ∧ d.length ≤ 65535 ∧ Bytes d

/-- The first `k` datagrams of the queue fit behind `w` bytes of headers, with at least one byte left. -/
def Fits (tb w : Nat) (l : List (List Nat)) (k : Nat) : Prop :=
  k ≤ 8 ∧ k ≤ l.length ∧ w + needs (l.take k) < tb

/-- `k` is the greatest such number. -/
def Most (tb w : Nat) (l : List (List Nat)) (k : Nat) : Prop :=
  Fits tb w l k ∧ ∀ j, Fits tb w l j → j ≤ k

theorem needs_cons (d : List Nat) (ds : List (List Nat)) : needs (d :: ds) = need d + needs ds := by
  simp [needs]

theorem write_holds {q : Queue} {l : List (List Nat)} (h : Holds q l) {d : List Nat} (hd : d.length ≤ q.maxByte) :
    ∃ q', q.write d = .ok (q', if l.length + 1 < q.n then d.length else 0) ∧
      Holds q' (l ++ if l.length + 1 < q.n then [d] else []) ∧ q'.n = q.n ∧ q'.maxByte = q.maxByte := by
  have hl := h.len
  have := call_refines h (.write d)
  simp only [fifo, Queue.call] at this
  by_cases hf : l.length + 1 < q.n
  · rw [if_neg (by omega), if_neg (by omega)] at this
    simp only [if_pos hf]
    obtain ⟨q', e, h1, h2, h3⟩ := this
    obtain ⟨⟨a, b⟩, e1, e2⟩ := Res.bind_eq_ok.1 e
    cases e2
    exact ⟨a, e1, h1, h2, h3⟩
  · rw [if_pos (by omega)] at this
    simp only [if_neg hf, List.append_nil]
    obtain ⟨q', e, h1, h2, h3⟩ := this
    obtain ⟨⟨a, b⟩, e1, e2⟩ := Res.bind_eq_ok.1 e
    cases e2
    exact ⟨a, e1, h1, h2, h3⟩

theorem read_holds {q : Queue} {d : List Nat} {l : List (List Nat)} (h : Holds q (d :: l)) :
    q.read.2.1 = d.length ∧ q.read.2.2 = d ∧ Holds q.read.1 l ∧ q.read.1.n = q.n ∧ q.read.1.maxByte = q.maxByte := by
  have := call_refines h .read
  simp only [fifo, Queue.call] at this
  obtain ⟨q', e, h1, h2, h3⟩ := this
  simp only [Res.ok.injEq, Prod.mk.injEq, QRet.mk.injEq] at e
  obtain ⟨rfl, e1, e2, -⟩ := e
  exact ⟨e1, e2, h1, h2, h3⟩

/-- The datagrams that the server writes and the queue accepts. -/
theorem serverWrites_holds : ∀ (ds : List (List Nat)) {q : Queue} {l : List (List Nat)}, Holds q l →
    (∀ d ∈ ds, d.length ≤ q.maxByte) →
    ∃ q', serverWrites q ds = .ok q' ∧ Holds q' (l ++ ds.take (q.n - 1 - l.length)) ∧ q'.n = q.n ∧
      q'.maxByte = q.maxByte := by
  intro ds
  induction ds with
  | nil => intro q l h _; exact ⟨q, rfl, by simpa using h, rfl, rfl⟩
  | cons d ds ih =>
    intro q l h hd
    obtain ⟨q1, e1, h1, n1, m1⟩ := write_holds h (hd d (by simp))
    obtain ⟨q2, e2, h2, n2, m2⟩ := ih h1 (by rw [m1]; intro x hx; exact hd x (by simp [hx]))
    refine ⟨q2, by rw [serverWrites, e1, Res.ok_bind, e2], ?_, by omega, by omega⟩
    by_cases hf : l.length + 1 < q.n
    · simp only [if_pos hf, n1, List.length_append, List.length_singleton] at h2
      rw [show q.n - 1 - l.length = (q.n - 1 - (l.length + 1)) + 1 by omega, List.take_succ_cons]
      simpa using h2
    · simp only [if_neg hf, n1, List.append_nil] at h2
      have hl := h.len
      rw [show q.n - 1 - l.length = 0 by omega] at h2 ⊢
      simpa using h2

/-- Header of a datagram. -/
theorem head_ok {d : List Nat} (h : DatagramOk d) :
    ∃ hd l, setDataSize { Mmh.zero with ie := 3 } d.length = .ok hd ∧ hd.packedSize = .ok l.length ∧ hd.pack = .ok l ∧
      l.length + d.length = need d ∧ (TxIe.data 1 d).pack 1 = .ok (l ++ d) := by
  obtain ⟨h1, h2, h3⟩ := h
  have m16 : bitmaskLsb 16 = 65535 := by decide
  have m8 : bitmaskLsb 8 = 255 := by decide
  have e1 : setDataSize { Mmh.zero with ie := 3 } d.length =
      .ok ⟨some (if d.length ≤ 255 then .len8 else .len16), 3, d.length, Mmh.zero.tinfo⟩ := by
    simp only [setDataSize, m16, m8, h1, h2, decide_true, Bool.and_self, Res.assert_true, Res.ok_bind, Res.pure_eq]
  obtain ⟨l, g1, g2, -, g4, -⟩ := C04_pack (if d.length ≤ 255 then .len8 else .len16) 3 d.length Mmh.zero.tinfo
    (by split <;> simp [Assigned]) (by split <;> simp [LengthFits] <;> omega)
  refine ⟨_, l, e1, by rw [g4, g2], g1, ?_, ?_⟩
  · rw [g2, need]; split <;> simp [headerSize] <;> omega
  · simp only [TxIe.pack, flowIe, Res.ok_bind, e1, g1, Res.pure_eq]

theorem put_ok {mem l : List Nat} {pos : Nat} (h : pos + l.length ≤ mem.length) :
    ∃ mem', put mem pos l = .ok mem' ∧ mem'.length = mem.length ∧ mem'.take (pos + l.length) = mem.take pos ++ l := by
  refine ⟨_, if_pos h, by simp; omega, ?_⟩
  rw [← List.append_assoc, List.take_left']
  simp; omega

theorem sduLoop_ok {tb : Nat} {conc : Nat → List (List Nat)} : ∀ (ds : List (List Nat)) (i w : Nat) (mem : List Nat)
    (q : Queue) (rest : List (List Nat)), Holds q (ds ++ rest) → (∀ d ∈ ds, DatagramOk d) →
    (∀ i, ∀ d ∈ conc i, d.length ≤ q.maxByte) → mem.length = tb → w < tb →
    ∃ (k : Nat) (c mem' : List Nat) (q' : Queue) (acc : List (List Nat)),
      k ≤ ds.length ∧ sduLoop tb conc (ds.map List.length) i w mem q = .ok (w + c.length, mem', q') ∧
      packIes 1 ((ds.take k).map (TxIe.data 1)) = .ok c ∧ c.length = needs (ds.take k) ∧ mem'.length = tb ∧
      mem'.take (w + c.length) = mem.take w ++ c ∧ Holds q' (ds.drop k ++ rest ++ acc) ∧
      acc.Sublist ((List.range' i k).map conc).flatten ∧ w + needs (ds.take k) < tb ∧
      (k = ds.length ∨ tb ≤ w + needs (ds.take (k + 1))) ∧ q'.n = q.n ∧ q'.maxByte = q.maxByte := by
  intro ds
  induction ds with
  | nil =>
    intro i w mem q rest h _ _ hm hw
    exact ⟨0, [], mem, q, [], by simp, rfl, rfl, rfl, hm, by simp, by simpa using h, by simp, by simpa [needs] using hw,
      Or.inl rfl, rfl, rfl⟩
  | cons d ds ih =>
    intro i w mem q rest h hok hc hm hw
    obtain ⟨hd, l, e1, e2, e3, e4, e5⟩ := head_ok (hok d (by simp))
    by_cases hfit : tb ≤ w + (l.length + d.length)
    · refine ⟨0, [], mem, q, [], by simp, ?_, rfl, rfl, hm, by simp, by simpa using h, by simp, by simpa [needs] using hw,
        Or.inr (by simp [needs]; omega), rfl, rfl⟩
      simp only [List.map_cons, sduLoop, flowIe, Res.ok_bind, e1, e2, if_pos hfit, List.length_nil, Nat.add_zero]
    · obtain ⟨m1, p1, p2, p3⟩ := put_ok (mem := mem) (l := l) (pos := w) (by omega)
      obtain ⟨q1, s1, s2, s3, s4⟩ := serverWrites_holds (conc i) h (hc i)
      rw [List.cons_append, List.cons_append] at s2
      obtain ⟨r1, r2, r3, r4, r5⟩ := read_holds s2
      obtain ⟨m2, p4, p5, p6⟩ := put_ok (mem := m1) (l := d) (pos := w + l.length) (by omega)
      have hd0 : d.length ≠ 0 := by have := (hok d (by simp)).1; omega
      rw [List.append_assoc] at r3
      obtain ⟨k, c, mem', q', acc, i1, i2, i3, i4, i5, i6, i7, i8, i9, i10, i11, i12⟩ :=
        ih (i + 1) (w + (l.length + d.length)) m2 q1.read.1 _ r3 (fun x hx => hok x (by simp [hx]))
          (by rw [r5, s4]; exact hc) (by omega) (by omega)
      have hl : (l ++ d ++ c).length = l.length + d.length + c.length := by
        simp only [List.length_append]
      refine ⟨k + 1, l ++ d ++ c, mem', q',
        (conc i).take (q.n - 1 - (d :: (ds ++ rest)).length) ++ acc, by simpa using i1, ?_, ?_, ?_, i5, ?_, ?_, ?_, ?_, ?_,
        by omega, by omega⟩
      · simp only [List.map_cons, sduLoop, flowIe, Res.ok_bind, e1, e2, if_neg hfit, e3, p1, s1, r1, r2, p4, if_neg hd0,
          Res.assert, decide_eq_true_eq]
        rw [if_pos (by omega)]
        simp only [Res.ok_bind]
        rw [i2, hl]
        congr 2
        omega
      · simp only [List.take_succ_cons, List.map_cons, packIes, e5, i3, Res.ok_bind, Res.pure_eq]
      · rw [List.take_succ_cons, needs_cons, ← i4, hl, ← e4]
      · rw [hl, show w + (l.length + d.length + c.length) = w + (l.length + d.length) + c.length by omega, i6,
          show w + (l.length + d.length) = w + l.length + d.length by omega, p6, p3]
        simp [List.append_assoc]
      · simp only [List.drop_succ_cons]
        simpa [List.append_assoc] using i7
      · rw [List.range'_succ, List.map_cons, List.flatten_cons]
        exact List.Sublist.append (List.take_sublist _ _) i8
      · rw [List.take_succ_cons, needs_cons]; omega
      · rcases i10 with h | h
        · left; simpa using h
        · right; rw [List.take_succ_cons, needs_cons]; omega

theorem needs_mono (l : List (List Nat)) {a b : Nat} (h : a ≤ b) : needs (l.take a) ≤ needs (l.take b) := by
  obtain ⟨c, rfl⟩ := Nat.exists_eq_add_of_le h
  rw [List.take_add]
  simp [needs]

/-- C51, the transmitter: `txUnicast` takes as many datagrams from the front of the queue as fit, at most eight, packs
them in this order, and leaves all others, and those written in the meantime, in the queue. If not even the first fits,
nothing is sent and nothing is taken. -/
theorem C51_send (tb s : Nat) (m : Mch) (conc : Nat → List (List Nat)) (mem : List Nat) (q : Queue)
    (l : List (List Nat)) (hs : s ≤ 3) (hm : MchOk m) (hq : Holds q l) (hok : ∀ d ∈ l, DatagramOk d)
    (hc : ∀ i, ∀ d ∈ conc i, d.length ≤ q.maxByte) (hmem : mem.length = tb) (hw : 1 + m.htype.mchSize < tb) :
    ∃ (k : Nat) (q' : Queue) (acc : List (List Nat)),
      Most tb (1 + m.htype.mchSize) l k ∧ Holds q' (l.drop k ++ acc) ∧ acc.Sublist ((List.range k).map conc).flatten ∧
      q'.n = q.n ∧ q'.maxByte = q.maxByte ∧
      (k = 0 → txUnicast tb ⟨some 0, some s, some m.htype⟩ m conc mem q = .ok (q', none)) ∧
      (0 < k → ∃ F pad, txUnicast tb ⟨some 0, some s, some m.htype⟩ m conc mem q = .ok (q', some F) ∧ F.length = tb ∧
        buildPdu 1 ⟨some 0, some s, some m.htype⟩ m ((l.take k).map (TxIe.data 1)) pad = .ok F) := by
  obtain ⟨b, hb1, -, -, -⟩ := C03_header_type_roundtrip s m.htype hs (by cases m <;> simp [Mch.htype])
  obtain ⟨lm, hm1, hm2, -, -⟩ := C03_mch_roundtrip_partial m hm
  have hlev : q.levels 8 = .ok ((l.take 8).map List.length) := by
    have := Holds.levelsFrom (min 8 l.length) q.r l (by omega) hq.lvl
    rw [Nat.mod_eq_of_lt hq.r] at this
    simp only [Queue.levels, hq.used_eq, this, Nat.le_refl, decide_true, Res.assert_true, Res.ok_bind, Res.pure_eq]
    congr 2
    rw [List.take_eq_take_iff]; omega
  by_cases hl : l = []
  · subst hl
    refine ⟨0, q, [], ⟨⟨by omega, by simp, by simpa [needs] using hw⟩, fun j hj => by have := hj.2.1; simpa using this⟩,
      by simpa using hq, by simp, rfl, rfl, fun _ => ?_, fun h => by omega⟩
    simp only [txUnicast, hlev, Res.ok_bind, List.take_nil, List.map_nil, if_true]
  have hlne : (l.take 8).map List.length ≠ [] := by
    simp only [ne_eq, List.map_eq_nil_iff, List.take_eq_nil_iff]; simp [hl]
  obtain ⟨m1, p1, p2, p3⟩ := put_ok (mem := mem) (l := [b] ++ lm) (pos := 0) (by simp; omega)
  obtain ⟨k, c, mem', q', acc, i1, i2, i3, i4, i5, i6, i7, i8, i9, i10, i11, i12⟩ :=
    sduLoop_ok (tb := tb) (conc := conc) (l.take 8) 0 (1 + lm.length) m1 q (l.drop 8) (by simpa using hq)
      (fun d hd => hok d (List.mem_of_mem_take hd)) hc (by omega) (by omega)
  have hk : k ≤ 8 ∧ k ≤ l.length := by simp at i1; omega
  have htk : (l.take 8).take k = l.take k := by rw [List.take_take, Nat.min_eq_left hk.1]
  have hdk : (l.take 8).drop k ++ l.drop 8 = l.drop k := by
    conv_rhs => rw [← List.take_append_drop 8 l]
    rw [List.drop_append]
    by_cases h8 : 8 ≤ l.length
    · rw [show k - (l.take 8).length = 0 by simp; omega, List.drop_zero]
    · rw [List.drop_eq_nil_of_le (show l.length ≤ 8 by omega)]; simp
  rw [htk] at i3 i4 i9
  rw [hdk] at i7
  rw [hm2] at i9 i10 i2 i6
  have hmost : Most tb (1 + m.htype.mchSize) l k := by
    refine ⟨⟨hk.1, hk.2, i9⟩, fun j hj => ?_⟩
    by_contra hjk
    obtain ⟨j1, j2, j3⟩ := hj
    rcases i10 with h | h
    · rw [List.length_take] at h; omega
    · rw [List.take_take, Nat.min_eq_left (by omega)] at h
      have := needs_mono l (show k + 1 ≤ j by omega)
      omega
  refine ⟨k, q', acc, hmost, i7, by rw [List.range_eq_range']; exact i8, i11, i12, ?_, ?_⟩
  · rintro rfl
    have hc0 : c.length = 0 := by simpa [needs] using i4
    simp only [txUnicast, hlev, Res.ok_bind, if_neg hlne, macSdu, hb1, hm1, p1, List.length_singleton, hm2, i2, hc0,
      Nat.add_zero, if_true]
  · intro hk0
    have hcpos : c.length ≠ 0 := by
      have h1 := needs_mono l (show 1 ≤ k by omega)
      obtain ⟨d, l', rfl⟩ := List.exists_cons_of_ne_nil hl
      rw [i4]
      rw [List.take_succ_cons, needs_cons, need] at h1
      split at h1 <;> omega
    obtain ⟨p, f1, f2, -⟩ := C05_fill (mem'.drop (1 + m.htype.mchSize + c.length)) (tb - (1 + m.htype.mchSize + c.length))
      (by simp; omega)
    rw [List.drop_eq_nil_of_le (show (mem'.drop _).length ≤ _ by simp; omega), List.append_nil] at f1
    refine ⟨mem'.take (1 + m.htype.mchSize + c.length) ++ p, mem'.drop (1 + m.htype.mchSize + c.length), ?_, ?_, ?_⟩
    · simp only [txUnicast, hlev, Res.ok_bind, if_neg hlne, macSdu, hb1, hm1, p1, List.length_singleton, hm2, i2]
      rw [if_neg (by omega)]
      simp only [f1, Res.ok_bind]
    · simp; omega
    · have hlen : (mem'.drop (1 + m.htype.mchSize + c.length)).length = tb - (1 + m.htype.mchSize + c.length) := by
        simp; omega
      simp only [buildPdu, hb1, hm1, i3, hlen, f1, Res.ok_bind, Res.pure_eq]
      rw [i6]
      have : m1.take (1 + m.htype.mchSize) = [b] ++ lm := by
        rw [← hm2]; simpa [Nat.add_comm] using p3
      rw [this]
      simp [List.append_assoc]

/-- What the receiver does with the datagrams of one packet: it appends them to the queue of the application as long as
there is room. -/
theorem rx_holds : ∀ (ds : List (List Nat)) {q : Queue} {l : List (List Nat)}, Holds q l →
    (∀ d ∈ ds, 0 < d.length ∧ d.length ≤ q.maxByte) →
    ∃ q', rxUnicast q (ds.map (Seen.data 1)) = .ok (q', min ds.length (q.n - 1 - l.length)) ∧
      Holds q' (l ++ ds.take (q.n - 1 - l.length)) ∧ q'.n = q.n ∧ q'.maxByte = q.maxByte := by
  intro ds
  induction ds with
  | nil => intro q l h _; exact ⟨q, by simp [rxUnicast], by simpa using h, rfl, rfl⟩
  | cons d ds ih =>
    intro q l h hd
    have hd0 := hd d (by simp)
    obtain ⟨q1, e1, h1, n1, m1⟩ := write_holds h hd0.2
    obtain ⟨q2, e2, h2, n2, m2⟩ := ih h1 (by rw [m1]; intro x hx; exact hd x (by simp [hx]))
    have hl := h.len
    refine ⟨q2, ?_, ?_, by omega, by omega⟩
    · rw [List.map_cons, rxUnicast, e1, Res.ok_bind, e2, Res.ok_bind]
      congr 2
      by_cases hf : l.length + 1 < q.n
      · simp only [if_pos hf, n1, List.length_append, if_pos hd0.1, List.length_cons, List.length_nil]
        omega
      · have h0 : q.n - 1 - l.length = 0 := by omega
        simp [if_neg hf, n1, h0]
    · by_cases hf : l.length + 1 < q.n
      · simp only [if_pos hf, n1, List.length_append, List.length_singleton] at h2
        rw [show q.n - 1 - l.length = (q.n - 1 - (l.length + 1)) + 1 by omega, List.take_succ_cons]
        simpa using h2
      · simp only [if_neg hf, n1, List.append_nil] at h2
        rw [show q.n - 1 - l.length = 0 by omega] at h2 ⊢
        simpa using h2

/-- C51, from queue to queue: the packet that `C51_send` describes, received in whatever portions, makes the receiver
append exactly the datagrams taken from the queue of the transmitter, in their order, to the queue of its application, as
far as there is room, and to forward as many. -/
theorem C51_transfer (tb s : Nat) (m : Mch) (ds : List (List Nat)) (pad F : List Nat) (pool : Ref → Obj) (q : Queue)
    (l : List (List Nat)) (ws : List Nat)
    (hs : s ≤ 3) (hm : MchOk m) (hok : ∀ d ∈ ds, DatagramOk d) (h8 : ds.length ≤ 8)
    (hF : buildPdu 1 ⟨some 0, some s, some m.htype⟩ m (ds.map (TxIe.data 1)) pad = .ok F) (htb : F.length = tb)
    (hbig : tb + 65536 ≤ 2 ^ 32) (hws : ws.Pairwise (· ≤ ·)) (hwl : ∀ w ∈ ws, w < tb)
    (hq : Holds q l) (hmax : ∀ d ∈ ds, d.length ≤ q.maxByte) :
    ∃ d0 d seen q', setConfiguration tb 1 pool = .ok d0 ∧ feed F (ws ++ [tb]) d0 = .ok d ∧
      d.delivered F = seen.map some ∧
      rxUnicast q seen = .ok (q', min ds.length (q.n - 1 - l.length)) ∧
      Holds q' (l ++ ds.take (q.n - 1 - l.length)) := by
  have harr : Arrives (ds.map (TxIe.data 1)) (ds.map (TxIe.data 1)) := by
    apply C08_all_arrive
    intro k
    have hle : countKind k (ds.map (TxIe.data 1)) ≤ ds.length := by
      have := List.length_filter_le (fun ie => decide (ie.kind = k)) (ds.map (TxIe.data 1))
      rw [List.length_map] at this
      exact this
    cases k with
    | userPlaneData => exact hle.trans h8
    | _ => simp [countKind, List.filter_map, Function.comp_def, TxIe.kind, poolSize]
  obtain ⟨F', e1, -, e3⟩ := C08_roundtrip 1 s m _ _ pad pool (Or.inl rfl) hs hm (by
    intro ie hie
    obtain ⟨d, hd, rfl⟩ := List.mem_map.1 hie
    obtain ⟨a, b, c⟩ := hok d hd
    exact ⟨by omega, by omega, a, b, c⟩) harr
  rw [hF] at e1
  cases e1
  subst htb
  obtain ⟨d0, d, f1, f2, -, -, f5⟩ := e3 hbig ws hws hwl
  obtain ⟨q', g1, g2, -, -⟩ := rx_holds ds hq (fun x hx => ⟨(hok x hx).1, hmax x hx⟩)
  refine ⟨d0, d, ds.map (Seen.data 1), q', f1, f2, ?_, g1, g2⟩
  rw [f5, List.map_map, List.map_map]
  rfl

/-! ## Packet after packet -/

/-- One packet: size of the transport block, its previous content, datagrams that the server writes before and while it
is built. -/
structure Round where
  tb : Nat
  mem : List Nat
  before : List (List Nat)
  conc : Nat → List (List Nat)

/-- All packets, and the queue at the end. -/
def sendAll (h : HeaderType) (m : Mch) : List Round → Queue → Res (Queue × List (Option (List Nat)))
  | [], q => .ok (q, [])
  | r :: rs, q => do
    let q ← serverWrites q r.before
    let a ← txUnicast r.tb h m r.conc r.mem q
    let b ← sendAll h m rs a.1
    .ok (b.1, a.2 :: b.2)

/-- The transport block carries these datagrams. -/
def Carries (h : HeaderType) (m : Mch) (tb : Nat) (ds : List (List Nat)) : Option (List Nat) → Prop
  | none => ds = []
  | some F => F.length = tb ∧ ∃ pad, buildPdu 1 h m (ds.map (TxIe.data 1)) pad = .ok F

/-- All datagrams offered by the server. -/
def offered (rs : List Round) : List (List Nat) :=
  (rs.map fun r => r.before ++ ((List.range 8).map r.conc).flatten).flatten

/-- C51, any number of packets: what the packets carry, one after the other, followed by what is left in the queue, is
what was in the queue followed by what it accepted. No datagram is lost, sent twice, or overtaken. -/
theorem C51_stream (s : Nat) (m : Mch) (hs : s ≤ 3) (hm : MchOk m) : ∀ (rs : List Round) (q : Queue)
    (l : List (List Nat)), Holds q l → q.maxByte ≤ 65535 → (∀ d ∈ l, DatagramOk d) →
    (∀ r ∈ rs, r.mem.length = r.tb ∧ 1 + m.htype.mchSize < r.tb) →
    (∀ r ∈ rs, ∀ d ∈ r.before, 0 < d.length ∧ d.length ≤ q.maxByte ∧ Bytes d) →
    (∀ r ∈ rs, ∀ i, ∀ d ∈ r.conc i, 0 < d.length ∧ d.length ≤ q.maxByte ∧ Bytes d) →
    ∃ (q' : Queue) (Fs : List (Option (List Nat))) (sent : List (List (List Nat))) (acc left : List (List Nat)),
      sendAll ⟨some 0, some s, some m.htype⟩ m rs q = .ok (q', Fs) ∧
      List.Forall₂ (fun r x => Carries ⟨some 0, some s, some m.htype⟩ m r.1 r.2 x) (List.zip (rs.map Round.tb) sent) Fs ∧
      sent.length = rs.length ∧ (∀ ds ∈ sent, ds.length ≤ 8) ∧
      Holds q' left ∧ acc.Sublist (offered rs) ∧ sent.flatten ++ left = l ++ acc := by
  intro rs
  induction rs with
  | nil =>
    intro q l hq _ _ _ _ _
    exact ⟨q, [], [], [], l, rfl, .nil, rfl, by simp, hq, by simp [offered], by simp⟩
  | cons r rs ih =>
    intro q l hq hmb hok hmem hbef hconc
    have hr := hmem r (by simp)
    obtain ⟨q1, a1, a2, a3, a4⟩ := serverWrites_holds r.before hq (fun d hd => (hbef r (by simp) d hd).2.1)
    generalize ha : r.before.take (q.n - 1 - l.length) = acc1 at a2
    have hacc1 : acc1.Sublist r.before := ha ▸ List.take_sublist _ _
    have hok1 : ∀ d ∈ l ++ acc1, DatagramOk d := by
      intro d hd
      rcases List.mem_append.1 hd with h | h
      · exact hok d h
      · obtain ⟨x, y, z⟩ := hbef r (by simp) d (hacc1.subset h)
        exact ⟨x, by omega, z⟩
    obtain ⟨k, q2, acc2, b1, b2, b3, b4, b5, b6, b7⟩ := C51_send r.tb s m r.conc r.mem q1 (l ++ acc1) hs hm a2 hok1
      (by rw [a4]; exact fun i d hd => (hconc r (by simp) i d hd).2.1) hr.1 hr.2
    have hk8 := b1.1.1
    have hacc2 : acc2.Sublist ((List.range 8).map r.conc).flatten := by
      refine b3.trans ?_
      rw [← List.take_append_drop k (List.range 8), List.take_range, Nat.min_eq_left hk8, List.map_append,
        List.flatten_append]
      exact List.sublist_append_left _ _
    have hok2 : ∀ d ∈ (l ++ acc1).drop k ++ acc2, DatagramOk d := by
      intro d hd
      rcases List.mem_append.1 hd with h | h
      · exact hok1 d (List.mem_of_mem_drop h)
      · obtain ⟨ds, h1, h2⟩ := List.mem_flatten.1 (hacc2.subset h)
        obtain ⟨i, -, rfl⟩ := List.mem_map.1 h1
        obtain ⟨x, y, z⟩ := hconc r (by simp) i d h2
        exact ⟨x, by omega, z⟩
    obtain ⟨q', Fs, sent, acc, left, c1, c2, c3, c4, c5, c6, c7⟩ := ih q2 _ b2 (by omega) hok2
      (fun x hx => hmem x (by simp [hx]))
      (fun x hx => by rw [b5, a4]; exact hbef x (by simp [hx]))
      (fun x hx => by rw [b5, a4]; exact hconc x (by simp [hx]))
    have hlen : ((l ++ acc1).take k).length ≤ 8 := by rw [List.length_take]; omega
    have hx : ∃ x, txUnicast r.tb ⟨some 0, some s, some m.htype⟩ m r.conc r.mem q1 = .ok (q2, x) ∧
        Carries ⟨some 0, some s, some m.htype⟩ m r.tb ((l ++ acc1).take k) x := by
      by_cases hk : k = 0
      · subst hk; exact ⟨none, b6 rfl, by simp [Carries]⟩
      · obtain ⟨F, pad, h1, h2, h3⟩ := b7 (by omega)
        exact ⟨some F, h1, h2, pad, h3⟩
    obtain ⟨x, x1, x2⟩ := hx
    refine ⟨q', x :: Fs, (l ++ acc1).take k :: sent, acc1 ++ (acc2 ++ acc), left, ?_, ?_, by simp [c3], ?_, c5, ?_, ?_⟩
    · simp only [sendAll, a1, Res.ok_bind, x1, c1]
    · exact .cons x2 c2
    · intro ds hds
      rcases List.mem_cons.1 hds with rfl | h
      · exact hlen
      · exact c4 ds h
    · rw [offered, List.map_cons, List.flatten_cons, List.append_assoc]
      exact hacc1.append (hacc2.append c6)
    · rw [List.flatten_cons, List.append_assoc, c7, ← List.append_assoc, ← List.append_assoc, List.take_append_drop]
      simp [List.append_assoc]

/-! ## Findings -/

/-- A datagram too large for the transport blocks blocks the queue: no packet is ever sent again, and the datagrams
behind it stay in the queue. -/
theorem C51_finding_blocked (s : Nat) (m : Mch) (hs : s ≤ 3) (hm : MchOk m) (rs : List Round) (d : List Nat) :
    ∀ (q : Queue) (l : List (List Nat)), Holds q (d :: l) → q.maxByte ≤ 65535 → (∀ x ∈ d :: l, DatagramOk x) →
    (∀ r ∈ rs, r.mem.length = r.tb ∧ 1 + m.htype.mchSize < r.tb ∧ r.tb ≤ 1 + m.htype.mchSize + need d) →
    (∀ r ∈ rs, ∀ x ∈ r.before, 0 < x.length ∧ x.length ≤ q.maxByte ∧ Bytes x) →
    (∀ r ∈ rs, ∀ i, ∀ x ∈ r.conc i, 0 < x.length ∧ x.length ≤ q.maxByte ∧ Bytes x) →
    ∃ q' l', sendAll ⟨some 0, some s, some m.htype⟩ m rs q = .ok (q', rs.map fun _ => none) ∧ Holds q' (d :: (l ++ l')) := by
  induction rs with
  | nil => intro q l hq _ _ _ _ _; exact ⟨q, [], rfl, by simpa using hq⟩
  | cons r rs ih =>
    intro q l hq hmb hok hmem hbef hconc
    have hr := hmem r (by simp)
    obtain ⟨q1, a1, a2, a3, a4⟩ := serverWrites_holds r.before hq (fun d hd => (hbef r (by simp) d hd).2.1)
    generalize ha : r.before.take (q.n - 1 - (d :: l).length) = acc1 at a2
    have hacc1 : acc1.Sublist r.before := ha ▸ List.take_sublist _ _
    rw [List.cons_append] at a2
    have hok1 : ∀ x ∈ d :: (l ++ acc1), DatagramOk x := by
      intro x hx
      rw [← List.cons_append] at hx
      rcases List.mem_append.1 hx with h | h
      · exact hok x h
      · obtain ⟨x, y, z⟩ := hbef r (by simp) x (hacc1.subset h)
        exact ⟨x, by omega, z⟩
    obtain ⟨k, q2, acc2, b1, b2, b3, b4, b5, b6, b7⟩ := C51_send r.tb s m r.conc r.mem q1 _ hs hm a2 hok1
      (by rw [a4]; exact fun i d hd => (hconc r (by simp) i d hd).2.1) hr.1 hr.2.1
    have hk : k = 0 := by
      by_contra hk
      have h1 := needs_mono (d :: (l ++ acc1)) (show 1 ≤ k by omega)
      have h2 := b1.1.2.2
      rw [List.take_succ_cons, needs_cons] at h1
      omega
    subst hk
    have hacc2 : acc2 = [] := by simpa using b3
    subst hacc2
    rw [List.drop_zero, List.append_nil] at b2
    obtain ⟨q', l', c1, c2⟩ := ih q2 (l ++ acc1) b2 (by omega) hok1
      (fun x hx => hmem x (by simp [hx]))
      (fun x hx => by rw [b5, a4]; exact hbef x (by simp [hx]))
      (fun x hx => by rw [b5, a4]; exact hconc x (by simp [hx]))
    refine ⟨q', acc1 ++ l', ?_, by simpa [List.append_assoc] using c2⟩
    simp only [sendAll, a1, Res.ok_bind, b6 rfl, c1, List.map_cons]

/-- This happens with the sizes in use: for radio device class 1.1.1 the unicast packets (two slots, MCS 4,
steady_rd.cpp:269-280, steady_rd.hpp:56) have 311 bytes, while the network interface accepts datagrams of up to 1500 bytes
(tfw_p2p_ft.cpp:129, tfw_p2p_pt.cpp:124). -/
theorem C51_finding_mtu (d : List Nat) (h : 308 ≤ d.length) :
    ((Sp3.getPacketSizes ⟨1, 1, 1, 2, 0, 4, 2048⟩) >>= fun p => .ok (p.map Sp3.PacketSizes.nTbByte)) = .ok (some 311) ∧
    311 ≤ 1 + Mch.empty.htype.mchSize + need d := by
  refine ⟨by decide +kernel, ?_⟩
  rw [need, show Mch.empty.htype.mchSize = 0 from rfl, if_neg (by omega)]; omega

/-- A received datagram larger than the buffers of the queue makes the receiver abort, unless the queue is full. Its
length is chosen by the sender, up to 65535. -/
theorem C51_finding_remote_abort (q : Queue) (l : List (List Nat)) (flow : Nat) (d : List Nat) (ss : List Seen)
    (hq : Holds q l) (hroom : l.length + 1 < q.n) (hd : q.maxByte < d.length) :
    rxUnicast q (.data flow d :: ss) = .abort := by
  have hw : q.write d = .abort := by
    have := hq.free_eq
    rw [Queue.write, if_neg (by omega), Res.assert, if_neg (by simp; omega), Res.abort_bind]
  rw [rxUnicast, hw, Res.abort_bind]

/-! ## A case -/

/-- A queue of four datagrams with two of them, a transport block of 16 bytes, and a third datagram that arrives while the
packet is built. The first datagram (7 bytes with header) and the second (6 bytes) fit behind the header of one byte; the
third stays in the queue. -/
theorem C51_example :
    (∃ q, serverWrites (Queue.init 5 1600 fun _ => []) [[1, 2, 3, 4, 5], [6, 7, 8, 9]] = .ok q ∧
      Holds q [[1, 2, 3, 4, 5], [6, 7, 8, 9]]) ∧
    Most 16 1 [[1, 2, 3, 4, 5], [6, 7, 8, 9]] 2 ∧
    ((serverWrites (Queue.init 5 1600 fun _ => []) [[1, 2, 3, 4, 5], [6, 7, 8, 9]]) >>= fun q =>
      (txUnicast 16 ⟨some 0, some 0, some .empty⟩ .empty (fun i => if i = 1 then [[10]] else []) (List.replicate 16 0) q)
        >>= fun r => .ok (r.2, r.1.used, r.1.read.2)) =
      .ok (some [4, 67, 5, 1, 2, 3, 4, 5, 67, 4, 6, 7, 8, 9, 224, 0], 1, 1, [10]) := by
  have hinit : Holds (Queue.init 5 1600 fun _ => []) [] :=
    ⟨by simp [Queue.init], by simp [Queue.init], by simp [Queue.init], by simp [Queue.init], by simp, by simp⟩
  obtain ⟨q, e1, h1, n1, m1⟩ := serverWrites_holds [[1, 2, 3, 4, 5], [6, 7, 8, 9]] hinit (by simp [Queue.init])
  refine ⟨⟨q, e1, by simpa [Queue.init] using h1⟩, ⟨⟨by omega, by simp, by simp [needs, need]⟩, ?_⟩, by decide +kernel⟩
  intro j hj
  simpa using hj.2.1

end Verif.P2p
