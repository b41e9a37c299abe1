import Verif.Model.Fec

/-!
# Vocabulary for C27, C28, C29

Windows of the code blocks as in ETSI TS 103 636-3, 6.1.5.3 (E_r), with `G' = G / N_bps` symbols for `C` code
blocks. -/

namespace Verif.Phy.Fec.Spec

/-- A packet and its segmentation -/
structure Packet (q : Sp3.PsDef) (r : Sp3.PacketSizes) (c : Cfg) : Prop where
  sizes : Sp3.getPacketSizes q = .ok (some r)
  seg : Sp3.cbsegm r.nTbBits q.z = .ok (some c.seg)
  tbs : c.tbs = r.nTbBits
  qm : c.Qm = r.mcs.nBps
  g : c.G = r.G

/-- Number of coded bits of code block `i`: the last `G' mod C` code blocks have one symbol more. -/
def blockBits (c : Cfg) (i : Nat) : Nat :=
  c.Qm * (c.G / c.Qm / c.seg.C + if c.seg.C - c.G / c.Qm % c.seg.C ≤ i then 1 else 0)

/-- First coded bit of code block `i` -/
def start (c : Cfg) : Nat → Nat
  | 0 => 0
  | i + 1 => start c i + blockBits c i

/-- Size of code block `i` with its CRC: C2 blocks of size K2, then C1 of size K1 -/
def blockSize (c : Cfg) (i : Nat) : Nat := if i < c.seg.C2 then c.seg.K2 else c.seg.K1

/-- Bits of the transport block with CRC in code block `i` -/
def payload (c : Cfg) (i : Nat) : Nat := blockSize c i - if c.seg.C = 1 then 0 else 24

/-- Position of these bits -/
def offset (c : Cfg) : Nat → Nat
  | 0 => 0
  | i + 1 => offset c i + payload c i

/-- Bytes given to the turbo encoder for code block `i`: without the CRC of the transport block -/
def input (c : Cfg) (data : Nat → Nat) (i : Nat) : List Nat :=
  (List.range ((payload c i - if i + 1 = c.seg.C then 24 else 0) / 8)).map (fun k => data (offset c i / 8 + k))

/-- State of the transport block CRC in front of code block `i` -/
def crcAt (x : TxLib) (c : Cfg) (data : Nat → Nat) (crc0 : x.W) : Nat → x.W
  | 0 => crc0
  | i + 1 => (x.turbo (crcAt x c data crc0 i) (decide (1 < c.seg.C)) (input c data i) (blockSize c i) (decide (i + 1 = c.seg.C))).2

/-- Turbo encoded code block `i` -/
def encoded (x : TxLib) (c : Cfg) (data : Nat → Nat) (crc0 : x.W) (i : Nat) : x.T :=
  (x.turbo (crcAt x c data crc0 i) (decide (1 < c.seg.C)) (input c data i) (blockSize c i) (decide (i + 1 = c.seg.C))).1

/-- The memories suffice for the packet. -/
structure Fits (q : Sp3.PsDef) (c : Cfg) (m : TxMem) : Prop where
  a : c.tbs ≤ 8 * m.aLen
  d : c.G ≤ 8 * m.dLen
  cb : c.seg.C ≤ m.maxCb
  sys : m.sysLen = (q.z + 8) / 8

/-! ## HARQ receiver -/

/-- Number of soft bits of code block `i` which the decoder uses: one symbol of the first longer code block is missing. -/
def usedBits (c : Cfg) (i : Nat) : Nat := blockBits c i - if i + c.G / c.Qm % c.seg.C = c.seg.C then c.Qm else 0

/-- Descrambled soft bits of code block `i`, where `ys` are the soft bits of the packet -/
def received (c : Cfg) (seq : Nat → Bool) (ys : List Int) (i : Nat) : List Int :=
  (List.range (usedBits c i)).map fun k => if seq (start c i + k) then -ys.getD (start c i + k) 0 else ys.getD (start c i + k) 0

/-- State between transmissions: soft bits of the code blocks, and the payload of the code blocks which passed their check -/
structure Harq (F : Type) where
  soft : Nat → F
  kept : Nat → Option (List Nat)

/-- Code block `i` in a transmission: soft bits, decoded bytes, passed. A kept code block is not decoded again, others are
decoded from the combined soft bits. -/
def attempt (x : RxLib) (c : Cfg) (seq : Nat → Bool) (rv : Nat) (ys : List Int) (s : Harq x.F) (i : Nat) : x.F × List Nat × Bool :=
  match s.kept i with
  | some b => (s.soft i, b, true)
  | none =>
    let f := x.combine (s.soft i) (received c seq ys i) (blockSize c i) rv
    (f, turboDecode x c i f)

/-- The bytes of a code block pass their check: the transport block CRC if there is one code block, else that of the code
block. -/
def Passes (x : RxLib) (c : Cfg) (b : List Nat) : Prop :=
  (c.seg.C = 1 → x.crcTb (b.take ((c.tbs + 24) / 8)) = true) ∧ (c.seg.C ≠ 1 → x.crcCb b = true)

/-- Payload of code block `i` -/
def block (x : RxLib) (c : Cfg) (seq : Nat → Bool) (rv : Nat) (ys : List Int) (s : Harq x.F) (i : Nat) : List Nat :=
  (attempt x c seq rv ys s i).2.1.take (payload c i / 8)

/-- Transport block with its CRC -/
def delivered (x : RxLib) (c : Cfg) (seq : Nat → Bool) (rv : Nat) (ys : List Int) (s : Harq x.F) : List Nat :=
  (List.range c.seg.C).flatMap (block x c seq rv ys s)

/-- All code blocks passed their check. -/
def allPassed (x : RxLib) (c : Cfg) (seq : Nat → Bool) (rv : Nat) (ys : List Int) (s : Harq x.F) : Prop :=
  ∀ i < c.seg.C, (attempt x c seq rv ys s i).2.2 = true

instance (x : RxLib) (c : Cfg) (seq : Nat → Bool) (rv : Nat) (ys : List Int) (s : Harq x.F) : Decidable (allPassed x c seq rv ys s) :=
  inferInstanceAs (Decidable (∀ i < c.seg.C, _))

/-- The transport block is reported correct: all code blocks passed and, if there are several, the transport block passed. -/
def correct (x : RxLib) (c : Cfg) (seq : Nat → Bool) (rv : Nat) (ys : List Int) (s : Harq x.F) : Bool :=
  decide (allPassed x c seq rv ys s) && (decide (c.seg.C = 1) || x.crcMatch (delivered x c seq rv ys s))

/-- State after the transmission. If all code blocks passed but not the transport block, then no code block is kept. -/
def after (x : RxLib) (c : Cfg) (seq : Nat → Bool) (rv : Nat) (ys : List Int) (s : Harq x.F) : Harq x.F where
  soft i := if i < c.seg.C then (attempt x c seq rv ys s i).1 else s.soft i
  kept i := if i < c.seg.C ∧ (attempt x c seq rv ys s i).2.2 = true ∧ ¬ allPassed x c seq rv ys s then some (block x c seq rv ys s i)
    else none

/-- State of a fresh process -/
def fresh (x : RxLib) : Harq x.F := ⟨fun _ => x.zero, fun _ => none⟩

/-- The soft buffer of the process represents the state. -/
structure Represents {x : RxLib} (c : Cfg) (s : Harq x.F) (st : Dec x) : Prop where
  soft : ∀ i < c.seg.C, st.soft i = s.soft i
  crc : ∀ i < c.seg.C, st.crc i = (s.kept i).isSome
  saved : ∀ i < c.seg.C, ∀ b, s.kept i = some b → ∀ k < payload c i / 8, b[k]? = some (st.saved i k)
  length : ∀ i < c.seg.C, ∀ b, s.kept i = some b → b.length = payload c i / 8

/-- Bytes the decoder writes: the transport block, its CRC and, if there are several code blocks, the CRC of the last one -/
def needed (c : Cfg) : Nat := c.tbs / 8 + 3 + if c.seg.C = 1 then 0 else 3

/-- One transmission of a history: redundancy version, soft bits by OFDM symbol, what is done with the process afterwards -/
structure Tx where
  rv : Nat
  chunks : List (List Int)
  policy : Policy

/-- Results of a history: reported correctness and delivered bytes of every transmission. The process is reset after a
correct transmission, and after every transmission if the policy says so. -/
def results (x : RxLib) (c : Cfg) (seq : Nat → Bool) : List Tx → Harq x.F → List (Bool × List Nat)
  | [], _ => []
  | t :: ts, s =>
    let ys := t.chunks.flatten
    (correct x c seq t.rv ys s, delivered x c seq t.rv ys s) ::
      results x c seq ts (if correct x c seq t.rv ys s || decide (t.policy = .resetAndTerminate) then fresh x else after x c seq t.rv ys s)

end Verif.Phy.Fec.Spec
