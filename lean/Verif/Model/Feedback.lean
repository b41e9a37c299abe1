import Verif.Base.Bits

/-!
# Feedback info (src/sections_part4/physical_header_field/feedback_info.cpp)

Each format occupies the low nibble of `a_ptr[0]` and all of `a_ptr[1]`. `pack` gets the previous
contents of the two bytes and returns the new ones. `unpack` returns the object and the return
value of the C++ function. Enumerations only take their named values.
-/

namespace Verif.Feedback

/-- `common::adt::UNDEFINED_NUMERIC_32`, inc/common/adt/miscellaneous.hpp:66. -/
def undef32 : Nat := 2 ^ 32 - 1

/-- `transmission_feedback_t`, inc/.../feedback_info.hpp:38-42. -/
inductive Tf where
  | nack | ack | undef
  deriving DecidableEq, Repr

/-- `std::to_underlying`. -/
def Tf.val : Tf → Nat
  | .nack => 0
  | .ack => 1
  | .undef => undef32

/-- `static_cast<transmission_feedback_t>` of a one bit value. -/
def Tf.ofBit (b : Nat) : Tf := if b = 0 then .nack else .ack

/-- `mimo_feedback_t`, inc/.../feedback_info.hpp:44-50. -/
inductive Mimo where
  | single | dual | four | reserved | undef
  deriving DecidableEq, Repr

def Mimo.val : Mimo → Nat
  | .single => 0
  | .dual => 1
  | .four => 2
  | .reserved => 3
  | .undef => undef32

/-- `static_cast<mimo_feedback_t>` of a two bit value. -/
def Mimo.ofBits (b : Nat) : Mimo :=
  if b = 0 then .single else if b = 1 then .dual else if b = 2 then .four else .reserved

/-- `mcs_2_cqi`, feedback_info.cpp:30-35. -/
def mcs2cqi (mcs : Nat) : Res Nat := do
  Res.assert (mcs ≤ 11)
  pure (mcs + 1)

/-- `cqi_2_mcs`, feedback_info.cpp:37-43. -/
def cqi2mcs (cqi : Nat) : Nat := if cqi = 0 ∨ 12 < cqi then undef32 else cqi - 1

/-- `buffer_size_2_buffer_status`, feedback_info.cpp:45-80. -/
def bufferStatus (n : Nat) : Nat :=
  if n = 0 then 0
  else if n ≤ 16 then 1
  else if n ≤ 32 then 2
  else if n ≤ 64 then 3
  else if n ≤ 128 then 4
  else if n ≤ 256 then 5
  else if n ≤ 512 then 6
  else if n ≤ 1024 then 7
  else if n ≤ 2048 then 8
  else if n ≤ 4096 then 9
  else if n ≤ 8192 then 10
  else if n ≤ 16384 then 11
  else if n ≤ 32768 then 12
  else if n ≤ 65536 then 13
  else if n ≤ 131072 then 14
  else 15

/-- `buffer_status_2_buffer_size_lower`, feedback_info.hpp:56-57. -/
def lowerTable : List Nat :=
  [0, 0, 16, 32, 64, 128, 256, 512, 1024, 2048, 4096, 8192, 16384, 32768, 65536, 131072]

/-- `buffer_status_2_buffer_size_upper`, feedback_info.hpp:59-75. -/
def upperTable : List Nat :=
  [0, 16, 32, 64, 128, 256, 512, 1024, 2048, 4096, 8192, 16384, 32768, 65536, 131072, 2 ^ 32 - 1]

/-- Indexing the lower table with a four bit value. -/
def bufferLower (i : Nat) : Nat := lowerTable.getD i 0

/-- feedback_info.cpp:89-134 -/
structure F1 where
  harq : Nat
  tf : Tf
  bufSize : Nat
  mcs : Nat
  deriving DecidableEq, Repr

def F1.isValid (f : F1) : Bool :=
  !(bitmaskLsb 3 < f.harq) && !(f.tf = .undef) && !(bitmaskLsb 4 < bufferStatus f.bufSize)
    && !(11 < f.mcs)

def F1.pack (f : F1) (a0 _a1 : Nat) : Res (Nat × Nat) := do
  Res.assert f.isValid
  let a0 := u8 (a0 &&& bitmaskMsb 8 4)
  let a0 := u8 (a0 ||| f.harq <<< 1)
  let a0 := u8 (a0 ||| f.tf.val)
  let a1 := u8 (bufferStatus f.bufSize <<< 4)
  let a1 := u8 (a1 ||| (← mcs2cqi f.mcs))
  pure (a0, a1)

def F1.unpack (a0 a1 : Nat) : F1 × Bool :=
  let f : F1 := {
    harq := (a0 >>> 1) &&& 7
    tf := Tf.ofBit (a0 &&& 1)
    bufSize := bufferLower ((a1 >>> 4) &&& 15)
    mcs := cqi2mcs (a1 &&& 15) }
  (f, f.isValid)

/-- feedback_info.cpp:136-182 -/
structure F2 where
  codebook : Nat
  mimo : Mimo
  bufSize : Nat
  mcs : Nat
  deriving DecidableEq, Repr

def F2.isValid (f : F2) : Bool :=
  !(bitmaskLsb 3 < f.codebook) && (f.mimo = .single || f.mimo = .dual)
    && !(bitmaskLsb 4 < bufferStatus f.bufSize) && !(11 < f.mcs)

def F2.pack (f : F2) (a0 _a1 : Nat) : Res (Nat × Nat) := do
  Res.assert f.isValid
  let a0 := u8 (a0 &&& bitmaskMsb 8 4)
  let a0 := u8 (a0 ||| f.codebook <<< 1)
  let a0 := u8 (a0 ||| f.mimo.val)
  let a1 := u8 (bufferStatus f.bufSize <<< 4)
  let a1 := u8 (a1 ||| (← mcs2cqi f.mcs))
  pure (a0, a1)

def F2.unpack (a0 a1 : Nat) : F2 × Bool :=
  let f : F2 := {
    codebook := (a0 >>> 1) &&& 7
    mimo := Mimo.ofBits (a0 &&& 1)
    bufSize := bufferLower ((a1 >>> 4) &&& 15)
    mcs := cqi2mcs (a1 &&& 15) }
  (f, f.isValid)

/-- feedback_info.cpp:184-236 -/
structure F3 where
  harq0 : Nat
  tf0 : Tf
  harq1 : Nat
  tf1 : Tf
  mcs : Nat
  deriving DecidableEq, Repr

def F3.isValid (f : F3) : Bool :=
  !(bitmaskLsb 3 < f.harq0) && !(f.tf0 = .undef) && !(bitmaskLsb 3 < f.harq1) && !(f.tf1 = .undef)
    && !(11 < f.mcs)

def F3.pack (f : F3) (a0 _a1 : Nat) : Res (Nat × Nat) := do
  Res.assert f.isValid
  let a0 := u8 (a0 &&& bitmaskMsb 8 4)
  let a0 := u8 (a0 ||| f.harq0 <<< 1)
  let a0 := u8 (a0 ||| f.tf0.val)
  let a1 := u8 (f.harq1 <<< 5)
  let a1 := u8 (a1 ||| f.tf1.val <<< 4)
  let a1 := u8 (a1 ||| (← mcs2cqi f.mcs))
  pure (a0, a1)

def F3.unpack (a0 a1 : Nat) : F3 × Bool :=
  let f : F3 := {
    harq0 := (a0 >>> 1) &&& 7
    tf0 := Tf.ofBit (a0 &&& 1)
    harq1 := (a1 >>> 5) &&& 7
    tf1 := Tf.ofBit ((a1 >>> 4) &&& 1)
    mcs := cqi2mcs (a1 &&& 15) }
  (f, f.isValid)

/-- feedback_info.cpp:238-272 -/
structure F4 where
  bitmap : Nat
  mcs : Nat
  deriving DecidableEq, Repr

def F4.isValid (f : F4) : Bool := !(bitmaskLsb 8 < f.bitmap) && !(11 < f.mcs)

def F4.pack (f : F4) (a0 _a1 : Nat) : Res (Nat × Nat) := do
  Res.assert f.isValid
  let a0 := u8 (a0 &&& bitmaskMsb 8 4)
  let a0 := u8 (a0 ||| f.bitmap >>> 4)
  let a1 := u8 ((f.bitmap &&& 15) <<< 4)
  let a1 := u8 (a1 ||| (← mcs2cqi f.mcs))
  pure (a0, a1)

def F4.unpack (a0 a1 : Nat) : F4 × Bool :=
  let f : F4 := {
    bitmap := (a0 &&& 15) <<< 4 ||| ((a1 >>> 4) &&& 15)
    mcs := cqi2mcs (a1 &&& 15) }
  (f, f.isValid)

/-- feedback_info.cpp:274-319 -/
structure F5 where
  harq : Nat
  tf : Tf
  mimo : Mimo
  codebook : Nat
  deriving DecidableEq, Repr

def F5.isValid (f : F5) : Bool :=
  !(bitmaskLsb 3 < f.harq) && !(f.tf = .undef) && !(f.mimo = .undef) && !(bitmaskLsb 6 < f.codebook)

def F5.pack (f : F5) (a0 _a1 : Nat) : Res (Nat × Nat) := do
  Res.assert f.isValid
  let a0 := u8 (a0 &&& bitmaskMsb 8 4)
  let a0 := u8 (a0 ||| f.harq <<< 1)
  let a0 := u8 (a0 ||| f.tf.val)
  let a1 := u8 (f.mimo.val <<< 6)
  let a1 := u8 (a1 ||| f.codebook)
  pure (a0, a1)

def F5.unpack (a0 a1 : Nat) : F5 × Bool :=
  let f : F5 := {
    harq := (a0 >>> 1) &&& 7
    tf := Tf.ofBit (a0 &&& 1)
    mimo := Mimo.ofBits ((a1 >>> 6) &&& 3)
    codebook := a1 &&& 63 }
  (f, f.isValid)

/-- feedback_info.cpp:321-366 -/
structure F6 where
  harq : Nat
  reserved : Nat
  bufSize : Nat
  mcs : Nat
  deriving DecidableEq, Repr

def F6.isValid (f : F6) : Bool :=
  !(bitmaskLsb 3 < f.harq) && !(f.reserved ≠ 0) && !(bitmaskLsb 4 < bufferStatus f.bufSize)
    && !(11 < f.mcs)

def F6.pack (f : F6) (a0 _a1 : Nat) : Res (Nat × Nat) := do
  Res.assert f.isValid
  let a0 := u8 (a0 &&& bitmaskMsb 8 4)
  let a0 := u8 (a0 ||| f.harq <<< 1)
  let a0 := u8 (a0 ||| f.reserved)
  let a1 := u8 (bufferStatus f.bufSize <<< 4)
  let a1 := u8 (a1 ||| (← mcs2cqi f.mcs))
  pure (a0, a1)

def F6.unpack (a0 a1 : Nat) : F6 × Bool :=
  let f : F6 := {
    harq := (a0 >>> 1) &&& 7
    reserved := a0 &&& 1
    bufSize := bufferLower ((a1 >>> 4) &&& 15)
    mcs := cqi2mcs (a1 &&& 15) }
  (f, f.isValid)

/-- `feedback_info_pool_t`, feedback_info.hpp:183-194. -/
structure Pool where
  f1 : F1
  f2 : F2
  f3 : F3
  f4 : F4
  f5 : F5
  f6 : F6
  deriving DecidableEq, Repr

/-- `feedback_info_pool_t::pack`, feedback_info.cpp:368-396. -/
def Pool.pack (p : Pool) (fmt a0 a1 : Nat) : Res (Nat × Nat) :=
  match fmt with
  | 0 => .ok (u8 (a0 &&& bitmaskMsb 8 4), 0)
  | 1 => p.f1.pack a0 a1
  | 2 => p.f2.pack a0 a1
  | 3 => p.f3.pack a0 a1
  | 4 => p.f4.pack a0 a1
  | 5 => p.f5.pack a0 a1
  | 6 => p.f6.pack a0 a1
  | _ => .abort

/-- `feedback_info_pool_t::unpack`, feedback_info.cpp:398-425: only the selected format changes. -/
def Pool.unpack (p : Pool) (fmt a0 a1 : Nat) : Pool × Bool :=
  match fmt with
  | 0 => (p, !((a0 &&& 15) ≠ 0) && !(a1 ≠ 0))
  | 1 => let r := F1.unpack a0 a1; ({ p with f1 := r.1 }, r.2)
  | 2 => let r := F2.unpack a0 a1; ({ p with f2 := r.1 }, r.2)
  | 3 => let r := F3.unpack a0 a1; ({ p with f3 := r.1 }, r.2)
  | 4 => let r := F4.unpack a0 a1; ({ p with f4 := r.1 }, r.2)
  | 5 => let r := F5.unpack a0 a1; ({ p with f5 := r.1 }, r.2)
  | 6 => let r := F6.unpack a0 a1; ({ p with f6 := r.1 }, r.2)
  | _ => (p, false)

end Verif.Feedback
