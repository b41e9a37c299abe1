import Verif.Model.Enum
import Verif.Model.BitByte

/-!
# MAC multiplexing header
(src/sections_part4/mac_pdu/mac_multiplexing_header.cpp and header)

The three enumerations of the IE type live in a union and have the same underlying type, so the
union is one number (`ie`). Reading a member other than the one written last is treated as reading
that number.
-/

namespace Verif.Mac
open BitByte

/-- `mac_ext_t`, mac_multiplexing_header.hpp:33-40 -/
inductive MacExt where
  | noLength | len8 | len16 | len1
  deriving DecidableEq, Repr

def MacExt.val : MacExt → Nat
  | .noLength => 0
  | .len8 => 1
  | .len16 => 2
  | .len1 => 3

/-- `from_coded_value<mac_ext_t>`; the enumeration has `upper = 4`. -/
def MacExt.of (v : Nat) : Option MacExt :=
  match v with
  | 0 => some .noLength
  | 1 => some .len8
  | 2 => some .len16
  | 3 => some .len1
  | _ => none

/-- The C++ class named by `tinfo`, restricted to the classes activated in
mmie_activate.hpp:30-84. -/
inductive Kind where
  | padding | userPlaneData | clusterBeacon | powerTarget | timeAnnounce
  deriving DecidableEq, Repr

/-- `mac_multiplexing_header_t`, mac_multiplexing_header.hpp:30-140 -/
structure Mmh where
  ext : Option MacExt
  ie : Nat
  length : Nat
  tinfo : Option Kind
  deriving DecidableEq, Repr

namespace Mmh

/-- `zero`, mac_multiplexing_header.cpp:42-47 -/
def zero : Mmh := ⟨none, undef32, undef32, none⟩

/-- `is_valid` of the IE type enumerations: they have neither `lower` nor `upper`
(mac_multiplexing_header.hpp:43-109). -/
def ieValid (v : Nat) : Bool := !(v = undef32)

/-- `is_valid`, mac_multiplexing_header.cpp:49-80, with its two fall-throughs. -/
def isValid (h : Mmh) : Bool :=
  match h.ext with
  | some .len1 => if h.length = 0 then ieValid h.ie else if h.length = 1 then ieValid h.ie else false
  | some .len8 =>
    if bitmaskLsb 8 < h.length then false
    else if bitmaskLsb 16 < h.length then false
    else ieValid h.ie
  | some .len16 => if bitmaskLsb 16 < h.length then false else ieValid h.ie
  | some .noLength => ieValid h.ie
  | none => false

/-- `get_packed_size`, mac_multiplexing_header.cpp:82-97 -/
def packedSize (h : Mmh) : Res Nat :=
  match h.ext with
  | none => .abort
  | some .len8 => .ok (1 + 1)
  | some .len16 => .ok (1 + 2)
  | some _ => .ok 1

/-- `pack`, mac_multiplexing_header.cpp:99-140. Returns the bytes written. -/
def pack (h : Mmh) : Res (List Nat) := do
  Res.assert h.isValid
  match h.ext with
  | none => .abort
  | some e =>
    let p0 := u8 (e.val <<< 6)
    match e with
    | .len1 =>
      let p0 := u8 (p0 ||| h.length <<< 5)
      let p0 := u8 (p0 ||| h.ie)
      pure [p0]
    | .noLength => pure [u8 (p0 ||| h.ie)]
    | .len8 => pure [u8 (p0 ||| h.ie), u8 (h.length &&& bitmaskLsb 8)]
    | .len16 => pure (u8 (p0 ||| h.ie) :: (← l2bLower 4 h.length 2))

/-- `from_coded_value<ie_type_mac_ext_00_01_10_t>`, mac_multiplexing_header.hpp:146-186 -/
def ieFrom (v : Nat) : Nat :=
  if v ∈ [0, 1, 2, 3, 4, 5, 6, 8, 9, 10, 11, 12, 13, 14, 15, 16, 17, 18, 19, 20, 21, 22, 23, 24, 25,
    62, 63, 29, 30] then v else undef32

/-- `from_coded_value<ie_type_mac_ext_11_len_0_t>`, mac_multiplexing_header.hpp:188-200 -/
def ieFrom0 (v : Nat) : Nat := if v ∈ [0, 1, 16, 30] then v else undef32

/-- `from_coded_value<ie_type_mac_ext_11_len_1_t>`, mac_multiplexing_header.hpp:202-213 -/
def ieFrom1 (v : Nat) : Nat := if v ∈ [0, 1, 30] then v else undef32

/-- `unpack_mac_ext_ie_type`, mac_multiplexing_header.cpp:147-451, with the activations of
mmie_activate.hpp. -/
def unpackExtIe (h : Mmh) (p : List Nat) : Res (Mmh × Bool) := do
  Res.assert (h.ext = none && h.length = undef32 && h.tinfo = none)
  let p0 ← rd p 0
  let h := { h with ext := MacExt.of (p0 >>> 6) }
  let h ← match h.ext with
    | none => pure h
    | some .noLength =>
      let ie := ieFrom (p0 &&& bitmaskLsb 6)
      let t := match ie with
        | 0 => some Kind.padding
        | 9 => some .clusterBeacon
        | 29 => some .powerTarget
        | 30 => some .timeAnnounce
        | _ => none
      pure { h with ie := ie, tinfo := t }
    | some .len8 =>
      let ie := ieFrom (p0 &&& bitmaskLsb 6)
      let t := match ie with
        | 0 => some Kind.padding
        | 3 => some .userPlaneData
        | 4 => some .userPlaneData
        | 5 => some .userPlaneData
        | 6 => some .userPlaneData
        | _ => none
      pure { h with ie := ie, tinfo := t }
    | some .len16 =>
      let ie := ieFrom (p0 &&& bitmaskLsb 6)
      let t := match ie with
        | 3 => some Kind.userPlaneData
        | 4 => some .userPlaneData
        | 5 => some .userPlaneData
        | 6 => some .userPlaneData
        | _ => none
      pure { h with ie := ie, tinfo := t }
    | some .len1 =>
      let lengthLocal := (p0 >>> 5) &&& 1
      let a := p0 &&& bitmaskLsb 5
      match lengthLocal with
      | 0 =>
        let ie := ieFrom0 a
        let t := match ie with
          | 0 => some Kind.padding
          | _ => none
        pure { h with ie := ie, tinfo := t }
      | 1 =>
        let ie := ieFrom1 a
        let t := match ie with
          | 0 => some Kind.padding
          | _ => none
        pure { h with ie := ie, tinfo := t }
      | _ => .abort
  pure (h, h.tinfo.isSome)

/-- `unpack_length`, mac_multiplexing_header.cpp:453-479 -/
def unpackLength (h : Mmh) (p : List Nat) : Res Mmh := do
  Res.assert (h.length = undef32)
  match h.ext with
  | none => .abort
  | some .noLength => pure { h with length := undef32 }
  | some .len8 => do pure { h with length := ← rd p 1 }
  | some .len16 => do pure { h with length := ← b2lLower 4 (p.drop 1) 2 }
  | some .len1 => do
    let p0 ← rd p 0
    pure { h with length := (p0 >>> 5) &&& 1 }

end Mmh
end Verif.Mac
