import Verif.Model.Decoder
import Verif.Model.Padding

/-!
# Building a MAC PDU

(src/sections_part4/psdef_plcf_mac_pdu.cpp:28-47, mmie.cpp:62-88, user_plane_data.cpp:34-57,
mmie_pool_tx.cpp:90-106)

The transmitter packs header type and common header, then calls `pack_mmh_sdu` for one element after
the other at the position reached so far, copies user data to `data_ptr`, and fills the rest of the
transport block with padding. The model returns the bytes in this order.
-/

namespace Verif.Mac
open BitByte

/-- An element to be sent, among the classes that a receiver can decode. -/
inductive TxIe where
  | cluster (m : ClusterBeacon)
  | power (m : PowerTarget)
  | time (m : TimeAnnounce)
  | data (flow : Nat) (bytes : List Nat)
  deriving DecidableEq, Repr

/-- `set_flow_id`, user_plane_data.cpp:34-57: the IE type. -/
def flowIe (flow : Nat) : Res Nat :=
  match flow with
  | 1 => .ok 3
  | 2 => .ok 4
  | 3 => .ok 5
  | 4 => .ok 6
  | _ => .abort

/-- `set_data_size`, mmie.cpp:78-88, on the header of a user plane data element. -/
def setDataSize (h : Mmh) (n : Nat) : Res Mmh := do
  Res.assert (decide (0 < n) && decide (n ≤ bitmaskLsb 16))
  pure { h with ext := some (if n ≤ bitmaskLsb 8 then .len8 else .len16), length := n }

/-- `pack_mmh_sdu`, mmie.cpp:62-76, with the multiplexing headers set by the constructors
(cluster_beacon_message.cpp:33-44, power_target_ie.cpp:27-36, time_announce_ie.cpp:29-38,
user_plane_data.cpp:27-32); for user plane data followed by copying the data to `data_ptr`. -/
def TxIe.pack (mu : Nat) : TxIe → Res (List Nat)
  | .cluster m => do
    let h ← (Mmh.mk (some .noLength) 9 undef32 none).pack
    let l ← m.pack mu
    pure (h ++ l)
  | .power m => do
    let h ← (Mmh.mk (some .noLength) 29 undef32 none).pack
    let l ← m.pack
    pure (h ++ l)
  | .time m => do
    let h ← (Mmh.mk (some .noLength) 30 undef32 none).pack
    let l ← m.pack
    pure (h ++ l)
  | .data flow bytes => do
    let ie ← flowIe flow
    let h ← setDataSize { Mmh.zero with ie := ie } bytes.length
    let l ← h.pack
    pure (l ++ bytes)

/-- All elements, each at the position where the previous one ended. -/
def packIes (mu : Nat) : List TxIe → Res (List Nat)
  | [] => .ok []
  | ie :: ies => do
    let l ← ie.pack mu
    let r ← packIes mu ies
    pure (l ++ r)

/-- A transport block: header type, common header, elements, padding. `mem` is the previous content of
the part of the transport block behind the elements; steady_ft.cpp:446, steady_rd.cpp:507 fill
exactly this part. -/
def buildPdu (mu : Nat) (h : HeaderType) (m : Mch) (ies : List TxIe) (mem : List Nat) :
    Res (List Nat) := do
  let a ← h.pack
  let b ← m.pack
  let c ← packIes mu ies
  let p ← fillWithPadding mem mem.length
  pure (a ++ (b ++ (c ++ p)))

end Verif.Mac
