import Verif.Model.Mmh
import Verif.Model.MacHeader
import Verif.Model.ClusterBeacon
import Verif.Model.FixedMessages

/-!
# MAC PDU decoder
(src/sections_part4/mac_pdu/mac_pdu_decoder.cpp and header)

The transport block is read at `a`; only the first `a_cnt_w_` bytes have been written when `decode`
is called. The model hands over exactly these bytes (`buf`, with `buf.length = a_cnt_w_`), so that
reading any other byte is undefined behaviour. Counters are `uint32_t` and wrap.

The pool of information elements (mmie_pool.hpp) is a memory `Kind × Nat → Obj`; the vector of
decoded elements holds references into it as in the code, so overwriting an element that was
delivered before would be visible. Only classes that the multiplexing header can announce
(mmie_activate.hpp) are part of the memory.
-/

namespace Verif.Mac
open BitByte

/-- `STATES`, mac_pdu_decoder.hpp:153-163 -/
inductive DecState where
  | headerType | commonHeader | mux | lengthOrFixed | peek | unpack | checkDone | done | abort
  deriving DecidableEq, Repr

/-- Fields of an element of the pool: nothing unpacked yet, a message, or `data_ptr` as an offset from
the start of the transport block. -/
inductive Content where
  | fresh
  | cluster (m : ClusterBeacon)
  | power (m : PowerTarget)
  | time (m : TimeAnnounce)
  | data (offset : Nat)
  deriving DecidableEq, Repr

/-- An `mmie_t` with its copy of the multiplexing header, its content, and `mu` of
`mu_depending_t`. -/
structure Obj where
  mmh : Mmh
  mu : Nat
  content : Content
  deriving DecidableEq, Repr

/-- A pointer into the pool. -/
abbrev Ref := Kind × Nat

/-- The common header pointed to by `mch_effective`: its class and, once unpacked, its fields
(`none`: default constructed by `emplace`). -/
structure MchSlot where
  type : HType
  fields : Option Mch
  deriving DecidableEq, Repr

/-- Number of elements per class: mac_pdu_decoder.cpp:32-39 (user plane data: 8), mmie_pool_tx.cpp
52-88 (others: 1). The pool has no padding IE. -/
def poolSize : Kind → Nat
  | .padding => 0
  | .userPlaneData => 8
  | .clusterBeacon => 1
  | .powerTarget => 1
  | .timeAnnounce => 1

/-- Members of `mac_pdu_decoder_t`, mac_pdu_decoder.hpp:143-215. `mht`: object behind
`mht_effective`; `cur`: the pointer `mmie`; `cnt`: `index_next_ie`. -/
structure Dec where
  tb : Nat
  mu : Nat
  st : DecState
  r : Nat
  n : Nat
  mht : Option HeaderType
  mch : Option MchSlot
  mmh : Mmh
  cur : Option Ref
  cnt : Kind → Nat
  pool : Ref → Obj
  decoded : List Ref

namespace Dec

/-- `set_configuration`, mac_pdu_decoder.cpp:41-68. The pool keeps what earlier PDUs left. -/
def setConfiguration (tb mu : Nat) (pool : Ref → Obj) : Res Dec := do
  Res.assert (0 < tb)
  Res.assert (0 + 1 ≤ tb)
  pure { tb := tb, mu := mu, st := .headerType, r := 0, n := 1, mht := none, mch := none
         mmh := Mmh.zero, cur := none, cnt := fun _ => 0, pool := pool, decoded := [] }

/-- `prepare_mac_pdu_premature_abort`, mac_pdu_decoder.cpp:79-82 -/
def prematureAbort (d : Dec) : Dec := { d with st := .abort, n := 0 }

/-- `prepare_mac_pdu_check_if_done`, mac_pdu_decoder.cpp:74-77 -/
def prepareCheck (d : Dec) : Dec := { d with st := .checkDone, n := 0 }

/-- `get_mmie_from_pool`, mac_pdu_decoder.cpp:343-347 -/
def fromPool (d : Dec) (k : Kind) : Option Ref :=
  if d.cnt k < poolSize k then some (k, d.cnt k) else none

/-- State MAC_HEADER_TYPE, mac_pdu_decoder.cpp:98-141 -/
def stepHeaderType (buf : List Nat) (d : Dec) : Res Dec := do
  Res.assert (d.r = 0)
  Res.assert (0 < buf.length)
  let (h, ok) ← HeaderType.unpack (buf.drop d.r)
  if !ok then pure d.prematureAbort
  else
    let d := { d with mht := some h, r := u32 (d.r + d.n) }
    Res.assert (d.r = 1)
    match h.type with
    | some .escape => .abort
    | none => .abort
    | some t => pure { d with st := .commonHeader, mch := some ⟨t, none⟩, n := t.mchSize }

/-- State MAC_COMMON_HEADER, mac_pdu_decoder.cpp:143-160 -/
def stepCommonHeader (buf : List Nat) (d : Dec) : Res Dec :=
  match d.mch with
  | none => .ub
  | some s => do
    let (m, ok) ← Mch.unpack s.type (buf.drop d.r)
    if !ok then pure { d with mch := none }.prematureAbort
    else pure { d with mch := some ⟨s.type, some m⟩, r := u32 (d.r + d.n), st := .mux, n := 1 }

/-- State MAC_MUX_HEADER_UNPACK_MAC_EXT_IE_TYPE, mac_pdu_decoder.cpp:162-217. The cluster beacon is
the only activated class derived from `mmie_packing_peeking_t`; it needs two bytes to peek
(cluster_beacon_message.hpp). -/
def stepMux (buf : List Nat) (d : Dec) : Res Dec := do
  let (h, ok) ← Mmh.zero.unpackExtIe (buf.drop d.r)
  let d := { d with mmh := h }
  if !ok then pure d.prematureAbort
  else match h.tinfo with
    | none => .ub
    | some k =>
      if k = .padding then pure d.prematureAbort
      else match d.fromPool k with
        | none => pure { d with cur := none }.prematureAbort
        | some ref =>
          let d := { d with cur := some ref }
          if k = .clusterBeacon then
            pure { d with
              pool := Function.update d.pool ref { d.pool ref with mmh := h }
              r := u32 (d.r + d.n), st := .peek, n := 2 }
          else do
            let n ← h.packedSize
            pure { d with st := .lengthOrFixed, n := n }

/-- `get_packed_size_of_sdu`, mmie.cpp:56,67: fixed for the power target and time announce IEs, the
length for user plane data, and dependent on the fields for the cluster beacon. -/
def sizeOfSdu (o : Obj) (k : Kind) : Nat :=
  match k with
  | .powerTarget => PowerTarget.packedSize ⟨0⟩
  | .timeAnnounce => TimeAnnounce.packedSize ⟨0, 0, 0, 0⟩
  | _ => o.mmh.length

/-- State A_MAC_MUX_HEADER_UNPACK_LENGTH_OR_FIXED_SIZE, mac_pdu_decoder.cpp:219-241 -/
def stepLength (buf : List Nat) (d : Dec) : Res Dec := do
  let h ← d.mmh.unpackLength (buf.drop d.r)
  match d.cur with
  | none => .ub
  | some ref =>
    let o := { d.pool ref with mmh := h }
    pure { d with
      mmh := h
      pool := Function.update d.pool ref o
      r := u32 (d.r + d.n)
      st := .unpack
      n := if o.mmh.length < undef32 then o.mmh.length else sizeOfSdu o ref.1 }

/-- State B_MAC_MESSAGE_IE_PEEK, mac_pdu_decoder.cpp:243-265, with `set_mu`, mmie.cpp:97-100. Peeking
at a cluster beacon always gives a size. -/
def stepPeek (buf : List Nat) (d : Dec) : Res Dec :=
  match d.cur with
  | none => .ub
  | some ref => do
    Res.assert (d.mu = 1 || d.mu = 2 || d.mu = 4 || d.mu = 8)
    let o := { d.pool ref with mu := d.mu }
    let n ← ClusterBeacon.peek o.mu (buf.drop d.r)
    pure { d with pool := Function.update d.pool ref o, st := .unpack, n := n }

/-- `unpack` of the class of an element, or saving the pointer for a flowing one,
mac_pdu_decoder.cpp:271-286. -/
def unpackContent (buf : List Nat) (r : Nat) (o : Obj) (k : Kind) : Res (Content × Bool) :=
  match k with
  | .padding => .ub
  | .userPlaneData => .ok (.data r, true)
  | .clusterBeacon => do
    let (m, ok) ← ClusterBeacon.unpack o.mu (buf.drop r)
    pure (.cluster m, ok)
  | .powerTarget => do
    let (m, ok) ← PowerTarget.unpack (buf.drop r)
    pure (.power m, ok)
  | .timeAnnounce => do
    let (m, ok) ← TimeAnnounce.unpack (buf.drop r)
    pure (.time m, ok)

/-- State MAC_MESSAGE_IE_UNPACK, mac_pdu_decoder.cpp:267-299 -/
def stepUnpack (buf : List Nat) (d : Dec) : Res Dec :=
  match d.cur with
  | none => .ub
  | some ref => do
    let (c, ok) ← unpackContent buf d.r (d.pool ref) ref.1
    let o := { d.pool ref with content := c }
    let d := { d with pool := Function.update d.pool ref o }
    let d ← if ok then
        match o.mmh.tinfo with
        | none => Res.ub
        | some k => Res.ok { d with
            cnt := Function.update d.cnt k (d.cnt k + 1), decoded := d.decoded ++ [ref] }
      else Res.ok d
    pure { d with r := u32 (d.r + d.n) }.prepareCheck

/-- The `switch`, mac_pdu_decoder.cpp:95-329. The second component tells whether `decode` returns. -/
def body (buf : List Nat) (d : Dec) : Res (Dec × Bool) :=
  match d.st with
  | .headerType => do pure (← stepHeaderType buf d, false)
  | .commonHeader => do pure (← stepCommonHeader buf d, false)
  | .mux => do pure (← stepMux buf d, false)
  | .lengthOrFixed => do pure (← stepLength buf d, false)
  | .peek => do pure (← stepPeek buf d, false)
  | .unpack => do pure (← stepUnpack buf d, false)
  | .checkDone =>
    if d.r < d.tb then pure ({ d with st := .mux, n := 1 }, false)
    else pure ({ d with st := .done }, true)
  | .done => .abort
  | .abort => pure ({ d with r := buf.length }, true)

/-- One iteration of `while (true)`, mac_pdu_decoder.cpp:84-330 -/
def step (buf : List Nat) (d : Dec) : Res (Dec × Bool) :=
  if d.tb < u32 (d.r + d.n) then body buf d.prematureAbort
  else if u32 (buf.length + 2 ^ 32 - d.r) < d.n then pure (d, true)
  else body buf d

/-- At most `fuel` iterations; more iterations than that end in `ub`. The theorems show that this
does not happen for the fuel used by `decode`, so that the loop ends. -/
def loop (buf : List Nat) : Nat → Dec → Res Dec
  | 0, _ => .ub
  | k + 1, d => do
    let (d, fin) ← step buf d
    if fin then pure d else loop buf k d

/-- `decode(a_cnt_w_)`, mac_pdu_decoder.cpp:70-331. -/
def decode (buf : List Nat) (d : Dec) : Res Dec := do
  Res.assert (decide (buf.length ≤ d.tb))
  Res.assert (decide (d.r ≤ buf.length))
  loop buf (4 * d.tb + 6) d

/-- `has_reached_valid_final_state`, mac_pdu_decoder.cpp:333-341 -/
def hasReachedValidFinalState (d : Dec) : Res Bool := do
  Res.assert (d.r = d.tb)
  Res.assert (d.st = .done || d.st = .abort)
  pure (d.r = d.tb && (d.st = .done || d.st = .abort))

/-- The calls of `decode` for a transport block `F` of which `w` bytes have been written at each
call, rx_synced.cpp:1201. -/
def feed (F : List Nat) : List Nat → Dec → Res Dec
  | [], d => .ok d
  | w :: ws, d => do feed F ws (← decode (F.take w) d)

/-- What an application sees of a delivered element in transport block `F`: class members and, for
user plane data, IE type and the bytes from `data_ptr` on. -/
inductive Seen where
  | cluster (m : ClusterBeacon)
  | power (m : PowerTarget)
  | time (m : TimeAnnounce)
  | data (flow : Nat) (bytes : List Nat)
  deriving DecidableEq, Repr

/-- `get_flow_id`, user_plane_data.cpp:59-78 -/
def flowId (ie : Nat) : Nat :=
  match ie with
  | 3 => 1
  | 4 => 2
  | 5 => 3
  | 6 => 4
  | _ => undef32

/-- The element behind a reference; `none` if it holds no content or its bytes are outside the
transport block. -/
def _root_.Verif.Mac.Obj.seen (F : List Nat) (o : Obj) : Option Seen :=
  match o.content with
  | .fresh => none
  | .cluster m => some (.cluster m)
  | .power m => some (.power m)
  | .time m => some (.time m)
  | .data off =>
    if off + o.mmh.length ≤ F.length then
      some (.data (flowId o.mmh.ie) ((F.drop off).take o.mmh.length))
    else none

/-- `get_mmie_decoded_vec` as seen by an application. -/
def delivered (F : List Nat) (d : Dec) : List (Option Seen) :=
  d.decoded.map fun ref => (d.pool ref).seen F

end Dec
end Verif.Mac
