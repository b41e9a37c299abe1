import Verif.Model.Encoder
import Verif.Props.C06_Decoder

set_option linter.unusedSimpArgs false

/-!
# C08: what is sent in a MAC PDU is what is decoded
-/

namespace Verif.Mac
open BitByte Mmh Dec

/-- Ranges of the fields of an element to be sent. -/
def TxOk (mu : Nat) : TxIe → Prop
  | .cluster m => BeaconOk mu m
  | .power m => 45 ≤ m.coded ∧ m.coded ≤ 60
  | .time m => TimeOk m
  | .data flow bytes => 1 ≤ flow ∧ flow ≤ 4 ∧ 0 < bytes.length ∧ bytes.length ≤ 65535 ∧ Bytes bytes

/-- Class of an element. -/
def TxIe.kind : TxIe → Kind
  | .cluster _ => .clusterBeacon
  | .power _ => .powerTarget
  | .time _ => .timeAnnounce
  | .data .. => .userPlaneData

/-- The same element on the receiving side. -/
def TxIe.seen : TxIe → Seen
  | .cluster m => .cluster m
  | .power m => .power m
  | .time m => .time m
  | .data flow bytes => .data flow bytes

/-- Number of elements of a class. -/
def countKind (k : Kind) (ies : List TxIe) : Nat := (ies.filter fun ie => ie.kind = k).length

/-- Iterations of the loop that do not return. -/
inductive Steps (buf : List Nat) : Dec → Dec → Prop
  | refl (d) : Steps buf d d
  | head {d d' d''} : step buf d = .ok (d', false) → Steps buf d' d'' → Steps buf d d''

theorem Steps.trans {buf : List Nat} {a b c : Dec} (h : Steps buf a b) (h' : Steps buf b c) :
    Steps buf a c := by
  induction h with
  | refl => exact h'
  | head h1 _ ih => exact .head h1 (ih h')

theorem Steps.loop {buf : List Nat} {a b x : Dec} {k : Nat} (h : Steps buf a b)
    (hl : loop buf k b = .ok x) : ∃ k', loop buf k' a = .ok x := by
  induction h with
  | refl => exact ⟨k, hl⟩
  | head h1 _ ih =>
    obtain ⟨k', e⟩ := ih hl
    exact ⟨k' + 1, by rw [Dec.loop, h1]; exact e⟩

/-- Enough bytes: the loop enters the switch. -/
theorem step_body {F : List Nat} {d : Dec} (htb : d.tb = F.length) (hb : F.length + 65536 ≤ 2 ^ 32)
    (hn : d.r + d.n ≤ F.length) : step F d = body F d := by
  have e1 : u32 (d.r + d.n) = d.r + d.n := u32_of_lt (by omega)
  have e2 : u32 (F.length + 2 ^ 32 - d.r) = F.length - d.r := by unfold u32; omega
  rw [step, e1, e2, if_neg (by omega), if_neg (by omega)]

/-- The decoder after an element was delivered. -/
structure After (F : List Nat) (d d' : Dec) (s : Seen) (k : Kind) (len : Nat) : Prop where
  steps : Steps F d d'
  st : d'.st = .checkDone
  n : d'.n = 0
  r : d'.r = d.r + len
  tb : d'.tb = d.tb
  mu : d'.mu = d.mu
  mht : d'.mht = d.mht
  mch : d'.mch = d.mch
  cnt : d'.cnt = Function.update d.cnt k (d.cnt k + 1)
  decoded : d'.decoded = d.decoded ++ [(k, d.cnt k)]
  pool : ∀ ref, ref ≠ (k, d.cnt k) → d'.pool ref = d.pool ref
  seen : (d'.pool (k, d.cnt k)).seen F = some s

/-- Elements with a length field or a fixed size. -/
theorem deliver_fixed {F : List Nat} {d : Dec} {e : MacExt} {ie len n : Nat} {k : Kind} {l rest : List Nat}
    {c : Content} {s : Seen}
    (htb : d.tb = F.length) (hb : F.length + 65536 ≤ 2 ^ 32) (hs : d.st = .mux) (hn : d.n = 1)
    (hF : F.drop d.r = firstOctet e ie len :: lengthOctets e len ++ (l ++ rest))
    (ha : Assigned e len ie) (hl : LengthFits e len) (hk : announced e ie = some k)
    (hkp : k ≠ .padding) (hkb : k ≠ .clusterBeacon) (hc : d.cnt k < poolSize k)
    (hln : l.length = n)
    (hsz : ∀ μ c', (if (if e = .noLength then undef32 else len) < undef32 then
        (if e = .noLength then undef32 else len) else
        sizeOfSdu ⟨⟨some e, ie, if e = .noLength then undef32 else len, some k⟩, μ, c'⟩ k) = n)
    (hun : ∀ o, unpackContent F (d.r + headerSize e) o k = .ok (c, true))
    (hseen : ∀ μ, (Obj.mk ⟨some e, ie, if e = .noLength then undef32 else len, some k⟩ μ c).seen F = some s) :
    ∃ d', After F d d' s k (headerSize e + n) := by
  have hlen := congrArg List.length hF
  have hho : (lengthOctets e len).length + 1 = headerSize e := by cases e <;> rfl
  simp only [List.length_drop, List.cons_append, List.length_cons, List.length_append] at hlen
  have h1 := C04_unpack_first e ie len ha hl (lengthOctets e len ++ (l ++ rest))
  obtain ⟨l', p1, p2, p3⟩ := C04_roundtrip e ie len none ha hl
  obtain ⟨l'', q1, -, -, -, q5⟩ := C04_pack e ie len none ha hl
  rw [p1] at q1
  obtain rfl : l' = l'' := by simpa using q1
  obtain ⟨h, h2, h3, h4⟩ := p3 (l ++ rest)
  rw [q5] at h2 h4
  rw [List.cons_append] at h2
  rw [h1] at h2
  simp only [Res.ok.injEq, Prod.mk.injEq] at h2
  obtain ⟨rfl, -⟩ := h2
  rw [hk] at h1 h3 h4
  -- first iteration
  let d1 : Dec := { d with
    mmh := ⟨some e, ie, undef32, some k⟩, cur := some (k, d.cnt k), st := .lengthOrFixed, n := headerSize e }
  have s1 : step F d = .ok (d1, false) := by
    rw [step_body htb hb (by omega)]
    simp only [body, hs, stepMux, hF]
    rw [List.cons_append, h1]
    simp only [Res.ok_bind, Option.isSome_some, Bool.not_true, Bool.false_eq_true, if_false, fromPool, hc,
      if_true, hkp, hkb, h3, Res.pure_eq, d1]
  -- second iteration
  let h' : Mmh := ⟨some e, ie, if e = .noLength then undef32 else len, some k⟩
  let o : Obj := { d.pool (k, d.cnt k) with mmh := h' }
  let d2 : Dec := { d1 with
    mmh := h', pool := Function.update d.pool (k, d.cnt k) o, r := d.r + headerSize e, st := .unpack, n := n }
  have hr1 : u32 (d.r + headerSize e) = d.r + headerSize e := u32_of_lt (by omega)
  have hr2 : u32 (d.r + headerSize e + n) = d.r + headerSize e + n := u32_of_lt (by omega)
  have s2 : step F d1 = .ok (d2, false) := by
    rw [step_body (d := d1) htb hb (by show d.r + headerSize e ≤ _; omega)]
    show (stepLength F d1 >>= fun x => Res.ok (x, false)) = _
    have : d1.mmh.unpackLength (F.drop d1.r) = .ok h' := by
      show Mmh.unpackLength ⟨some e, ie, undef32, some k⟩ (F.drop d.r) = _
      rw [hF]; exact h4
    rw [stepLength, this]
    have e2 := hsz (d.pool (k, d.cnt k)).mu (d.pool (k, d.cnt k)).content
    simp only [Res.ok_bind, d1, Res.pure_eq, hr1, d2, h', o, e2]
  -- third iteration
  let d3 : Dec := { d2 with
    pool := Function.update d2.pool (k, d.cnt k) { o with content := c }
    cnt := Function.update d.cnt k (d.cnt k + 1)
    decoded := d.decoded ++ [(k, d.cnt k)]
    r := d.r + headerSize e + n, st := .checkDone, n := 0 }
  have s3 : step F d2 = .ok (d3, false) := by
    rw [step_body (d := d2) htb hb (by show d.r + headerSize e + n ≤ _; omega)]
    show (stepUnpack F d2 >>= fun x => Res.ok (x, false)) = _
    have hp : d2.pool (k, d.cnt k) = o := by simp [d2]
    have hcur : d2.cur = some (k, d.cnt k) := rfl
    have hr : d2.r = d.r + headerSize e := rfl
    have ht : o.mmh.tinfo = some k := rfl
    simp only [stepUnpack, hcur, hp, hr, hun, Res.ok_bind, if_true, ht, Res.pure_eq, prepareCheck]
    simp only [d2, hr2, d1, d3]
  refine ⟨d3, .head s1 (.head s2 (.head s3 (.refl _))), rfl, rfl, by show _ + _ + _ = _; omega, rfl, rfl,
    rfl, rfl, rfl, rfl, ?_, ?_⟩
  · intro ref hne
    simp [d3, d2, Function.update_of_ne hne]
  · simp only [d3, d2, Function.update_self]
    exact hseen _

/-- A cluster beacon. -/
theorem deliver_cluster {F : List Nat} {d : Dec} {m : ClusterBeacon} {rest : List Nat}
    (htb : d.tb = F.length) (hb : F.length + 65536 ≤ 2 ^ 32) (hs : d.st = .mux) (hn : d.n = 1)
    (hmu : d.mu = 1 ∨ d.mu = 2 ∨ d.mu = 4 ∨ d.mu = 8)
    (hF : F.drop d.r = 9 :: (beaconBytes d.mu m ++ rest)) (hm : BeaconOk d.mu m)
    (hc : d.cnt .clusterBeacon < poolSize .clusterBeacon) :
    ∃ d', After F d d' (.cluster m) .clusterBeacon (1 + (beaconBytes d.mu m).length) := by
  have hlen := congrArg List.length hF
  simp only [List.length_drop, List.length_cons, List.length_append] at hlen
  obtain ⟨-, hbl, hbb, hpk⟩ := C09_pack d.mu m hm
  have h4 : 4 ≤ (beaconBytes d.mu m).length := by
    rw [hbl]; unfold ClusterBeacon.packedSize; omega
  have h1 := C04_unpack_first .noLength 9 0 (by simp [Assigned]) (by simp [LengthFits])
    (beaconBytes d.mu m ++ rest)
  obtain ⟨l, hl, hun⟩ := C09_roundtrip d.mu m hm rest
  rw [(C09_pack d.mu m hm).1] at hl
  obtain rfl : beaconBytes d.mu m = l := by simpa using hl
  have hr1 : u32 (d.r + 1) = d.r + 1 := u32_of_lt (by omega)
  have hr2 : u32 (d.r + 1 + m.packedSize d.mu) = d.r + 1 + m.packedSize d.mu := u32_of_lt (by omega)
  have hF' : F.drop (d.r + 1) = beaconBytes d.mu m ++ rest := by
    rw [← List.drop_drop, hF]; rfl
  let h' : Mmh := ⟨some .noLength, 9, undef32, some .clusterBeacon⟩
  let ref : Ref := (.clusterBeacon, d.cnt .clusterBeacon)
  let d1 : Dec := { d with
    mmh := h', cur := some ref, pool := Function.update d.pool ref { d.pool ref with mmh := h' }
    r := d.r + 1, st := .peek, n := 2 }
  have s1 : step F d = .ok (d1, false) := by
    rw [step_body htb hb (by omega)]
    simp only [body, hs, stepMux, hF]
    have h1' : unpackExtIe zero (9 :: (beaconBytes d.mu m ++ rest)) = .ok (h', true) := h1
    rw [h1']
    simp only [Res.ok_bind, Bool.not_true, Bool.false_eq_true, if_false, fromPool, hc,
      if_true, Res.pure_eq, d1, hn, hr1, h', ref, reduceCtorEq]
  let d2 : Dec := { d1 with
    pool := Function.update d1.pool ref { d.pool ref with mmh := h', mu := d.mu }
    st := .unpack, n := m.packedSize d.mu }
  have s2 : step F d1 = .ok (d2, false) := by
    rw [step_body (d := d1) htb hb (by show d.r + 1 + 2 ≤ _; omega)]
    show (stepPeek F d1 >>= fun x => Res.ok (x, false)) = _
    have hmu' : (decide (d.mu = 1) || decide (d.mu = 2) || decide (d.mu = 4) || decide (d.mu = 8)) = true := by
      rcases hmu with h | h | h | h <;> simp [h]
    have hcur : d1.cur = some ref := rfl
    have hr : d1.r = d.r + 1 := rfl
    have hmd : d1.mu = d.mu := rfl
    have hp : d1.pool ref = { d.pool ref with mmh := h' } := by simp [d1]
    rw [stepPeek, hcur]
    simp only [hmd, hmu', Res.assert_true, Res.ok_bind, hr, hF', hpk, Res.pure_eq, hp]
    rfl
  let d3 : Dec := { d2 with
    pool := Function.update d2.pool ref ⟨h', d.mu, .cluster m⟩
    cnt := Function.update d.cnt .clusterBeacon (d.cnt .clusterBeacon + 1)
    decoded := d.decoded ++ [ref]
    r := d.r + 1 + m.packedSize d.mu, st := .checkDone, n := 0 }
  have s3 : step F d2 = .ok (d3, false) := by
    rw [step_body (d := d2) htb hb (by show d.r + 1 + m.packedSize d.mu ≤ _; omega)]
    show (stepUnpack F d2 >>= fun x => Res.ok (x, false)) = _
    have hp : d2.pool ref = { d.pool ref with mmh := h', mu := d.mu } := by simp [d2]
    have hcur : d2.cur = some ref := rfl
    have hr : d2.r = d.r + 1 := rfl
    have hun' : unpackContent F (d.r + 1) { d.pool ref with mmh := h', mu := d.mu } ref.1 =
        .ok (.cluster m, true) := by
      show (ClusterBeacon.unpack d.mu (F.drop (d.r + 1)) >>= fun x => _) = _
      rw [hF', hun]; rfl
    have ht : h'.tinfo = some .clusterBeacon := rfl
    simp only [stepUnpack, hcur, hp, hr, hun', Res.ok_bind, if_true, ht, Res.pure_eq, prepareCheck]
    simp only [d2, hr2, d1, d3]
  refine ⟨d3, .head s1 (.head s2 (.head s3 (.refl _))), rfl, rfl, by show _ + _ + _ = _; omega, rfl, rfl,
    rfl, rfl, rfl, rfl, ?_, ?_⟩
  · intro ref' hne
    simp [d3, d2, d1, ref, Function.update_of_ne hne]
  · simp only [d3, ref, Function.update_self]
    rfl

theorem flowIe_ok {flow : Nat} (h1 : 1 ≤ flow) (h2 : flow ≤ 4) :
    flowIe flow = .ok (flow + 2) ∧ flowId (flow + 2) = flow := by
  have : flow = 1 ∨ flow = 2 ∨ flow = 3 ∨ flow = 4 := by omega
  rcases this with rfl | rfl | rfl | rfl <;> exact ⟨rfl, rfl⟩

/-- One element: sent, decoded, delivered with the same content. -/
theorem deliver {F : List Nat} {d : Dec} {ie : TxIe} {l rest : List Nat}
    (htb : d.tb = F.length) (hb : F.length + 65536 ≤ 2 ^ 32) (hs : d.st = .mux) (hn : d.n = 1)
    (hmu : d.mu = 1 ∨ d.mu = 2 ∨ d.mu = 4 ∨ d.mu = 8) (hok : TxOk d.mu ie)
    (hp : ie.pack d.mu = .ok l) (hF : F.drop d.r = l ++ rest)
    (hc : d.cnt ie.kind < poolSize ie.kind) :
    ∃ d', After F d d' ie.seen ie.kind l.length := by
  cases ie with
  | cluster m =>
    obtain ⟨q, e1, -, -, -, e2⟩ := C04_pack .noLength 9 undef32 none (by simp [Assigned]) (by simp [LengthFits])
    simp only [TxIe.pack, e1, (C09_pack d.mu m hok).1, Res.ok_bind, Res.pure_eq, Res.ok.injEq] at hp
    subst hp
    rw [e2] at hF
    obtain ⟨d', h⟩ := deliver_cluster (rest := rest) htb hb hs hn hmu (by simpa [firstOctet, lengthOctets] using hF) hok hc
    refine ⟨d', ?_⟩
    have : (q ++ beaconBytes d.mu m).length = 1 + (beaconBytes d.mu m).length := by
      rw [e2]; simp [lengthOctets, Nat.add_comm]
    rw [this]; exact h
  | power m =>
    obtain ⟨q, e1, -, -, -, e2⟩ := C04_pack .noLength 29 undef32 none (by simp [Assigned]) (by simp [LengthFits])
    obtain ⟨c1, -, c3⟩ := C11_power m hok rest
    simp only [TxIe.pack, e1, c1, Res.ok_bind, Res.pure_eq, Res.ok.injEq] at hp
    subst hp
    rw [e2] at hF
    have hF' : F.drop d.r = firstOctet .noLength 29 0 :: lengthOctets .noLength 0 ++ ([m.coded] ++ rest) := by
      simpa [firstOctet, lengthOctets] using hF
    have hF2 : F.drop (d.r + 1) = [m.coded] ++ rest := by
      rw [← List.drop_drop, hF']; rfl
    have hun : ∀ o, unpackContent F (d.r + 1) o .powerTarget = .ok (.power m, true) := by
      intro o
      show (PowerTarget.unpack (F.drop (d.r + 1)) >>= fun x => _) = _
      rw [hF2, c3]; rfl
    obtain ⟨d', h⟩ := deliver_fixed (c := .power m) (s := .power m) htb hb hs hn hF' (by simp [Assigned])
      (by simp [LengthFits]) (k := .powerTarget) rfl (by simp) (by simp) hc (n := 1) rfl
      (by simp [sizeOfSdu, PowerTarget.packedSize]) hun (fun _ => rfl)
    refine ⟨d', ?_⟩
    rw [e2]; exact h
  | time m =>
    obtain ⟨q, e1, -, -, -, e2⟩ := C04_pack .noLength 30 undef32 none (by simp [Assigned]) (by simp [LengthFits])
    obtain ⟨c1, c2, -, c3⟩ := C11_time m hok
    simp only [TxIe.pack, e1, c1, Res.ok_bind, Res.pure_eq, Res.ok.injEq] at hp
    subst hp
    rw [e2] at hF
    have hF' : F.drop d.r = firstOctet .noLength 30 0 :: lengthOctets .noLength 0 ++ (timeBytes m ++ rest) := by
      simpa [firstOctet, lengthOctets] using hF
    have hF2 : F.drop (d.r + 1) = timeBytes m ++ rest := by
      rw [← List.drop_drop, hF']; rfl
    have hun : ∀ o, unpackContent F (d.r + 1) o .timeAnnounce = .ok (.time m, true) := by
      intro o
      show (TimeAnnounce.unpack (F.drop (d.r + 1)) >>= fun x => _) = _
      rw [hF2, c3]; rfl
    obtain ⟨d', h⟩ := deliver_fixed (c := .time m) (s := .time m) htb hb hs hn hF' (by simp [Assigned])
      (by simp [LengthFits]) (k := .timeAnnounce) rfl (by simp) (by simp) hc (n := 11) c2
      (by simp [sizeOfSdu, TimeAnnounce.packedSize]) hun (fun _ => rfl)
    refine ⟨d', ?_⟩
    have : (q ++ timeBytes m).length = 1 + 11 := by
      rw [e2]; simp [c2, TimeAnnounce.packedSize, lengthOctets]
    rw [this]; exact h
  | data flow bytes =>
    obtain ⟨f1, f2, f3, f4, f5⟩ := hok
    obtain ⟨g1, g2⟩ := flowIe_ok f1 f2
    let e : MacExt := if bytes.length ≤ 255 then .len8 else .len16
    have hmask : bitmaskLsb 8 = 255 ∧ bitmaskLsb 16 = 65535 := by decide
    have hee : e = .len8 ∧ bytes.length ≤ 255 ∨ e = .len16 := by
      simp only [e]; split
      · exact Or.inl ⟨rfl, by assumption⟩
      · exact Or.inr rfl
    have hne : e ≠ .noLength := by rcases hee with ⟨h, -⟩ | h <;> simp [h]
    have ha : Assigned e bytes.length (flow + 2) := by
      rcases hee with ⟨h, -⟩ | h <;> rw [h] <;> (left; omega)
    have hl : LengthFits e bytes.length := by
      rcases hee with ⟨h, h'⟩ | h <;> rw [h] <;> simp [LengthFits] <;> omega
    have hk : announced e (flow + 2) = some .userPlaneData := by
      rcases hee with ⟨h, h'⟩ | h <;> rw [h] <;> simp [announced] <;> omega
    obtain ⟨q, e1, e0, -, -, e2⟩ := C04_pack e (flow + 2) bytes.length none ha hl
    have hsd : setDataSize { Mmh.zero with ie := flow + 2 } bytes.length =
        .ok ⟨some e, flow + 2, bytes.length, none⟩ := by
      simp [setDataSize, hmask, f3, f4, e, Mmh.zero]
    simp only [TxIe.pack, g1, hsd, e1, Res.ok_bind, Res.pure_eq, Res.ok.injEq] at hp
    subst hp
    rw [e2, List.append_assoc] at hF
    have hF2 : F.drop (d.r + headerSize e) = bytes ++ rest := by
      rw [← List.drop_drop, hF, ← e2, ← e0, List.drop_left]
    have hlen := congrArg List.length hF2
    simp only [List.length_drop, List.length_append] at hlen
    have hseen : ∀ μ, (Obj.mk ⟨some e, flow + 2, if e = .noLength then undef32 else bytes.length,
        some .userPlaneData⟩ μ (.data (d.r + headerSize e))).seen F = some (.data flow bytes) := by
      intro μ
      simp only [Obj.seen, if_neg hne]
      rw [if_pos (by omega), g2, hF2, List.take_left]
    obtain ⟨d', h⟩ := deliver_fixed (c := .data (d.r + headerSize e)) (s := .data flow bytes) htb hb hs hn
      hF ha hl hk (by simp) (by simp) hc (n := bytes.length) rfl
      (by
        intro μ c'
        rw [if_neg hne, if_pos (by unfold undef32; omega)]) (fun _ => rfl) hseen
    refine ⟨d', ?_⟩
    rw [List.length_append, e0]; exact h

/-- Appending delivered elements: nothing delivered before changes. -/
theorem After.delivered {F : List Nat} {d d' : Dec} {s : Seen} {k : Kind} {len : Nat}
    (h : After F d d' s k len) (hbelow : ∀ ref ∈ d.decoded, ref.2 < d.cnt ref.1) :
    d'.delivered F = d.delivered F ++ [some s] ∧ ∀ ref ∈ d'.decoded, ref.2 < d'.cnt ref.1 := by
  constructor
  · simp only [Dec.delivered, h.decoded, List.map_append, List.map_cons, List.map_nil, h.seen]
    congr 1
    apply List.map_congr_left
    intro ref hr
    rw [h.pool ref]
    rintro rfl
    exact Nat.lt_irrefl _ (hbelow _ hr)
  · intro ref hr
    rw [h.decoded, List.mem_append, List.mem_singleton] at hr
    rw [h.cnt]
    rcases hr with hr | rfl
    · have := hbelow ref hr
      by_cases hk : ref.1 = k
      · rw [hk, Function.update_self]; rw [hk] at this; omega
      · rwa [Function.update_of_ne hk]
    · simp

/-- All elements that fit into the pool, one after the other. -/
theorem deliver_all {F : List Nat} (hb : F.length + 65536 ≤ 2 ^ 32) :
    ∀ (ies : List TxIe) (d : Dec) (l rest : List Nat), d.tb = F.length → d.st = .mux → d.n = 1 →
    (d.mu = 1 ∨ d.mu = 2 ∨ d.mu = 4 ∨ d.mu = 8) → (∀ ie ∈ ies, TxOk d.mu ie) →
    packIes d.mu ies = .ok l → F.drop d.r = l ++ rest → d.r ≤ F.length →
    (∀ k, d.cnt k + countKind k ies ≤ poolSize k) → (∀ ref ∈ d.decoded, ref.2 < d.cnt ref.1) →
    ∃ d', Steps F d d' ∧ (d'.st = .checkDone ∧ d'.n = 0 ∨ d'.st = .mux ∧ d'.n = 1) ∧
      (rest ≠ [] → d'.st = .mux ∧ d'.n = 1) ∧
      d'.r = d.r + l.length ∧ d'.tb = d.tb ∧ d'.mu = d.mu ∧ d'.mht = d.mht ∧ d'.mch = d.mch ∧
      (∀ k, d'.cnt k = d.cnt k + countKind k ies) ∧
      (∀ ref ∈ d'.decoded, ref.2 < d'.cnt ref.1) ∧
      d'.delivered F = d.delivered F ++ ies.map fun ie => some ie.seen := by
  intro ies
  induction ies with
  | nil =>
    intro d l rest htb hs hn _ _ hp hF _ _ hbl
    simp only [packIes, Res.ok.injEq] at hp
    subst hp
    exact ⟨d, .refl _, Or.inr ⟨hs, hn⟩, fun _ => ⟨hs, hn⟩, by simp, rfl, rfl, rfl, rfl,
      fun k => by simp [countKind], hbl, by simp⟩
  | cons ie ies ih =>
    intro d l rest htb hs hn hmu hok hp hF hr hcnt hbl
    simp only [packIes, Res.bind_eq_ok, Res.pure_eq, Res.ok.injEq] at hp
    obtain ⟨a, ha, b, hb', rfl⟩ := hp
    rw [List.append_assoc] at hF
    have hck : ∀ k, countKind k (ie :: ies) = (if ie.kind = k then 1 else 0) + countKind k ies := by
      intro k; simp only [countKind, List.filter_cons, decide_eq_true_eq]
      split
      · simp; omega
      · simp
    have hc : d.cnt ie.kind < poolSize ie.kind := by
      have := hcnt ie.kind
      rw [hck, if_pos rfl] at this; omega
    obtain ⟨d1, h⟩ := deliver htb hb hs hn hmu (hok ie (by simp)) ha hF hc
    obtain ⟨hdel, hbl1⟩ := h.delivered hbl
    have hlen := congrArg List.length hF
    simp only [List.length_drop, List.length_append] at hlen
    have hcnt1 : ∀ k, d1.cnt k = d.cnt k + if ie.kind = k then 1 else 0 := by
      intro k
      rw [h.cnt]
      by_cases hk : ie.kind = k
      · subst hk; simp
      · simp [hk, Function.update_of_ne (Ne.symm hk)]
    have hF1 : F.drop d1.r = b ++ rest := by
      rw [h.r, ← List.drop_drop, hF, List.drop_left]
    by_cases hend : d1.r < d1.tb
    · -- continue with the next element
      let d2 : Dec := { d1 with st := .mux, n := 1 }
      have s2 : step F d1 = .ok (d2, false) := by
        rw [step_body (by rw [h.tb, htb]) hb (by rw [h.n]; have := h.tb; omega)]
        simp only [body, h.st, hend, if_true]; rfl
      obtain ⟨d', g1, g2, g2', g3, g4, g5, g6, g7, g8, g9, g10⟩ := ih d2 b rest (by show d1.tb = _; rw [h.tb, htb]) rfl rfl
        (by show d1.mu = 1 ∨ _; rw [h.mu]; exact hmu)
        (by show ∀ x ∈ ies, TxOk d1.mu x; rw [h.mu]; exact fun x hx => hok x (by simp [hx]))
        (by show packIes d1.mu ies = _; rw [h.mu]; exact hb') hF1
        (by show d1.r ≤ _; have := h.tb; omega)
        (by
          intro k
          have := hcnt k
          rw [hck] at this
          show d1.cnt k + _ ≤ _
          rw [hcnt1]; omega)
        hbl1
      refine ⟨d', (h.steps.trans (.head s2 g1)), g2, g2', ?_, ?_, ?_, ?_, ?_, ?_, g9, ?_⟩
      · rw [g3]; show d1.r + _ = _; rw [h.r, List.length_append]; omega
      · rw [g4]; exact h.tb
      · rw [g5]; exact h.mu
      · rw [g6]; exact h.mht
      · rw [g7]; exact h.mch
      · intro k
        rw [g8, hck]; show d1.cnt k + _ = _; rw [hcnt1]; omega
      · rw [g10]
        show d1.delivered F ++ _ = _
        rw [hdel]; simp
    · -- the transport block ends here
      have hb0 : b.length = 0 ∧ rest.length = 0 := by
        have := h.r; have := h.tb; omega
      have hies : ies = [] := by
        cases ies with
        | nil => rfl
        | cons x xs =>
          exfalso
          simp only [packIes, Res.bind_eq_ok, Res.pure_eq, Res.ok.injEq] at hb'
          obtain ⟨p, hp, q, -, rfl⟩ := hb'
          have hp0 : p.length = 0 := by have := hb0.1; simp at this; simp [this.1]
          have hpos : 0 < p.length := by
            cases x with
            | cluster m =>
              simp only [TxIe.pack, Res.bind_eq_ok, Res.pure_eq, Res.ok.injEq] at hp
              obtain ⟨u, hu, v, -, rfl⟩ := hp
              obtain ⟨w, e1, e0, -⟩ := C04_pack .noLength 9 undef32 none (by simp [Assigned]) (by simp [LengthFits])
              rw [e1] at hu; simp only [Res.ok.injEq] at hu; subst hu
              simp [e0, headerSize]
            | power m =>
              simp only [TxIe.pack, Res.bind_eq_ok, Res.pure_eq, Res.ok.injEq] at hp
              obtain ⟨u, hu, v, -, rfl⟩ := hp
              obtain ⟨w, e1, e0, -⟩ := C04_pack .noLength 29 undef32 none (by simp [Assigned]) (by simp [LengthFits])
              rw [e1] at hu; simp only [Res.ok.injEq] at hu; subst hu
              simp [e0, headerSize]
            | time m =>
              simp only [TxIe.pack, Res.bind_eq_ok, Res.pure_eq, Res.ok.injEq] at hp
              obtain ⟨u, hu, v, -, rfl⟩ := hp
              obtain ⟨w, e1, e0, -⟩ := C04_pack .noLength 30 undef32 none (by simp [Assigned]) (by simp [LengthFits])
              rw [e1] at hu; simp only [Res.ok.injEq] at hu; subst hu
              simp [e0, headerSize]
            | data flow bytes =>
              have hx := hok (.data flow bytes) (by simp)
              simp only [TxIe.pack, Res.bind_eq_ok, Res.pure_eq, Res.ok.injEq] at hp
              obtain ⟨u, hu, v, -, w, -, rfl⟩ := hp
              have := hx.2.2.1
              simp; omega
          omega
      subst hies
      have hr0 : rest = [] := by simpa using hb0.2
      refine ⟨d1, h.steps, Or.inl ⟨h.st, h.n⟩, fun hne => absurd hr0 hne, ?_, h.tb, h.mu, h.mht, h.mch, ?_,
        hbl1, ?_⟩
      · rw [h.r, List.length_append]; omega
      · intro k; rw [hck]; simp [hcnt1, countKind]
      · rw [hdel]; simp

theorem abort_end {F : List Nat} {d : Dec} (htb : d.tb = F.length) (hb : F.length + 65536 ≤ 2 ^ 32)
    (hr : d.r ≤ F.length) (hs : d.st = .abort) (hn : d.n = 0) :
    step F d = .ok ({ d with r := F.length }, true) := by
  rw [step_body htb hb (by omega)]
  simp [body, hs]

/-- What the decoder does behind the last element: it ends without touching what was delivered. -/
theorem loop_final {F : List Nat} {d : Dec} (htb : d.tb = F.length) (hb : F.length + 65536 ≤ 2 ^ 32)
    (hr : d.r ≤ F.length)
    (h : (d.st = .mux ∧ d.n = 1 ∧ (d.r = F.length ∨
        ∃ m ok, unpackExtIe zero (F.drop d.r) = .ok (m, ok) ∧
          (m.tinfo = some .padding ∨ ∃ k, m.tinfo = some k ∧ poolSize k ≤ d.cnt k))) ∨
      (d.st = .checkDone ∧ d.n = 0 ∧ d.r = F.length)) :
    ∃ k x, loop F k d = .ok x ∧ x.delivered F = d.delivered F ∧ x.mht = d.mht ∧ x.mch = d.mch := by
  rcases h with ⟨hs, hn, hcase⟩ | ⟨hs, hn, he⟩
  · rcases hcase with he | ⟨m, ok, hu, hm⟩
    · refine ⟨1, { d.prematureAbort with r := F.length }, ?_, rfl, rfl, rfl⟩
      have e1 : u32 (d.r + d.n) = d.r + 1 := by rw [hn]; exact u32_of_lt (by omega)
      have : step F d = .ok ({ d.prematureAbort with r := F.length }, true) := by
        rw [step, e1, if_pos (by omega)]; rfl
      rw [loop, this]; rfl
    · have hne : d.r + 1 ≤ F.length := by
        by_contra hlt
        rw [List.drop_of_length_le (by omega)] at hu
        have : unpackExtIe zero [] = .ub := by decide
        rw [this] at hu
        exact absurd hu (by simp)
      have key : ∃ d1, step F d = .ok (d1, false) ∧ d1.st = .abort ∧ d1.n = 0 ∧ d1.tb = d.tb ∧ d1.r = d.r ∧
          d1.delivered F = d.delivered F ∧ d1.mht = d.mht ∧ d1.mch = d.mch := by
        rw [step_body htb hb (by omega)]
        simp only [body, hs, stepMux, hu, Res.ok_bind]
        cases ok with
        | false => exact ⟨_, rfl, rfl, rfl, rfl, rfl, rfl, rfl, rfl⟩
        | true =>
          rcases hm with hm | ⟨k, hm, hk⟩
          · simp only [hm, Bool.not_true, Bool.false_eq_true, if_false, if_true]
            exact ⟨_, rfl, rfl, rfl, rfl, rfl, rfl, rfl, rfl⟩
          · simp only [hm, Bool.not_true, Bool.false_eq_true, if_false]
            by_cases hp : k = .padding
            · rw [if_pos hp]
              exact ⟨_, rfl, rfl, rfl, rfl, rfl, rfl, rfl, rfl⟩
            · rw [if_neg hp]
              simp only [fromPool, if_neg (Nat.not_lt.2 hk)]
              exact ⟨_, rfl, rfl, rfl, rfl, rfl, rfl, rfl, rfl⟩
      obtain ⟨d1, e1, e2, e3, e4, e5, e6, e7, e8⟩ := key
      refine ⟨2, { d1 with r := F.length }, ?_, e6, e7, e8⟩
      rw [loop, e1]
      show loop F 1 d1 = _
      rw [loop, abort_end (by omega) hb (by omega) e2 e3]; rfl
  · refine ⟨1, { d with st := .done }, ?_, rfl, rfl, rfl⟩
    rw [loop, step_body htb hb (by omega)]
    simp [body, hs, htb, he]

/-- From the start to the first element. -/
theorem headers {F : List Nat} {mu s : Nat} {t : HType} {m' : Mch} {pool : Ref → Obj} {b : Nat}
    {l rest : List Nat} (hb : F.length + 65536 ≤ 2 ^ 32) (hte : t ≠ .escape)
    (hF : F = b :: (l ++ rest))
    (hh : ∀ rest, HeaderType.unpack (b :: rest) = .ok (⟨some 0, some s, some t⟩, true))
    (hl : l.length = t.mchSize) (hm : ∀ rest, Mch.unpack t (l ++ rest) = .ok (m', true)) :
    ∃ d0 d, setConfiguration F.length mu pool = .ok d0 ∧ Steps F d0 d ∧ d.st = .mux ∧ d.n = 1 ∧
      d.r = 1 + l.length ∧ d.tb = F.length ∧ d.mu = mu ∧ d.mht = some ⟨some 0, some s, some t⟩ ∧
      d.mch = some ⟨t, some m'⟩ ∧ (∀ k, d.cnt k = 0) ∧ d.decoded = [] := by
  have hlen : F.length = 1 + l.length + rest.length := by rw [hF]; simp; omega
  let d0 : Dec := { tb := F.length, mu := mu, st := .headerType, r := 0, n := 1, mht := none, mch := none
                    mmh := Mmh.zero, cur := none, cnt := fun _ => 0, pool := pool, decoded := [] }
  let d1 : Dec := { d0 with
    mht := some ⟨some 0, some s, some t⟩, r := 1, st := .commonHeader, mch := some ⟨t, none⟩, n := t.mchSize }
  let d2 : Dec := { d1 with mch := some ⟨t, some m'⟩, r := 1 + t.mchSize, st := .mux, n := 1 }
  have s1 : step F d0 = .ok (d1, false) := by
    rw [step_body rfl hb (by show 0 + 1 ≤ _; omega)]
    show (stepHeaderType F d0 >>= fun x => Res.ok (x, false)) = _
    have hr : d0.r = 0 := rfl
    have hn : d0.n = 1 := rfl
    have : HeaderType.unpack (F.drop 0) = .ok (⟨some 0, some s, some t⟩, true) := by
      rw [List.drop_zero, hF]; exact hh _
    simp only [stepHeaderType, hr, hn, this, decide_true, Res.assert_true, Res.ok_bind,
      show 0 < F.length by omega, Bool.not_true, Bool.false_eq_true, if_false, Res.pure_eq]
    rw [show u32 (0 + 1) = 1 by decide]
    cases t <;> rfl
  have s2 : step F d1 = .ok (d2, false) := by
    rw [step_body rfl hb (by show 1 + t.mchSize ≤ _; omega)]
    show (stepCommonHeader F d1 >>= fun x => Res.ok (x, false)) = _
    have hr : d1.r = 1 := rfl
    have hn : d1.n = t.mchSize := rfl
    have hc : d1.mch = some ⟨t, none⟩ := rfl
    have : Mch.unpack t (F.drop 1) = .ok (m', true) := by
      rw [hF]; exact hm _
    rw [stepCommonHeader, hc]
    simp only [hr, hn, this, Res.ok_bind, Bool.not_true, Bool.false_eq_true, if_false, Res.pure_eq,
      u32_of_lt (show 1 + t.mchSize < 2 ^ 32 by omega)]
    rfl
  refine ⟨d0, d2, ?_, .head s1 (.head s2 (.refl _)), rfl, rfl, by show 1 + _ = _; omega, rfl, rfl, rfl, rfl,
    fun _ => rfl, rfl⟩
  simp [setConfiguration, show 0 < F.length by omega, show 1 ≤ F.length by omega, d0]

/-- The multiplexing header of a sent element announces its class. -/
theorem first_kind {mu : Nat} {ie : TxIe} {l : List Nat} (hok : TxOk mu ie) (hp : ie.pack mu = .ok l)
    (rest : List Nat) : l ≠ [] ∧
      ∃ m, unpackExtIe zero (l ++ rest) = .ok (m, true) ∧ m.tinfo = some ie.kind := by
  have fixed : ∀ (ie' : Nat) (k : Kind) (q v : List Nat), Assigned .noLength 0 ie' →
      announced .noLength ie' = some k →
      (Mmh.mk (some .noLength) ie' undef32 none).pack = .ok q →
      q ++ v ≠ [] ∧ ∃ m, unpackExtIe zero (q ++ v ++ rest) = .ok (m, true) ∧ m.tinfo = some k := by
    intro ie' k q v ha hk hq
    obtain ⟨w, e1, -, -, -, e2⟩ := C04_pack .noLength ie' undef32 none ha (by simp [LengthFits])
    rw [hq] at e1
    simp only [Res.ok.injEq] at e1
    subst e1
    subst e2
    refine ⟨by simp, ⟨some .noLength, ie', undef32, some k⟩, ?_, rfl⟩
    have := C04_unpack_first .noLength ie' 0 ha (by simp [LengthFits])
      (lengthOctets .noLength undef32 ++ v ++ rest)
    rw [hk] at this
    exact this
  cases ie with
  | cluster m =>
    simp only [TxIe.pack, Res.bind_eq_ok, Res.pure_eq, Res.ok.injEq] at hp
    obtain ⟨u, hu, v, -, rfl⟩ := hp
    exact fixed 9 _ u v (by simp [Assigned]) rfl hu
  | power m =>
    simp only [TxIe.pack, Res.bind_eq_ok, Res.pure_eq, Res.ok.injEq] at hp
    obtain ⟨u, hu, v, -, rfl⟩ := hp
    exact fixed 29 _ u v (by simp [Assigned]) rfl hu
  | time m =>
    simp only [TxIe.pack, Res.bind_eq_ok, Res.pure_eq, Res.ok.injEq] at hp
    obtain ⟨u, hu, v, -, rfl⟩ := hp
    exact fixed 30 _ u v (by simp [Assigned]) rfl hu
  | data flow bytes =>
    obtain ⟨f1, f2, f3, f4, f5⟩ := hok
    obtain ⟨g1, g2⟩ := flowIe_ok f1 f2
    let e : MacExt := if bytes.length ≤ 255 then .len8 else .len16
    have hmask : bitmaskLsb 8 = 255 ∧ bitmaskLsb 16 = 65535 := by decide
    have hee : e = .len8 ∧ bytes.length ≤ 255 ∨ e = .len16 := by
      simp only [e]; split
      · exact Or.inl ⟨rfl, by assumption⟩
      · exact Or.inr rfl
    have ha : Assigned e bytes.length (flow + 2) := by
      rcases hee with ⟨h, -⟩ | h <;> rw [h] <;> (left; omega)
    have hl : LengthFits e bytes.length := by
      rcases hee with ⟨h, h'⟩ | h <;> rw [h] <;> simp [LengthFits] <;> omega
    have hk : announced e (flow + 2) = some .userPlaneData := by
      rcases hee with ⟨h, h'⟩ | h <;> rw [h] <;> simp [announced] <;> omega
    obtain ⟨q, e1, e0, -, -, e2⟩ := C04_pack e (flow + 2) bytes.length none ha hl
    have hsd : setDataSize { Mmh.zero with ie := flow + 2 } bytes.length =
        .ok ⟨some e, flow + 2, bytes.length, none⟩ := by
      simp [setDataSize, hmask, f3, f4, e, Mmh.zero]
    simp only [TxIe.pack, g1, hsd, e1, Res.ok_bind, Res.pure_eq, Res.ok.injEq] at hp
    subst hp
    subst e2
    refine ⟨by simp, ⟨some e, flow + 2, undef32, some .userPlaneData⟩, ?_, rfl⟩
    have := C04_unpack_first e (flow + 2) bytes.length ha hl (lengthOctets e bytes.length ++ bytes ++ rest)
    rw [hk] at this
    exact this

theorem packIes_append (mu : Nat) (a b : List TxIe) :
    packIes mu (a ++ b) = (packIes mu a >>= fun x => packIes mu b >>= fun y => .ok (x ++ y)) := by
  induction a with
  | nil => simp [packIes]; cases packIes mu b <;> rfl
  | cons ie a ih =>
    simp only [List.cons_append, packIes, ih]
    cases ie.pack mu with
    | ok x =>
      cases packIes mu a with
      | ok y => cases packIes mu b <;> simp
      | abort => rfl
      | ub => rfl
    | abort => rfl
    | ub => rfl

/-- Every element in range can be packed, into bytes. -/
theorem pack_ok {mu : Nat} {ie : TxIe} (hok : TxOk mu ie) : ∃ l, ie.pack mu = .ok l ∧ Bytes l := by
  have fixed : ∀ (ie' : Nat) (v : List Nat), Assigned .noLength 0 ie' → Bytes v →
      ∃ q, (Mmh.mk (some .noLength) ie' undef32 none).pack = .ok q ∧ Bytes (q ++ v) := by
    intro ie' v ha hv
    obtain ⟨w, e1, -, e3, -⟩ := C04_pack .noLength ie' undef32 none ha (by simp [LengthFits])
    refine ⟨w, e1, fun b hb => ?_⟩
    rcases List.mem_append.1 hb with h | h
    · exact e3 b h
    · exact hv b h
  cases ie with
  | cluster m =>
    obtain ⟨e1, -, e2, -⟩ := C09_pack mu m hok
    obtain ⟨q, h1, h2⟩ := fixed 9 _ (by simp [Assigned]) e2
    exact ⟨_, by simp only [TxIe.pack, h1, e1, Res.ok_bind, Res.pure_eq], h2⟩
  | power m =>
    obtain ⟨e1, -⟩ := C11_power m hok []
    have hb : Bytes [m.coded] := by
      intro b hb; simp only [List.mem_singleton] at hb; have := hok.2; omega
    obtain ⟨q, h1, h2⟩ := fixed 29 _ (by simp [Assigned]) hb
    exact ⟨_, by simp only [TxIe.pack, h1, e1, Res.ok_bind, Res.pure_eq], h2⟩
  | time m =>
    obtain ⟨e1, -, e2, -⟩ := C11_time m hok
    obtain ⟨q, h1, h2⟩ := fixed 30 _ (by simp [Assigned]) e2
    exact ⟨_, by simp only [TxIe.pack, h1, e1, Res.ok_bind, Res.pure_eq], h2⟩
  | data flow bytes =>
    obtain ⟨f1, f2, f3, f4, f5⟩ := hok
    obtain ⟨g1, g2⟩ := flowIe_ok f1 f2
    let e : MacExt := if bytes.length ≤ 255 then .len8 else .len16
    have hmask : bitmaskLsb 8 = 255 ∧ bitmaskLsb 16 = 65535 := by decide
    have hee : e = .len8 ∧ bytes.length ≤ 255 ∨ e = .len16 := by
      simp only [e]; split
      · exact Or.inl ⟨rfl, by assumption⟩
      · exact Or.inr rfl
    have ha : Assigned e bytes.length (flow + 2) := by
      rcases hee with ⟨h, -⟩ | h <;> rw [h] <;> (left; omega)
    have hl : LengthFits e bytes.length := by
      rcases hee with ⟨h, h'⟩ | h <;> rw [h] <;> simp [LengthFits] <;> omega
    obtain ⟨q, e1, e0, e3, -⟩ := C04_pack e (flow + 2) bytes.length none ha hl
    have hsd : setDataSize { Mmh.zero with ie := flow + 2 } bytes.length =
        .ok ⟨some e, flow + 2, bytes.length, none⟩ := by
      simp [setDataSize, hmask, f3, f4, e, Mmh.zero]
    refine ⟨q ++ bytes, by simp only [TxIe.pack, g1, hsd, e1, Res.ok_bind, Res.pure_eq], fun b hb => ?_⟩
    rcases List.mem_append.1 hb with h | h
    · exact e3 b h
    · exact f5 b h

theorem packIes_ok {mu : Nat} : ∀ {ies : List TxIe}, (∀ ie ∈ ies, TxOk mu ie) →
    ∃ l, packIes mu ies = .ok l ∧ Bytes l := by
  intro ies
  induction ies with
  | nil => intro _; exact ⟨[], rfl, by simp [Bytes]⟩
  | cons ie ies ih =>
    intro h
    obtain ⟨a, ha, ha'⟩ := pack_ok (h ie (by simp))
    obtain ⟨b, hb, hb'⟩ := ih (fun x hx => h x (by simp [hx]))
    refine ⟨a ++ b, by simp [packIes, ha, hb], fun x hx => ?_⟩
    rcases List.mem_append.1 hx with h | h
    · exact ha' x h
    · exact hb' x h

theorem PaddingRun.bytes {l : List Nat} {c : Nat} (h : PaddingRun l c) : Bytes l := by
  induction h with
  | nil => simp [Bytes]
  | one _ ih => intro b hb; simp only [List.mem_cons] at hb; rcases hb with rfl | hb; decide; exact ih b hb
  | two _ ih =>
    intro b hb; simp only [List.mem_cons] at hb
    rcases hb with rfl | rfl | hb
    · decide
    · decide
    · exact ih b hb
  | many len h1 h2 _ ih =>
    intro b hb; simp only [List.mem_cons, List.mem_append, List.mem_replicate] at hb
    rcases hb with rfl | rfl | ⟨-, rfl⟩ | hb
    · decide
    · omega
    · decide
    · exact ih b hb

/-- What arrives of the elements sent: all elements up to the first one for which the receiver's pool
of its class is used up. -/
def Arrives (ies got : List TxIe) : Prop :=
  (∀ k, countKind k got ≤ poolSize k) ∧
    (ies = got ∨ ∃ e rest, ies = got ++ e :: rest ∧ countKind e.kind got = poolSize e.kind)

/-- C08: every PDU that can be built from a header type, a common header and elements, padded to the
transport block size, is decoded into the same header type, the common header as it survives packing
(the beacon header loses the low byte of the network ID, see C03), and the same elements in the
same order, for every arrival schedule of its bytes; elements are missing only from the first one
on that exceeds the number of elements of its class in the receiver's pool. -/
theorem C08_roundtrip (mu s : Nat) (m : Mch) (ies got : List TxIe) (mem : List Nat) (pool : Ref → Obj)
    (hmu : mu = 1 ∨ mu = 2 ∨ mu = 4 ∨ mu = 8) (hs : s ≤ 3) (hm : MchOk m)
    (hok : ∀ ie ∈ ies, TxOk mu ie) (harr : Arrives ies got) :
    ∃ F, buildPdu mu ⟨some 0, some s, some m.htype⟩ m ies mem = .ok F ∧ Bytes F ∧
      (F.length + 65536 ≤ 2 ^ 32 → ∀ ws : List Nat, ws.Pairwise (· ≤ ·) → (∀ w ∈ ws, w < F.length) →
        ∃ d0 d, setConfiguration F.length mu pool = .ok d0 ∧ feed F (ws ++ [F.length]) d0 = .ok d ∧
          d.mht = some ⟨some 0, some s, some m.htype⟩ ∧
          d.mch = some ⟨m.htype, some (mchRecovered m)⟩ ∧
          d.delivered F = got.map fun ie => some ie.seen) := by
  have hte : m.htype ≠ .escape := by cases m <;> simp [Mch.htype]
  obtain ⟨b, hb1, hb2, -, hb4⟩ := C03_header_type_roundtrip s m.htype hs hte
  obtain ⟨lm, hm1, hm2, hm3, hm4⟩ := C03_mch_roundtrip_partial m hm
  obtain ⟨c, hc1, hc2⟩ := packIes_ok hok
  obtain ⟨p, hp1, hp2, hp3⟩ := C05_fill mem mem.length (Nat.le_refl _)
  rw [List.drop_length, List.append_nil] at hp1
  have hbuild : buildPdu mu ⟨some 0, some s, some m.htype⟩ m ies mem = .ok (b :: (lm ++ (c ++ p))) := by
    simp only [buildPdu, hb1, hm1, hc1, hp1, Res.ok_bind, Res.pure_eq]; rfl
  have hbytes : Bytes (b :: (lm ++ (c ++ p))) := by
    intro x hx
    simp only [List.mem_cons, List.mem_append] at hx
    rcases hx with rfl | hx | hx | hx
    · exact hb2
    · exact hm3 x hx
    · exact hc2 x hx
    · exact hp3.bytes x hx
  refine ⟨_, hbuild, hbytes, ?_⟩
  generalize hFd : b :: (lm ++ (c ++ p)) = F at *
  intro hbig ws hws hwl
  have hlen : F.length = 1 + lm.length + c.length + p.length := by rw [← hFd]; simp; omega
  obtain ⟨d0, d1, e1, e2, e3, e4, e5, e6, e7, e8, e9, e10, e11⟩ := headers (mu := mu) (pool := pool) hbig hte hFd.symm hb4
    hm2 hm4
  -- the elements that arrive
  obtain ⟨hpre, hcase⟩ := harr
  have hgot : ∃ cg post, packIes mu got = .ok cg ∧ c ++ p = cg ++ post ∧ (∀ ie ∈ got, TxOk mu ie) ∧
      (post = p ∧ ies = got ∨ ∃ e l q, post = l ++ q ∧ TxOk mu e ∧ e.pack mu = .ok l ∧
        countKind e.kind got = poolSize e.kind) := by
    rcases hcase with rfl | ⟨e, rest, rfl, he⟩
    · exact ⟨c, p, hc1, rfl, hok, Or.inl ⟨rfl, rfl⟩⟩
    · obtain ⟨cg, h1, -⟩ := packIes_ok (mu := mu) (ies := got) (fun x hx => hok x (by simp [hx]))
      obtain ⟨l, h2, -⟩ := pack_ok (hok e (by simp))
      obtain ⟨cr, h3, -⟩ := packIes_ok (mu := mu) (ies := rest) (fun x hx => hok x (by simp [hx]))
      rw [packIes_append, h1] at hc1
      simp only [packIes, h2, h3, Res.ok_bind, Res.pure_eq, Res.ok.injEq] at hc1
      refine ⟨cg, l ++ cr ++ p, h1, by rw [← hc1]; simp, fun x hx => hok x (by simp [hx]), Or.inr ?_⟩
      exact ⟨e, l, cr ++ p, by simp, hok e (by simp), h2, he⟩
  obtain ⟨cg, post, hcg, hsplit, hokg, hpost⟩ := hgot
  have hFr : F.drop d1.r = cg ++ post := by
    rw [e5, ← hFd, ← hsplit, Nat.add_comm, List.drop_succ_cons, List.drop_left]
  have hsl := congrArg List.length hsplit
  simp only [List.length_append] at hsl
  obtain ⟨d2, g1, g2, g2', g3, g4, g5, g6, g7, g8, -, g10⟩ := deliver_all hbig got d1 cg post e6 e3 e4
    (by rw [e7]; exact hmu) (by rw [e7]; exact hokg) (by rw [e7]; exact hcg) hFr (by omega)
    (by intro k; rw [e10]; have := hpre k; omega) (by rw [e11]; simp)
  have hFr2 : F.drop d2.r = post := by
    rw [g3, ← List.drop_drop, hFr, List.drop_left]
  have hr2 : d2.r + post.length = F.length := by omega
  -- the end
  have hend : ∃ k x, loop F k d2 = .ok x ∧ x.delivered F = d2.delivered F ∧ x.mht = d2.mht ∧ x.mch = d2.mch := by
    apply loop_final (by omega) hbig (by omega)
    by_cases hp0 : post = []
    · have : d2.r = F.length := by rw [hp0] at hr2; simpa using hr2
      rcases g2 with ⟨k1, k2⟩ | ⟨k1, k2⟩
      · exact Or.inr ⟨k1, k2, this⟩
      · exact Or.inl ⟨k1, k2, Or.inl this⟩
    · obtain ⟨k1, k2⟩ := g2' hp0
      refine Or.inl ⟨k1, k2, Or.inr ?_⟩
      rw [hFr2]
      rcases hpost with ⟨rfl, -⟩ | ⟨e, l, q, rfl, he1, he2, he3⟩
      · obtain ⟨x, hx1, hx2⟩ := C05_recognised post _ hp3 hp0 []
        rw [List.append_nil] at hx1
        exact ⟨x, true, hx1, Or.inl hx2⟩
      · obtain ⟨-, x, hx1, hx2⟩ := first_kind he1 he2 q
        exact ⟨x, true, hx1, Or.inr ⟨_, hx2, by rw [g8, e10]; omega⟩⟩
  obtain ⟨k, x, hx1, hx2, hx3, hx4⟩ := hend
  obtain ⟨k', hk'⟩ := (e2.trans g1).loop hx1
  -- the result does not depend on the schedule
  obtain ⟨d0', d3, f1, f2, f3⟩ := C06_chunks F mu pool ws hbytes (by omega) hbig hmu hws hwl
  rw [e1] at f1
  simp only [Res.ok.injEq] at f1
  subst f1
  obtain ⟨d0', f1', hi, hst, hr0, htb0⟩ := inv_start F mu pool hbytes (by omega) hbig hmu
  rw [e1] at f1'
  simp only [Res.ok.injEq] at f1'
  subst f1'
  have hdec := decode_eq hi (Nat.le_refl _) (show d0.r ≤ F.length by omega)
  have hx : d3 = x := by
    simp only [feed] at f3
    rw [hdec] at f3
    cases hl : loop (F.take F.length) (4 * d0.tb + 6) d0 with
    | ok y =>
      rw [hl] at f3
      simp only [Res.ok_bind, Res.ok.injEq] at f3
      rw [List.take_length] at hl
      have a1 := loop_mono _ (k' + (4 * d0.tb + 6)) _ _ (by omega) hl
      have a2 := loop_mono _ (k' + (4 * d0.tb + 6)) _ _ (by omega) hk'
      rw [a1] at a2
      simp only [Res.ok.injEq] at a2
      rw [← f3, a2]
    | abort => rw [hl] at f3; exact absurd f3 (by simp)
    | ub => rw [hl] at f3; exact absurd f3 (by simp)
  subst hx
  refine ⟨d0, d3, e1, f2, by rw [hx3, g6, e8], by rw [hx4, g7, e9], ?_⟩
  rw [hx2, g10]
  simp [Dec.delivered, e11]

theorem countKind_append (k : Kind) (a b : List TxIe) :
    countKind k (a ++ b) = countKind k a + countKind k b := by
  simp [countKind]

theorem countKind_self (e : TxIe) : countKind e.kind [e] = 1 := by simp [countKind]

/-- Which elements arrive is determined: there is exactly one such prefix. -/
theorem C08_arrives_unique (ies : List TxIe) : ∃! got, Arrives ies got := by
  have hex : ∀ (b a : List TxIe), (∀ k, countKind k a ≤ poolSize k) → ∃ got, Arrives (a ++ b) got := by
    intro b
    induction b with
    | nil => intro a ha; exact ⟨a, ha, Or.inl (by simp)⟩
    | cons e b ih =>
      intro a ha
      by_cases he : countKind e.kind a = poolSize e.kind
      · exact ⟨a, ha, Or.inr ⟨e, b, rfl, he⟩⟩
      · obtain ⟨g, hg⟩ := ih (a ++ [e]) (by
          intro k
          rw [countKind_append]
          have h1 := ha k
          by_cases hk : e.kind = k
          · subst hk; rw [countKind_self]; omega
          · have : countKind k [e] = 0 := by simp [countKind, hk]
            omega)
        exact ⟨g, by simpa using hg⟩
  have huniq : ∀ a b, Arrives ies a → Arrives ies b → a.length ≤ b.length → a = b := by
    rintro a b ⟨-, hA⟩ ⟨hb, hB⟩ hl
    have hbp : ∃ z, ies = b ++ z := by
      rcases hB with rfl | ⟨e, r, rfl, -⟩
      · exact ⟨[], by simp⟩
      · exact ⟨_, rfl⟩
    obtain ⟨z, hz⟩ := hbp
    rcases hA with rfl | ⟨e, r, h1, he⟩
    · have := congrArg List.length hz
      simp only [List.length_append] at this
      have hz0 : z = [] := List.length_eq_zero_iff.1 (by omega)
      rw [hz, hz0, List.append_nil]
    · rw [h1] at hz
      rcases List.append_eq_append_iff.1 hz with ⟨c, h2, h3⟩ | ⟨c, h2, h3⟩
      · cases c with
        | nil => simpa using h2.symm
        | cons x c =>
          simp only [List.cons_append, List.cons.injEq] at h3
          have hk := hb e.kind
          rw [h2, ← h3.1] at hk
          have : a ++ e :: c = a ++ [e] ++ c := by simp
          rw [this, countKind_append, countKind_append, countKind_self] at hk
          omega
      · have hl2 := congrArg List.length h2
        simp only [List.length_append] at hl2
        have hc0 : c = [] := List.length_eq_zero_iff.1 (by omega)
        rw [h2, hc0, List.append_nil]
  obtain ⟨g, hg⟩ := hex ies [] (by intro k; simp [countKind])
  rw [List.nil_append] at hg
  refine ⟨g, hg, fun g' hg' => ?_⟩
  rcases Nat.le_total g'.length g.length with h | h
  · exact huniq _ _ hg' hg h
  · exact (huniq _ _ hg hg' h).symm

/-- If the pool suffices for all elements, all of them arrive. -/
theorem C08_all_arrive (ies : List TxIe) (h : ∀ k, countKind k ies ≤ poolSize k) : Arrives ies ies :=
  ⟨h, Or.inl rfl⟩

/-- User data of a flow that does not exist, without a byte, or of more than 65535 bytes cannot be
packed: the transmitter aborts. -/
theorem C08_out_of_range_aborts (mu flow : Nat) (bytes : List Nat)
    (h : ¬ (1 ≤ flow ∧ flow ≤ 4) ∨ bytes.length = 0 ∨ 65535 < bytes.length) :
    (TxIe.data flow bytes).pack mu = .abort := by
  have hmask : bitmaskLsb 16 = 65535 := by decide
  by_cases hf : 1 ≤ flow ∧ flow ≤ 4
  · obtain ⟨g1, -⟩ := flowIe_ok hf.1 hf.2
    simp only [TxIe.pack, g1, Res.ok_bind]
    have : setDataSize { Mmh.zero with ie := flow + 2 } bytes.length = .abort := by
      have h2 : (decide (0 < bytes.length) && decide (bytes.length ≤ bitmaskLsb 16)) = false := by
        rw [hmask]; simp; omega
      simp only [setDataSize, h2]; rfl
    rw [this]; rfl
  · have : flowIe flow = .abort := by
      unfold flowIe
      split <;> first | rfl | (exfalso; omega)
    simp only [TxIe.pack, this]; rfl

/-- A PDU with a unicast header, a power target, user data and five bytes of padding, announced in
three pieces. -/
example : ∃ F, buildPdu 1 ⟨some 0, some 1, some .unicast⟩
      (.unicast 0 1 5 0x11223344 0x55667788) [.power ⟨50⟩, .data 2 [9, 8, 7]] [1, 1, 1, 1, 1] = .ok F ∧
      F.length = 23 ∧
      ∃ d0 d, setConfiguration F.length 1 (fun _ => ⟨Mmh.zero, 0, .fresh⟩) = .ok d0 ∧ feed F [7, 14, 23] d0 = .ok d ∧
        d.delivered F = [some (.power ⟨50⟩), some (.data 2 [9, 8, 7])] := by
  obtain ⟨F, h1, h2, h3⟩ := C08_roundtrip 1 1 (.unicast 0 1 5 0x11223344 0x55667788)
    [.power ⟨50⟩, .data 2 [9, 8, 7]] [.power ⟨50⟩, .data 2 [9, 8, 7]] [1, 1, 1, 1, 1] (fun _ => ⟨Mmh.zero, 0, .fresh⟩)
    (by decide) (by decide) (by simp [MchOk]) (by simp [TxOk, Bytes])
    (C08_all_arrive _ (by intro k; cases k <;> simp [countKind, TxIe.kind, poolSize]))
  have hl : F.length = 23 := by
    have : buildPdu 1 ⟨some 0, some 1, some .unicast⟩ (.unicast 0 1 5 0x11223344 0x55667788)
        [.power ⟨50⟩, .data 2 [9, 8, 7]] [1, 1, 1, 1, 1] =
        .ok [18, 16, 5, 17, 34, 51, 68, 85, 102, 119, 136, 29, 50, 68, 3, 9, 8, 7, 64, 3, 0, 0, 0] := by
      decide +kernel
    have h1' := h1.symm.trans this
    simp only [Res.ok.injEq] at h1'
    rw [h1']; rfl
  refine ⟨F, h1, hl, ?_⟩
  obtain ⟨d0, d, e1, e2, -, -, e3⟩ := h3 (by omega) [7, 14] (by simp) (by simp [hl])
  exact ⟨d0, d, e1, by rw [hl] at e2; exact e2, e3⟩

end Verif.Mac
