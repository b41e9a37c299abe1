import Verif.Model.Decoder
import Verif.Props.C03_MacHeader
import Verif.Props.C04_MuxHeader
import Verif.Props.C05_Padding
import Verif.Props.C09_ClusterBeacon
import Verif.Props.C45_FixedMessages

set_option linter.unusedSimpArgs false

/-!
# Invariant of the MAC PDU decoder
-/

namespace Verif.Mac
open BitByte Mmh Dec

variable {μ₀ : Nat}

/-- An element delivered to the application has its fields in range. -/
def SeenOk (mu : Nat) : Seen → Prop
  | .cluster m => BeaconOk mu m
  | .power m => 45 ≤ m.coded ∧ m.coded ≤ 60
  | .time m => TimeOk m
  | .data flow bytes => 1 ≤ flow ∧ flow ≤ 4 ∧ bytes.length ≤ 65535 ∧ Bytes bytes

/-- What holds in each state of the decoder; `F` is the whole transport block. -/
def StInv (F : List Nat) (d : Dec) : Prop :=
  match d.st with
  | .headerType => d.r = 0 ∧ d.n = 1 ∧ d.decoded = []
  | .commonHeader => ∃ t, t ≠ .escape ∧ d.mch = some ⟨t, none⟩ ∧ d.n = t.mchSize
  | .mux => d.n = 1
  | .lengthOrFixed => ∃ p0 rest k e, F.drop d.r = p0 :: rest ∧ d.mmh = peekOf p0 ∧
      d.mmh.ext = some e ∧ d.n = headerSize e ∧
      d.mmh.tinfo = some k ∧ d.mmh.length = undef32 ∧ d.cnt k < poolSize k ∧ d.cur = some (k, d.cnt k) ∧
      ((k = .userPlaneData ∧ (e = .len8 ∨ e = .len16) ∧ 3 ≤ d.mmh.ie ∧ d.mmh.ie ≤ 6) ∨
        (k = .powerTarget ∧ e = .noLength) ∨ (k = .timeAnnounce ∧ e = .noLength))
  | .peek => d.n = 2 ∧ d.cur = some (.clusterBeacon, 0) ∧ d.cnt .clusterBeacon = 0 ∧
      (d.pool (.clusterBeacon, 0)).mmh.tinfo = some .clusterBeacon
  | .unpack => ∃ k, d.cur = some (k, d.cnt k) ∧ d.cnt k < poolSize k ∧
      (d.pool (k, d.cnt k)).mmh.tinfo = some k ∧
      ((k = .userPlaneData ∧ d.n ≤ 65535 ∧ (d.pool (k, d.cnt k)).mmh.length = d.n ∧
          3 ≤ (d.pool (k, d.cnt k)).mmh.ie ∧ (d.pool (k, d.cnt k)).mmh.ie ≤ 6) ∨
        (k = .clusterBeacon ∧ (d.pool (k, d.cnt k)).mu = d.mu ∧ d.n ≤ 13 ∧ 2 ≤ d.n ∧
          ∃ p0 p1 rest, F.drop d.r = p0 :: p1 :: rest ∧ ClusterBeacon.peek d.mu [p0, p1] = .ok d.n) ∨
        (k = .powerTarget ∧ d.n = 1) ∨ (k = .timeAnnounce ∧ d.n = 11))
  | .checkDone => d.n = 0
  | .done => d.n = 0 ∧ d.r = d.tb
  | .abort => d.n = 0

structure Inv (F : List Nat) (μ₀ : Nat) (d : Dec) : Prop where
  muEq : d.mu = μ₀
  tb : d.tb = F.length
  big : F.length + 65536 ≤ 2 ^ 32
  bytes : Bytes F
  r : d.r ≤ d.tb
  mu : d.mu = 1 ∨ d.mu = 2 ∨ d.mu = 4 ∨ d.mu = 8
  cnt : ∀ k, d.cnt k ≤ poolSize k
  nodup : d.decoded.Nodup
  below : ∀ ref ∈ d.decoded, ref.2 < d.cnt ref.1
  ok : ∀ ref ∈ d.decoded, ∃ s, (d.pool ref).seen F = some s ∧ SeenOk d.mu s
  st : StInv F d

/-- Order of the states within one element. -/
def rank : DecState → Nat
  | .headerType => 5
  | .commonHeader => 3
  | .mux => 2
  | .lengthOrFixed => 1
  | .peek => 5
  | .unpack => 4
  | .checkDone => 3
  | .done => 0
  | .abort => 0

def Dec.meas (d : Dec) : Nat := 4 * (d.tb - d.r) + rank d.st

theorem rd_append {p q : List Nat} {i : Nat} (h : i < p.length) : rd (p ++ q) i = rd p i := by
  simp [rd, List.getElem?_append_left h]

/-- Facts about the first octet of a multiplexing header. -/
theorem peekOf_facts : ∀ p0 < 256, (peekOf p0).length = undef32 ∧
    (∀ k, (peekOf p0).tinfo = some k →
      (k = .padding ∨ k = .clusterBeacon ∧ (peekOf p0).ext = some .noLength ∨
      k = .powerTarget ∧ (peekOf p0).ext = some .noLength ∨
      k = .timeAnnounce ∧ (peekOf p0).ext = some .noLength ∨
      k = .userPlaneData ∧ ((peekOf p0).ext = some .len8 ∨ (peekOf p0).ext = some .len16) ∧
        3 ≤ (peekOf p0).ie ∧ (peekOf p0).ie ≤ 6)) := by
  have key : ∀ p0 < 256, (peekOf p0).length = undef32 ∧
    (((peekOf p0).tinfo = none ∨ (peekOf p0).tinfo = some .padding ∨
      (peekOf p0).tinfo = some .clusterBeacon ∧ (peekOf p0).ext = some .noLength ∨
      (peekOf p0).tinfo = some .powerTarget ∧ (peekOf p0).ext = some .noLength ∨
      (peekOf p0).tinfo = some .timeAnnounce ∧ (peekOf p0).ext = some .noLength ∨
      (peekOf p0).tinfo = some .userPlaneData ∧
        ((peekOf p0).ext = some .len8 ∨ (peekOf p0).ext = some .len16) ∧
        3 ≤ (peekOf p0).ie ∧ (peekOf p0).ie ≤ 6)) := by decide +kernel
  intro p0 hp
  obtain ⟨h1, h2⟩ := key p0 hp
  refine ⟨h1, fun k hk => ?_⟩
  rw [hk] at h2
  simpa using h2

/-- The fields that the parts of `Inv` other than `st` depend on are unchanged. -/
theorem Inv.of_same {F : List Nat} {d d' : Dec} (h : Inv F μ₀ d) (h1 : d'.tb = d.tb) (h2 : d'.r ≤ d'.tb)
    (h3 : d'.mu = d.mu) (h4 : d'.cnt = d.cnt) (h5 : d'.decoded = d.decoded)
    (h6 : ∀ ref ∈ d.decoded, d'.pool ref = d.pool ref) (h7 : StInv F d') : Inv F μ₀ d' where
  muEq := h3.trans h.muEq
  tb := h1.trans h.tb
  big := h.big
  bytes := h.bytes
  r := h2
  mu := h3 ▸ h.mu
  cnt := h4 ▸ h.cnt
  nodup := h5 ▸ h.nodup
  below := by rw [h5, h4]; exact h.below
  ok := by
    rw [h5, h3]; intro ref hr; rw [h6 ref hr]; exact h.ok ref hr
  st := h7

theorem Inv.abort {F : List Nat} {d : Dec} (h : Inv F μ₀ d) : Inv F μ₀ d.prematureAbort :=
  h.of_same rfl h.r rfl rfl rfl (fun _ _ => rfl) rfl

theorem u32_of_lt {x : Nat} (h : x < 2 ^ 32) : u32 x = x := Nat.mod_eq_of_lt h

theorem rank_le (s : DecState) : rank s ≤ 5 := by cases s <;> decide

/-- One state transition that only looks at the bytes `p` at the read position: the same result for
every buffer that continues with these bytes, and what holds afterwards. -/
def Good (F : List Nat) (μ₀ : Nat) (d : Dec) (p : List Nat) (f : List Nat → Dec → Res Dec) : Prop :=
  ∃ d', (∀ buf q, buf.drop d.r = p ++ q → (d.st = .headerType → 0 < buf.length) →
      f buf d = .ok d') ∧ Inv F μ₀ d' ∧
    d.r ≤ d'.r ∧ d'.r ≤ d.r + p.length ∧ d'.meas < d.meas ∧ d'.st ≠ .done

theorem HeaderType.unpack_cons (p0 : Nat) (rest : List Nat) :
    HeaderType.unpack (p0 :: rest) = HeaderType.unpack [p0] := rfl

theorem good_headerType {F : List Nat} {d : Dec} {p q : List Nat} (hi : Inv F μ₀ d)
    (hs : d.st = .headerType) (hp : F.drop d.r = p ++ q) (hn : d.n ≤ p.length) :
    Good F μ₀ d p stepHeaderType := by
  have hst := hi.st
  simp only [StInv, hs] at hst
  obtain ⟨hr, hn1, -⟩ := hst
  match p, hn1 ▸ hn with
  | p0 :: ps, _ =>
    have hb : p0 < 256 := hi.bytes p0 (List.mem_of_mem_drop (hp ▸ by simp : p0 ∈ F.drop d.r))
    have hlen : 0 < F.length := by
      by_contra h0
      rw [List.drop_of_length_le (by omega)] at hp; simp at hp
    have hu : ∃ h b, HeaderType.unpack [p0] = .ok (h, b) := ⟨_, _, rfl⟩
    obtain ⟨h, b, hu⟩ := hu
    have htb := hi.tb
    cases b with
    | false =>
      refine ⟨d.prematureAbort, ?_, hi.abort, Nat.le_refl _, by simp [prematureAbort], ?_⟩
      · intro buf q' hb' h0
        replace h0 := h0 hs
        rw [stepHeaderType, hb', List.cons_append, HeaderType.unpack_cons, hu]
        simp [hr, h0]
      · simp [meas, prematureAbort, rank, hs]
    | true =>
      obtain ⟨-, -, ⟨t, hte, htt⟩, -⟩ := C03_header_type_sound p0 [] hb h hu
      refine ⟨{ d with mht := some h, r := 1, st := .commonHeader, mch := some ⟨t, none⟩, n := t.mchSize }, ?_, ?_, ?_, ?_, ?_⟩
      · intro buf q' hb' h0
        replace h0 := h0 hs
        rw [stepHeaderType, hb', List.cons_append, HeaderType.unpack_cons, hu]
        simp only [hr, h0, decide_true, Res.assert_true, Res.ok_bind, Bool.not_true, Bool.false_eq_true,
          if_false, hn1, htt, Res.pure_eq]
        rw [show u32 (0 + 1) = 1 by decide]
        cases t <;> rfl
      · exact hi.of_same rfl (by simp [htb]; omega) rfl rfl rfl (fun _ _ => rfl) ⟨t, hte, rfl, rfl⟩
      · simp [hr]
      · simp [hr]
      · exact ⟨by simp only [meas, rank, hs, hr, htb]; omega, by simp⟩

theorem Mch.unpack_append (t : HType) (p q : List Nat) (ht : t ≠ .escape)
    (hp : t.mchSize ≤ p.length) : Mch.unpack t (p ++ q) = Mch.unpack t p := by
  cases t with
  | data =>
    match p, hp with
    | a :: b :: l, _ => rfl
  | beacon =>
    match p, hp with
    | a :: b :: c :: d :: e :: f :: g :: l, _ =>
      simp only [Mch.unpack, List.cons_append, b2lUpper3, List.drop_succ_cons, List.drop_zero, b2lLower4]
  | unicast =>
    match p, hp with
    | a :: b :: c :: d :: e :: f :: g :: h :: i :: j :: l, _ =>
      simp only [Mch.unpack, List.cons_append, rd_zero, rd_succ, List.drop_succ_cons, List.drop_zero,
        b2lLower4]
  | rdBroadcasting =>
    match p, hp with
    | a :: b :: c :: d :: e :: f :: l, _ =>
      simp only [Mch.unpack, List.cons_append, rd_zero, rd_succ, List.drop_succ_cons, List.drop_zero,
        b2lLower4]
  | empty => rfl
  | escape => exact absurd rfl ht

theorem good_commonHeader {F : List Nat} {d : Dec} {p q : List Nat} (hi : Inv F μ₀ d)
    (hs : d.st = .commonHeader) (hp : F.drop d.r = p ++ q) (hn : d.n ≤ p.length) :
    Good F μ₀ d p stepCommonHeader := by
  have hst := hi.st
  simp only [StInv, hs] at hst
  obtain ⟨t, hte, hmch, hnt⟩ := hst
  obtain ⟨m, b, hu, -⟩ := C03_mch_total t p hte (hnt ▸ hn)
  have hlen : d.r + p.length ≤ d.tb := by
    have := congrArg List.length hp
    simp at this; have := hi.tb; have := hi.r; omega
  have hbig := hi.big
  have htb := hi.tb
  have hr : u32 (d.r + d.n) = d.r + d.n := u32_of_lt (by omega)
  cases b with
  | false =>
    refine ⟨{ d with mch := none }.prematureAbort, ?_, ?_, Nat.le_refl _,
      by simp [prematureAbort], ?_⟩
    · intro buf q' hb' h0
      rw [stepCommonHeader, hmch]
      simp only [hb', Mch.unpack_append t p q' hte (hnt ▸ hn), hu]
      rfl
    · exact hi.of_same rfl hi.r rfl rfl rfl (fun _ _ => rfl) rfl
    · simp [meas, prematureAbort, rank, hs]
  | true =>
    refine ⟨{ d with mch := some ⟨t, some m⟩, r := d.r + d.n, st := .mux, n := 1 }, ?_, ?_, ?_, ?_, ?_⟩
    · intro buf q' hb' h0
      rw [stepCommonHeader, hmch]
      simp only [hb', Mch.unpack_append t p q' hte (hnt ▸ hn), hu, hr]
      rfl
    · exact hi.of_same rfl (by simp; omega) rfl rfl rfl (fun _ _ => rfl) rfl
    · simp
    · simpa using hn
    · exact ⟨by simp only [meas, rank, hs]; omega, by simp⟩

theorem notMem_cur {F : List Nat} {d : Dec} (hi : Inv F μ₀ d) (k : Kind) : (k, d.cnt k) ∉ d.decoded :=
  fun h => Nat.lt_irrefl _ (hi.below _ h)

theorem good_mux {F : List Nat} {d : Dec} {p q : List Nat} (hi : Inv F μ₀ d)
    (hs : d.st = .mux) (hp : F.drop d.r = p ++ q) (hn : d.n ≤ p.length) :
    Good F μ₀ d p stepMux := by
  have hst := hi.st
  simp only [StInv, hs] at hst
  match p, hst ▸ hn with
  | p0 :: ps, _ =>
    have hb : p0 < 256 := hi.bytes p0 (List.mem_of_mem_drop (hp ▸ by simp : p0 ∈ F.drop d.r))
    have hlen : d.r + 1 ≤ d.tb := by
      have := congrArg List.length hp
      simp at this; have := hi.tb; have := hi.r; omega
    have hbig := hi.big
    have htb := hi.tb
    obtain ⟨hlu, hfacts⟩ := peekOf_facts p0 hb
    have hex : ∀ q', unpackExtIe zero (p0 :: ps ++ q') =
        .ok (peekOf p0, (peekOf p0).tinfo.isSome) := by
      intro q'
      rw [List.cons_append, unpackExtIe_cons]; exact unpackExtIe_all p0 hb
    cases htk : (peekOf p0).tinfo with
    | none =>
      refine ⟨{ d with mmh := peekOf p0 }.prematureAbort, ?_, ?_, Nat.le_refl _,
        by simp [prematureAbort], ?_⟩
      · intro buf q' hb' h0
        rw [stepMux, hb', hex, htk]; rfl
      · exact hi.of_same rfl hi.r rfl rfl rfl (fun _ _ => rfl) rfl
      · simp [meas, prematureAbort, rank, hs]
    | some k =>
      by_cases hkp : k = .padding
      · refine ⟨{ d with mmh := peekOf p0 }.prematureAbort, ?_, ?_, Nat.le_refl _,
          by simp [prematureAbort], ?_⟩
        · intro buf q' hb' h0
          rw [stepMux, hb', hex, htk]
          simp [htk, hkp]
        · exact hi.of_same rfl hi.r rfl rfl rfl (fun _ _ => rfl) rfl
        · simp [meas, prematureAbort, rank, hs]
      by_cases hkc : d.cnt k < poolSize k
      swap
      · refine ⟨{ d with mmh := peekOf p0, cur := none }.prematureAbort, ?_, ?_, Nat.le_refl _,
          by simp [prematureAbort], ?_⟩
        · intro buf q' hb' h0
          rw [stepMux, hb', hex, htk]
          simp [htk, hkp, fromPool, hkc]
        · exact hi.of_same rfl hi.r rfl rfl rfl (fun _ _ => rfl) rfl
        · simp [meas, prematureAbort, rank, hs]
      have hfk := hfacts k htk
      by_cases hkb : k = .clusterBeacon
      · have hc0 : d.cnt .clusterBeacon = 0 := by
          subst hkb; simp only [poolSize] at hkc; omega
        subst hkb
        refine ⟨{ d with
            mmh := peekOf p0, cur := some (.clusterBeacon, 0)
            pool := Function.update d.pool (.clusterBeacon, 0)
              { d.pool (.clusterBeacon, 0) with mmh := peekOf p0 }
            r := d.r + 1, st := .peek, n := 2 }, ?_, ?_, ?_, ?_, ?_⟩
        · intro buf q' hb' h0
          rw [stepMux, hb', hex, htk]
          simp only [Res.ok_bind, Option.isSome_some, Bool.not_true, Bool.false_eq_true, if_false, htk,
            fromPool, if_true, reduceCtorEq, Res.pure_eq, hc0, hst,
            show 0 < poolSize .clusterBeacon by decide,
            u32_of_lt (show d.r + 1 < 2 ^ 32 by omega)]
        · refine hi.of_same rfl (by simp; omega) rfl rfl rfl (fun ref hr => ?_) ?_
          · have : ref ≠ (.clusterBeacon, 0) := by
              rintro rfl
              exact notMem_cur hi .clusterBeacon (hc0 ▸ hr)
            simp [Function.update_of_ne this]
          · refine ⟨rfl, rfl, hc0, ?_⟩
            simp [htk]
        · simp
        · simp
        · exact ⟨by simp only [meas, rank, hs]; omega, by simp⟩
      · have hE : ∃ e, (peekOf p0).ext = some e ∧
            ((k = .userPlaneData ∧ (e = .len8 ∨ e = .len16) ∧ 3 ≤ (peekOf p0).ie ∧ (peekOf p0).ie ≤ 6) ∨
              (k = .powerTarget ∧ e = .noLength) ∨ (k = .timeAnnounce ∧ e = .noLength)) := by
          rcases hfk with h | ⟨h, -⟩ | ⟨h, e⟩ | ⟨h, e⟩ | ⟨h, e, h3, h6⟩
          · exact absurd h hkp
          · exact absurd h hkb
          · exact ⟨_, e, Or.inr (Or.inl ⟨h, rfl⟩)⟩
          · exact ⟨_, e, Or.inr (Or.inr ⟨h, rfl⟩)⟩
          · rcases e with e | e
            · exact ⟨_, e, Or.inl ⟨h, Or.inl rfl, h3, h6⟩⟩
            · exact ⟨_, e, Or.inl ⟨h, Or.inr rfl, h3, h6⟩⟩
        obtain ⟨e, he, hk⟩ := hE
        have hps : (peekOf p0).packedSize = .ok (headerSize e) := by
          unfold packedSize; rw [he]; cases e <;> rfl
        refine ⟨{ d with
            mmh := peekOf p0, cur := some (k, d.cnt k), st := .lengthOrFixed, n := headerSize e },
          ?_, ?_, Nat.le_refl _, by simp, ?_⟩
        · intro buf q' hb' h0
          rw [stepMux, hb', hex, htk]
          simp only [Res.ok_bind, Option.isSome_some, Bool.not_true, Bool.false_eq_true, if_false, htk,
            fromPool, hkc, if_true, reduceCtorEq, Res.pure_eq, hkp, hkb, hps]
        · refine hi.of_same rfl hi.r rfl rfl rfl (fun ref hr => rfl) ?_
          exact ⟨p0, ps ++ q, k, e, by simpa using hp, rfl, he, rfl, htk, hlu, hkc, rfl, hk⟩
        · exact ⟨by simp only [meas, rank, hs]; omega, by simp⟩

theorem good_length {F : List Nat} {d : Dec} {p q : List Nat} (hi : Inv F μ₀ d)
    (hs : d.st = .lengthOrFixed) (hp : F.drop d.r = p ++ q) (hn : d.n ≤ p.length) :
    Good F μ₀ d p stepLength := by
  have hst := hi.st
  simp only [StInv, hs] at hst
  obtain ⟨p0, rest, k, e, hd, hmmh, hext, hne, htk, hlu, hkc, hcur, hk⟩ := hst
  have hbytes : Bytes p := fun b hb => hi.bytes b
    (List.mem_of_mem_drop (hp ▸ List.mem_append_left _ hb : b ∈ F.drop d.r))
  have hlen : d.r + p.length ≤ d.tb := by
    have := congrArg List.length hp
    simp at this; have := hi.tb; have := hi.r; omega
  have hbig := hi.big
  have htb := hi.tb
  have h1 : 1 ≤ d.n := by rw [hne]; cases e <;> simp [headerSize]
  -- the length field
  have hL : ∃ L, (∀ q', d.mmh.unpackLength (p ++ q') = .ok { d.mmh with length := L }) ∧
      ((k = .userPlaneData ∧ L ≤ 65535) ∨ (k = .powerTarget ∧ L = undef32) ∨
        (k = .timeAnnounce ∧ L = undef32)) := by
    rcases hk with ⟨hk, he, -⟩ | ⟨hk, rfl⟩ | ⟨hk, rfl⟩
    · rcases he with rfl | rfl
      · rw [hne] at hn
        match p, hn with
        | a :: b :: l, _ =>
          refine ⟨b, fun q' => ?_, Or.inl ⟨hk, ?_⟩⟩
          · simp [unpackLength, hlu, hext]
          · have := hbytes b (by simp); omega
      · rw [hne] at hn
        match p, hn with
        | a :: b :: c :: l, _ =>
          have := hbytes b (by simp)
          have := hbytes c (by simp)
          refine ⟨b * 256 + c, fun q' => ?_, Or.inl ⟨hk, by omega⟩⟩
          simp only [unpackLength, hlu, hext, List.cons_append, List.drop_succ_cons, List.drop_zero,
            b2lLower2, decide_true, Res.assert_true, Res.ok_bind, Res.pure_eq]
    · exact ⟨undef32, fun q' => by simp [unpackLength, hlu, hext], Or.inr (Or.inl ⟨hk, rfl⟩)⟩
    · exact ⟨undef32, fun q' => by simp [unpackLength, hlu, hext], Or.inr (Or.inr ⟨hk, rfl⟩)⟩
  obtain ⟨L, hL, hLk⟩ := hL
  have hr : u32 (d.r + d.n) = d.r + d.n := u32_of_lt (by omega)
  let o : Obj := { d.pool (k, d.cnt k) with mmh := { d.mmh with length := L } }
  refine ⟨{ d with
      mmh := { d.mmh with length := L }, pool := Function.update d.pool (k, d.cnt k) o, r := d.r + d.n
      st := .unpack, n := if L < undef32 then L else sizeOfSdu o k }, ?_, ?_, ?_, ?_, ?_⟩
  · intro buf q' hb' h0
    rw [stepLength, hb', hL, hcur]
    simp only [Res.ok_bind, Res.pure_eq, hr, o]
  · refine hi.of_same rfl (by simp; omega) rfl rfl rfl (fun ref hr => ?_) ?_
    · have : ref ≠ (k, d.cnt k) := by
        rintro rfl; exact notMem_cur hi k hr
      simp [Function.update_of_ne this]
    · refine ⟨k, hcur, hkc, by simp [o, htk], ?_⟩
      simp only [Function.update_self, o]
      rcases hLk with ⟨hk', hl⟩ | ⟨hk', hl⟩ | ⟨hk', hl⟩
      · rcases hk with ⟨-, -, h3, h6⟩ | ⟨hk, -⟩ | ⟨hk, -⟩
        · have : L < undef32 := by unfold undef32; omega
          simp only [this, if_true]
          exact Or.inl ⟨hk', hl, trivial, h3, h6⟩
        · simp [hk] at hk'
        · simp [hk] at hk'
      · subst hk'; simp [hl, sizeOfSdu, PowerTarget.packedSize]
      · subst hk'; simp [hl, sizeOfSdu, TimeAnnounce.packedSize]
  · simp
  · simpa using hn
  · exact ⟨by simp only [meas, rank, hs]; omega, by simp⟩

theorem good_peek {F : List Nat} {d : Dec} {p q : List Nat} (hi : Inv F μ₀ d)
    (hs : d.st = .peek) (hp : F.drop d.r = p ++ q) (hn : d.n ≤ p.length) :
    Good F μ₀ d p stepPeek := by
  have hst := hi.st
  simp only [StInv, hs] at hst
  obtain ⟨hn2, hcur, hc0, htk⟩ := hst
  match p, hn2 ▸ hn with
  | p0 :: p1 :: ps, _ =>
    have hmem : ∀ b ∈ p0 :: p1 :: ps, b < 256 := fun b hb => hi.bytes b
      (List.mem_of_mem_drop (hp ▸ List.mem_append_left _ hb : b ∈ F.drop d.r))
    have hb2 : Bytes [p0, p1] := by
      intro b hb; apply hmem; simp at hb ⊢; tauto
    obtain ⟨n, hpk, h4, h13, -⟩ := C09_total d.mu [p0, p1] hb2 (by simp)
    have hpk' : ∀ q', ClusterBeacon.peek d.mu (p0 :: p1 :: ps ++ q') = .ok n := fun q' => hpk
    have hmu : (decide (d.mu = 1) || decide (d.mu = 2) || decide (d.mu = 4) || decide (d.mu = 8)) = true := by
      rcases hi.mu with h | h | h | h <;> simp [h]
    refine ⟨{ d with
        pool := Function.update d.pool (.clusterBeacon, 0)
          { d.pool (.clusterBeacon, 0) with mu := d.mu }
        st := .unpack, n := n }, ?_, ?_, Nat.le_refl _, by simp, ?_⟩
    · intro buf q' hb' h0
      simp only [stepPeek, hcur, hmu, Res.assert_true, Res.ok_bind, hb', hpk', Res.pure_eq]
    · refine hi.of_same rfl hi.r rfl rfl rfl (fun ref hr => ?_) ?_
      · have : ref ≠ (.clusterBeacon, 0) := by
          rintro rfl
          exact notMem_cur hi .clusterBeacon (hc0 ▸ hr)
        simp [Function.update_of_ne this]
      · refine ⟨.clusterBeacon, by rw [hc0]; exact hcur, by rw [hc0]; simp [poolSize], ?_, ?_⟩
        · rw [hc0]; simp [htk]
        · rw [hc0]
          exact Or.inr (Or.inl ⟨rfl, by simp, h13, by simp; omega, p0, p1, ps ++ q, by simpa using hp, hpk⟩)
    · exact ⟨by simp only [meas, rank, hs]; omega, by simp⟩

theorem good_unpack {F : List Nat} {d : Dec} {p q : List Nat} (hi : Inv F μ₀ d)
    (hs : d.st = .unpack) (hp : F.drop d.r = p ++ q) (hn : d.n ≤ p.length) :
    Good F μ₀ d p stepUnpack := by
  have hst := hi.st
  simp only [StInv, hs] at hst
  obtain ⟨k, hcur, hkc, htk, hk⟩ := hst
  have hbytes : Bytes p := fun b hb => hi.bytes b
    (List.mem_of_mem_drop (hp ▸ List.mem_append_left _ hb : b ∈ F.drop d.r))
  have hlen : d.r + p.length ≤ d.tb := by
    have := congrArg List.length hp
    simp at this; have := hi.tb; have := hi.r; omega
  have hbig := hi.big
  have htb := hi.tb
  have hr : u32 (d.r + d.n) = d.r + d.n := u32_of_lt (by omega)
  -- the content
  have hC : ∃ c ok, (∀ buf q', buf.drop d.r = p ++ q' →
        unpackContent buf d.r (d.pool (k, d.cnt k)) k = .ok (c, ok)) ∧
      (ok = true → ∃ s, ({ d.pool (k, d.cnt k) with content := c } : Obj).seen F = some s ∧
        SeenOk d.mu s) := by
    rcases hk with ⟨rfl, h1, h2, h3, h4⟩ | ⟨rfl, hmu, h13, h2n, p0, p1, rest, hd, hpk⟩ | ⟨rfl, h1⟩ |
      ⟨rfl, h1⟩
    · refine ⟨.data d.r, true, fun _ _ _ => rfl, fun _ => ?_⟩
      refine ⟨.data (flowId (d.pool (.userPlaneData, d.cnt .userPlaneData)).mmh.ie)
        ((F.drop d.r).take d.n), ?_, ?_⟩
      · simp only [Obj.seen, h2]
        rw [if_pos (by omega)]
      · refine ⟨?_, ?_, ?_, ?_⟩
        · generalize (d.pool (Kind.userPlaneData, d.cnt Kind.userPlaneData)).mmh.ie = ie at h3 h4
          have : ie = 3 ∨ ie = 4 ∨ ie = 5 ∨ ie = 6 := by omega
          rcases this with rfl | rfl | rfl | rfl <;> simp [flowId]
        · generalize (d.pool (Kind.userPlaneData, d.cnt Kind.userPlaneData)).mmh.ie = ie at h3 h4
          have : ie = 3 ∨ ie = 4 ∨ ie = 5 ∨ ie = 6 := by omega
          rcases this with rfl | rfl | rfl | rfl <;> simp [flowId]
        · simp; omega
        · intro b hb
          exact hi.bytes b (List.mem_of_mem_drop (List.mem_of_mem_take hb))
    · have hl : 2 ≤ p.length := by omega
      obtain ⟨n, hpk', -, -, hall⟩ := C09_total d.mu p hbytes hl
      have hnn : n = d.n := by
        match p, hl, hp, hpk' with
        | a :: b :: l, _, hp, hpk' =>
          rw [hd] at hp
          simp only [List.cons_append, List.cons.injEq] at hp
          obtain ⟨rfl, rfl, -⟩ := hp
          have : ClusterBeacon.peek d.mu (p0 :: p1 :: l) = ClusterBeacon.peek d.mu [p0, p1] := rfl
          rw [this, hpk] at hpk'
          simpa using hpk'.symm
      obtain ⟨m, b, hu, -, hok⟩ := hall (hnn ▸ hn)
      refine ⟨.cluster m, b, fun buf q' hb' => ?_, fun h => ⟨.cluster m, rfl, hok.1 h⟩⟩
      simp only [unpackContent, hb', hmu, hu, Res.ok_bind, Res.pure_eq]
    · match p, h1 ▸ hn with
      | a :: l, _ =>
        obtain ⟨b, hu, hok⟩ := C11_power_total a
        refine ⟨.power ⟨a⟩, b, fun buf q' hb' => ?_, fun h => ⟨.power ⟨a⟩, rfl, hok.1 h⟩⟩
        simp only [unpackContent, hb', List.cons_append, hu, Res.ok_bind, Res.pure_eq]
    · obtain ⟨m, b, hu, hok, -⟩ := C11_time_total (p.take 11)
        (fun b hb => hbytes b (List.mem_of_mem_take hb)) (by simp; omega)
      refine ⟨.time m, b, fun buf q' hb' => ?_, fun h => ⟨.time m, rfl, hok.1 h⟩⟩
      have : p ++ q' = p.take 11 ++ (p.drop 11 ++ q') := by
        rw [← List.append_assoc, List.take_append_drop]
      simp only [unpackContent, hb']
      rw [this, hu]
      rfl
  obtain ⟨c, ok, hC, hok⟩ := hC
  let o : Obj := { d.pool (k, d.cnt k) with content := c }
  cases ok with
  | false =>
    refine ⟨{ d with
        pool := Function.update d.pool (k, d.cnt k) o, r := d.r + d.n, st := .checkDone, n := 0 },
      ?_, ?_, ?_, ?_, ?_⟩
    · intro buf q' hb' h0
      simp only [stepUnpack, hcur, hC buf q' hb', Res.ok_bind, Bool.false_eq_true, if_false,
        Res.pure_eq, prepareCheck, hr, o]
    · refine hi.of_same rfl (by simp; omega) rfl rfl rfl (fun ref hr => ?_) rfl
      have : ref ≠ (k, d.cnt k) := by
        rintro rfl; exact notMem_cur hi k hr
      simp [Function.update_of_ne this]
    · simp
    · simpa using hn
    · exact ⟨by simp only [meas, rank, hs]; omega, by simp⟩
  | true =>
    obtain ⟨s, hs1, hs2⟩ := hok rfl
    refine ⟨{ d with
        pool := Function.update d.pool (k, d.cnt k) o
        cnt := Function.update d.cnt k (d.cnt k + 1)
        decoded := d.decoded ++ [(k, d.cnt k)]
        r := d.r + d.n, st := .checkDone, n := 0 }, ?_, ?_, ?_, ?_, ?_⟩
    · intro buf q' hb' h0
      simp only [stepUnpack, hcur, hC buf q' hb', Res.ok_bind, if_true, htk,
        Res.pure_eq, prepareCheck, hr, o]
    · refine ⟨hi.muEq, htb, hbig, hi.bytes, by simp; omega, hi.mu, ?_, ?_, ?_, ?_, rfl⟩
      · intro k'
        by_cases h : k' = k
        · subst h; simp; omega
        · simp [Function.update_of_ne h, hi.cnt]
      · simp only [List.nodup_append, List.nodup_cons, List.not_mem_nil, not_false_eq_true,
          List.nodup_nil, and_self, List.mem_singleton, true_and]
        refine ⟨hi.nodup, ?_⟩
        rintro a ha b rfl rfl
        exact notMem_cur hi k ha
      · intro ref hr
        simp only [List.mem_append, List.mem_singleton] at hr
        rcases hr with hr | rfl
        · have := hi.below ref hr
          by_cases h : ref.1 = k
          · simp only; rw [h, Function.update_self]; rw [h] at this; omega
          · simpa [Function.update_of_ne h] using this
        · simp
      · intro ref hr
        simp only [List.mem_append, List.mem_singleton] at hr
        rcases hr with hr | rfl
        · have : ref ≠ (k, d.cnt k) := by
            rintro rfl; exact notMem_cur hi k hr
          simp only [Function.update_of_ne this]
          exact hi.ok ref hr
        · simp only [Function.update_self]
          exact ⟨s, hs1, hs2⟩
    · simp
    · simpa using hn
    · exact ⟨by simp only [meas, rank, hs]; omega, by simp⟩

end Verif.Mac
