import Verif.Model.ResourceAllocation
import Verif.Props.C10_NetworkBeacon

set_option linter.unusedSimpArgs false

/-!
# C53: resource allocation IE

The IE is packed and received correctly if it releases all resources, or if it names a resource for
both directions and a repetition. The standard also has IEs with one direction and IEs without
repetition. Each of them makes the sender abort, and the receiver as well.
-/

namespace Verif.Mac
open BitByte

/-- Start subslot (one byte up to `mu = 4`, two bytes for `mu = 8`) and length. -/
structure RaAllocOk (mu : Nat) (a : RaAlloc) : Prop where
  start : a.start < 256 ^ foSize mu
  length : a.length ≤ 127

/-- Field ranges (Table 6.4.3.3-1). -/
structure RaOk (mu : Nat) (m : ResourceAllocation) : Prop where
  dl : ∀ a, m.dl = some a → RaAllocOk mu a
  ul : ∀ a, m.ul = some a → RaAllocOk mu a
  shortId : ∀ x, m.shortId = some x → x ≤ 0xffff
  rep : ∀ r, m.rep = some r → 1 ≤ r.repetition ∧ r.repetition ≤ 255 ∧ r.validity ≤ 255
  sfn : ∀ x, m.sfn = some x → x ≤ 255
  channel : ∀ x, m.channel = some x → Channel.Assigned x
  failure : ∀ x, m.failure = some x → 2 ≤ x ∧ x ≤ 11

/-- All scheduled resources are released; other fields play no role. -/
def RaRelease (m : ResourceAllocation) : Prop := m.dl = none ∧ m.ul = none

/-- Both directions and a repetition. -/
def RaComplete (m : ResourceAllocation) : Prop :=
  m.dl.isSome = true ∧ m.ul.isSome = true ∧ m.rep.isSome = true

/-- Values the members can hold. -/
def RaTyped (m : ResourceAllocation) : Prop := ∀ x, m.failure = some x → EnumValL 1 12 x

theorem RaOk.typed {mu : Nat} {m : ResourceAllocation} (h : RaOk mu m) : RaTyped m :=
  fun x hx => Or.inl (by have := h.failure x hx; omega)

theorem RaAlloc.isValid_iff (mu : Nat) (a : RaAlloc) : a.isValid mu = true ↔ RaAllocOk mu a := by
  rw [RaAlloc.isValid, show bitmaskLsb 7 = 127 by decide, Bool.and_eq_true, decide_eq_true_iff,
    decide_eq_true_iff]
  have : (a.start ≤ if mu ≤ 4 then 0xff else 0xffff) ↔ a.start < 256 ^ foSize mu := by
    unfold foSize
    split <;> simp <;> omega
  rw [this]
  exact ⟨fun h => ⟨h.1, h.2⟩, fun h => ⟨h.1, h.2⟩⟩

/-- Every IE that is neither a release nor complete is not found valid: the test aborts, or its
result is false and the caller aborts. -/
theorem ResourceAllocation.isValid_iff {mu : Nat} {m : ResourceAllocation} (ht : RaTyped m) :
    m.isValid mu = .ok true ↔ RaRelease m ∨ (RaComplete m ∧ RaOk mu m) := by
  obtain ⟨dl, ul, add, sid, rep, sfn, ch, f⟩ := m
  have hf : P.all f (enumValidL 1 12) = true ↔ ∀ x, f = some x → 2 ≤ x ∧ x ≤ 11 := by
    rw [P.all_iff]
    refine forall_congr' fun x => forall_congr' fun hx => ?_
    rw [enumValidL_iff (ht x hx) (by omega)]; omega
  have hs : P.all sid (fun x => !decide (0xffff < x)) = true ↔ ∀ x, sid = some x → x ≤ 0xffff := by
    rw [P.all_iff]; simp
  have hn : P.all sfn (fun x => !decide (0xff < x)) = true ↔ ∀ x, sfn = some x → x ≤ 255 := by
    rw [P.all_iff]; simp
  cases dl with
  | none =>
    cases ul with
    | none => simp [isValid, RaRelease]
    | some b => simp [isValid, RaRelease, RaComplete]
  | some a =>
    cases ul with
    | none =>
      simp only [isValid, RaRelease, RaComplete, optValue_some, optValue_none, Res.ok_bind]
      cases a.isValid mu <;> simp
    | some b =>
      cases rep with
      | none =>
        simp only [isValid, RaRelease, RaComplete, optValue_some, optValue_none, Res.ok_bind]
        cases a.isValid mu <;> cases b.isValid mu <;>
          cases P.all sid (fun x => !decide (0xffff < x)) <;> simp
      | some r =>
        have ea := RaAlloc.isValid_iff mu a
        have eb := RaAlloc.isValid_iff mu b
        have er : (decide (0xff < r.repetition) || r.repetition == 0 || decide (0xff < r.validity))
            = false ↔ 1 ≤ r.repetition ∧ r.repetition ≤ 255 ∧ r.validity ≤ 255 := by
          simp; omega
        have key : RaOk mu ⟨some a, some b, add, sid, some r, sfn, ch, f⟩ ↔ RaAllocOk mu a ∧
            RaAllocOk mu b ∧ (∀ x, sid = some x → x ≤ 0xffff) ∧ (1 ≤ r.repetition ∧
            r.repetition ≤ 255 ∧ r.validity ≤ 255) ∧ (∀ x, sfn = some x → x ≤ 255) ∧
            (∀ x, ch = some x → Channel.Assigned x) ∧ ∀ x, f = some x → 2 ≤ x ∧ x ≤ 11 := by
          constructor
          · rintro ⟨h1, h2, h3, h4, h5, h6, h7⟩
            exact ⟨h1 _ rfl, h2 _ rfl, h3, h4 _ rfl, h5, h6, h7⟩
          · rintro ⟨h1, h2, h3, h4, h5, h6, h7⟩
            exact ⟨by rintro _ ⟨⟩; exact h1, by rintro _ ⟨⟩; exact h2, h3,
              by rintro _ ⟨⟩; exact h4, h5, h6, h7⟩
        rw [key, ← ea, ← eb, ← hs, ← er, ← hn, ← allChannel_iff, ← hf]
        simp only [isValid, RaRelease, RaComplete, optValue_some, optValue_none, Res.ok_bind]
        cases a.isValid mu <;> cases b.isValid mu <;>
          cases P.all sid (fun x => !decide (0xffff < x)) <;>
          cases (decide (0xff < r.repetition) || r.repetition == 0 || decide (0xff < r.validity)) <;>
          simp [and_assoc]

/-- The Repeat field (Table 6.4.3.3-1): 0 single, 1 and 2 repeated in frames or subslots, 3 and 4 the
same with the permission to use part of the resource. -/
def raCode : Option RaRepeat → Nat
  | none => 0
  | some r => 1 + r.subslots.toNat + 2 * r.allow.toNat

def raAllocBytes (mu : Nat) (a : RaAlloc) : List Nat :=
  beBytes (foSize mu) a.start ++ [a.slots.toNat * 128 + a.length]

/-- The bytes of the IE. -/
def raBytes (mu : Nat) (m : ResourceAllocation) : List Nat :=
  if m.dl.isNone && m.ul.isNone then [0]
  else
    [m.ul.isSome.toNat * 128 + m.dl.isSome.toNat * 64 + m.additional.toNat * 32 +
        m.shortId.isSome.toNat * 16 + raCode m.rep * 2 + m.sfn.isSome.toNat,
      m.channel.isSome.toNat * 128 + m.failure.isSome.toNat * 64] ++
    (P.wr m.dl (raAllocBytes mu) ++ (P.wr m.ul (raAllocBytes mu) ++ (P.wr m.shortId (beBytes 2) ++
      (P.wr m.rep (fun r => [r.repetition, r.validity]) ++ (P.wr m.sfn (fun x => [x]) ++
        (P.wr m.channel (beBytes 2) ++ P.wr m.failure (fun x => [x])))))))

/-- The size of the IE. -/
def raSize (mu : Nat) (m : ResourceAllocation) : Nat :=
  if m.dl.isNone && m.ul.isNone then 1
  else 2 + m.dl.isSome.toNat * (foSize mu + 1) + m.ul.isSome.toNat * (foSize mu + 1) +
    m.shortId.isSome.toNat * 2 + m.rep.isSome.toNat * 2 + m.sfn.isSome.toNat +
    m.channel.isSome.toNat * 2 + m.failure.isSome.toNat

theorem raBytes_length (mu : Nat) (m : ResourceAllocation) : (raBytes mu m).length = raSize mu m := by
  have hw : ∀ {α : Type} (o : Option α) (f : α → List Nat) (k : Nat), (∀ a, (f a).length = k) →
      (P.wr o f).length = o.isSome.toNat * k := by
    intro α o f k h
    cases o <;> simp [P.wr, h]
  have h1 : ∀ a, (raAllocBytes mu a).length = foSize mu + 1 := by
    intro a; simp [raAllocBytes, beBytes_length]
  unfold raBytes raSize
  split
  · rfl
  · simp only [List.length_append, hw _ _ _ h1, hw _ _ 2 (beBytes_length 2), List.length_cons,
      List.length_nil, hw m.rep (fun r => [r.repetition, r.validity]) 2 (fun _ => rfl),
      hw m.sfn (fun x => [x]) 1 (fun _ => rfl), hw m.failure (fun x => [x]) 1 (fun _ => rfl)]
    omega

theorem raCode_le (r : Option RaRepeat) : raCode r ≤ 4 := by
  cases r with
  | none => decide
  | some r =>
    have := toNat_le r.subslots
    have := toNat_le r.allow
    simp only [raCode]; omega

theorem RaAlloc.pack_eq {mu : Nat} {a : RaAlloc} (h : RaAllocOk mu a) :
    a.pack mu = .ok (raAllocBytes mu a) := by
  have h1 := h.length
  have b1 := toNat_le a.slots
  have e : u8 (u8 (a.slots.toNat <<< 7) ||| a.length) = a.slots.toNat * 128 + a.length := by
    bitsg; omega
  simp only [RaAlloc.pack, l2bLower_eq _ (foSize_le mu), Res.ok_bind, Res.pure_eq, e, raAllocBytes]

theorem raPeek (mu : Nat) (m : ResourceAllocation) (rest : List Nat) :
    ResourceAllocation.peek mu (raBytes mu m ++ rest) = .ok (some (raSize mu m)) := by
  unfold raBytes raSize
  by_cases hr : (m.dl.isNone && m.ul.isNone) = true
  · rw [if_pos hr, if_pos hr]; rfl
  · rw [if_neg hr, if_neg hr]
    have b1 := toNat_le m.additional
    have b2 := toNat_le m.shortId.isSome
    have b3 := toNat_le m.sfn.isSome
    have b4 := toNat_le m.channel.isSome
    have b5 := toNat_le m.failure.isSome
    have b6 := toNat_le m.dl.isSome
    have b7 := toNat_le m.ul.isSome
    have b8 := raCode_le m.rep
    have bits0 : ∀ x : Nat, x = m.ul.isSome.toNat * 128 + m.dl.isSome.toNat * 64 +
        m.additional.toNat * 32 + m.shortId.isSome.toNat * 16 + raCode m.rep * 2 +
        m.sfn.isSome.toNat → x >>> 6 = m.ul.isSome.toNat * 2 + m.dl.isSome.toNat ∧
        (x >>> 4) &&& 1 = m.shortId.isSome.toNat ∧ (x >>> 1) &&& 7 = raCode m.rep ∧
        x &&& 1 = m.sfn.isSome.toNat := by
      rintro x rfl
      refine ⟨?_, ?_, ?_, ?_⟩ <;> bitsg <;> omega
    have bits1 : ∀ x : Nat, x = m.channel.isSome.toNat * 128 + m.failure.isSome.toNat * 64 →
        x >>> 7 = m.channel.isSome.toNat ∧ (x >>> 6) &&& 1 = m.failure.isSome.toNat := by
      rintro x rfl
      refine ⟨?_, ?_⟩ <;> bitsg <;> omega
    obtain ⟨e1, e2, e3, e4⟩ := bits0 _ rfl
    obtain ⟨f1, f2⟩ := bits1 _ rfl
    simp only [ResourceAllocation.peek, List.cons_append, rd_zero, rd_succ, Res.ok_bind, e1, e2, e3,
      e4, f1, f2]
    have hd : m.ul.isSome.toNat * 2 + m.dl.isSome.toNat ≠ 0 := by
      intro hc
      apply hr
      cases hdl : m.dl <;> cases hul : m.ul <;> simp_all
    rw [if_neg hd, if_neg (by omega : ¬ 4 < raCode m.rep)]
    have hrep : (if raCode m.rep = 0 then 0 else 2) = m.rep.isSome.toNat * 2 := by
      cases hm : m.rep with
      | none => rfl
      | some r => simp [raCode]
    have hsid : (if (m.shortId.isSome.toNat != 0) = true then 2 else 0) =
        m.shortId.isSome.toNat * 2 := by
      cases m.shortId <;> rfl
    rw [hrep, hsid]
    simp only [Res.pure_eq, Res.ok.injEq, Option.some.injEq, foSize]
    split_ifs <;> omega

theorem raRepeatCode_some {r : Option RaRepeat} (h : r.isSome = true) :
    raRepeatCode r = .ok (raCode r) := by
  cases r with
  | none => simp at h
  | some r =>
    obtain ⟨a, b, c, d⟩ := r
    cases a <;> cases b <;> rfl

/-- C53 (partial): layout and size of a packed IE, and what the receiver learns from the first two
bytes, for a release and for a complete IE. -/
theorem C53_pack_partial (mu : Nat) (m : ResourceAllocation) (hc : RaRelease m ∨ RaComplete m)
    (h : RaOk mu m) :
    m.pack mu = .ok (raBytes mu m) ∧ (raBytes mu m).length = raSize mu m ∧ Bytes (raBytes mu m) ∧
      ∀ rest, ResourceAllocation.peek mu (raBytes mu m ++ rest) = .ok (some (raSize mu m)) := by
  have hv : m.isValid mu = .ok true := by
    rw [ResourceAllocation.isValid_iff h.typed]
    exact hc.imp id fun hc => ⟨hc, h⟩
  refine ⟨?_, raBytes_length mu m, ?_, raPeek mu m⟩
  · rcases hc with hc | hc
    · obtain ⟨h1, h2⟩ := hc
      simp only [ResourceAllocation.pack, hv, Res.ok_bind, Res.assert_true, h1, h2, raBytes]
      rfl
    · obtain ⟨h1, h2, h3⟩ := hc
      have hnr : (m.dl.isNone && m.ul.isNone) = false := by
        cases hdl : m.dl <;> simp_all
      have hpk := raPeek mu m []
      rw [List.append_nil] at hpk
      have hlen := raBytes_length mu m
      simp only [ResourceAllocation.pack, hv, Res.ok_bind, Res.assert_true,
        raRepeatCode_some h3,
        P.wrM_eq m.dl (RaAlloc.pack mu) (raAllocBytes mu) fun a ha => RaAlloc.pack_eq (h.dl a ha),
        P.wrM_eq m.ul (RaAlloc.pack mu) (raAllocBytes mu) fun a ha => RaAlloc.pack_eq (h.ul a ha),
        P.wrM_eq m.shortId (fun x => l2bLower 4 x 2) (beBytes 2)
          fun x _ => l2bLower_eq _ (by omega)]
      rw [P.wr_congr m.rep _ (fun r => [r.repetition, r.validity]) (by
          intro r hr
          have := h.rep r hr
          simp only [u8, Nat.mod_eq_of_lt (show r.repetition < 256 by omega),
            Nat.mod_eq_of_lt (show r.validity < 256 by omega)]),
        P.wr_congr m.sfn _ (fun x => [x]) (by
          intro x hx
          have := h.sfn x hx
          simp only [u8, Nat.mod_eq_of_lt (show x < 256 by omega)]),
        P.wr_congr m.channel wrChannel (beBytes 2)
          fun x hx => (beBytes_channel (Channel.lt_of_assigned (h.channel x hx))).symm,
        P.wr_congr m.failure _ (fun x => [x]) (by
          intro x hx
          have := h.failure x hx
          simp only [u8, Nat.mod_eq_of_lt (show x < 256 by omega)])]
      have b1 := toNat_le m.additional
      have b2 := toNat_le m.shortId.isSome
      have b3 := toNat_le m.sfn.isSome
      have b4 := toNat_le m.channel.isSome
      have b5 := toNat_le m.failure.isSome
      have b6 := toNat_le m.dl.isSome
      have b7 := toNat_le m.ul.isSome
      have b8 := raCode_le m.rep
      have e0 : u8 (u8 (m.ul.isSome.toNat <<< 7) ||| m.dl.isSome.toNat <<< 6) =
          m.ul.isSome.toNat * 128 + m.dl.isSome.toNat * 64 := by bitsg; omega
      have e1 : u8 (u8 (u8 (u8 (m.ul.isSome.toNat * 128 + m.dl.isSome.toNat * 64 |||
          m.additional.toNat <<< 5) ||| m.shortId.isSome.toNat <<< 4) ||| raCode m.rep <<< 1) |||
          m.sfn.isSome.toNat) = m.ul.isSome.toNat * 128 + m.dl.isSome.toNat * 64 +
          m.additional.toNat * 32 + m.shortId.isSome.toNat * 16 + raCode m.rep * 2 +
          m.sfn.isSome.toNat := by bitsg; omega
      have e2 : u8 (u8 (m.channel.isSome.toNat <<< 7) ||| m.failure.isSome.toNat <<< 6) =
          m.channel.isSome.toNat * 128 + m.failure.isSome.toNat * 64 := by bitsg; omega
      have hne : ¬ (m.ul.isSome.toNat * 128 + m.dl.isSome.toNat * 64 = 0) := by
        rw [h1]; simp
      rw [e0, if_neg hne, e1, e2]
      unfold raBytes at hpk hlen ⊢
      rw [if_neg (by rw [hnr]; simp)] at hpk hlen ⊢
      simp only [Res.ok_bind, hpk, Option.isSome_some, Res.assert_true, hlen, decide_true,
        Res.pure_eq]
  · intro b hb
    unfold raBytes at hb
    split at hb
    · simp at hb; omega
    · have hal : ∀ (o : Option RaAlloc), (∀ a, o = some a → RaAllocOk mu a) →
          b ∈ P.wr o (raAllocBytes mu) → b < 256 := by
        intro o ho hb
        refine P.wr_bytes o _ (fun a ha => ?_) b hb
        intro c hc
        have := (ho a ha).length
        have := toNat_le a.slots
        simp only [raAllocBytes, List.mem_append, List.mem_singleton] at hc
        rcases hc with hc | rfl
        · exact beBytes_bytes _ _ _ hc
        · omega
      have b1 := toNat_le m.additional
      have b2 := toNat_le m.shortId.isSome
      have b3 := toNat_le m.sfn.isSome
      have b4 := toNat_le m.channel.isSome
      have b5 := toNat_le m.failure.isSome
      have b6 := toNat_le m.dl.isSome
      have b7 := toNat_le m.ul.isSome
      have b8 := raCode_le m.rep
      simp only [List.mem_append, List.mem_cons, List.not_mem_nil, or_false] at hb
      rcases hb with (rfl | rfl) | hb | hb | hb | hb | hb | hb | hb
      · omega
      · omega
      · exact hal _ h.dl hb
      · exact hal _ h.ul hb
      · exact P.wr_bytes m.shortId (beBytes 2) (fun x _ => beBytes_bytes 2 x) b hb
      · refine P.wr_bytes m.rep _ (fun r hr => ?_) b hb
        intro c hc
        have := h.rep r hr
        simp at hc; omega
      · refine P.wr_bytes m.sfn _ (fun r hr => ?_) b hb
        intro c hc
        have := h.sfn r hr
        simp at hc; omega
      · exact P.wr_bytes m.channel (beBytes 2) (fun x _ => beBytes_bytes 2 x) b hb
      · refine P.wr_bytes m.failure _ (fun r hr => ?_) b hb
        intro c hc
        have := h.failure r hr
        simp at hc; omega

/-- C53: the sender either emits the IE or aborts, and it emits exactly the releases and the complete
IEs with fields in range. -/
theorem C53_emitted (mu : Nat) (m : ResourceAllocation) (ht : RaTyped m) :
    (m.pack mu).isOk = true ↔ RaRelease m ∨ (RaComplete m ∧ RaOk mu m) := by
  constructor
  · intro h
    rw [← ResourceAllocation.isValid_iff ht]
    unfold ResourceAllocation.pack at h
    cases hv : m.isValid mu with
    | ok v =>
      cases v with
      | true => rfl
      | false => rw [hv] at h; simp [Res.isOk] at h
    | abort => rw [hv] at h; simp [Res.isOk] at h
    | ub => rw [hv] at h; simp [Res.isOk] at h
  · rintro (h | ⟨h1, h2⟩)
    · have hv : m.isValid mu = .ok true := (ResourceAllocation.isValid_iff ht).2 (Or.inl h)
      obtain ⟨h1, h2⟩ := h
      simp only [ResourceAllocation.pack, hv, Res.ok_bind, Res.assert_true, h1, h2]
      rfl
    · rw [(C53_pack_partial mu m (Or.inr h1) h2).1]; rfl

theorem ResourceAllocation.isValid_ne_ub (mu : Nat) (m : ResourceAllocation) :
    m.isValid mu ≠ .ub := by
  obtain ⟨dl, ul, add, sid, rep, sfn, ch, f⟩ := m
  unfold isValid
  cases dl <;> cases ul <;> cases rep <;> simp <;> split_ifs <;> simp

/-- C53: every other IE aborts the sender. -/
theorem C53_abort (mu : Nat) (m : ResourceAllocation) (ht : RaTyped m)
    (h : ¬ (RaRelease m ∨ (RaComplete m ∧ RaOk mu m))) : m.pack mu = .abort := by
  have hv : m.isValid mu ≠ .ok true := by rwa [Ne, ResourceAllocation.isValid_iff ht]
  have hu := ResourceAllocation.isValid_ne_ub mu m
  unfold ResourceAllocation.pack
  cases hv' : m.isValid mu with
  | ok v =>
    cases v with
    | true => exact absurd hv' hv
    | false => rfl
  | abort => rfl
  | ub => exact absurd hv' hu

/-- C53, the code does not meet the claim: an IE that names a resource for one direction only, or has
no repetition, aborts the sender, whatever the fields. -/
theorem C53_finding_sender (mu : Nat) (m : ResourceAllocation) (ht : RaTyped m)
    (h : ¬ RaRelease m) (hi : m.dl = none ∨ m.ul = none ∨ m.rep = none) :
    m.pack mu = .abort := by
  refine C53_abort mu m ht ?_
  rintro (h' | ⟨⟨h1, h2, h3⟩, _⟩)
  · exact h h'
  · rcases hi with e | e | e <;> simp_all

/-! ## Receiving -/

theorem RaAlloc.run_parse {mu : Nat} {a : RaAlloc} (h : RaAllocOk mu a) (o : Nat) (l : List Nat) :
    (RaAlloc.parse mu).run o (raAllocBytes mu a ++ l) =
      .ok (a, o + (raAllocBytes mu a).length, l) := by
  have h2 := h.length
  have key : ∀ (b : Bool), ∀ n < 128, ((b.toNat * 128 + n) >>> 7 != 0) = b ∧
      (b.toNat * 128 + n) &&& bitmaskLsb 7 = n := by decide +kernel
  obtain ⟨k1, k2⟩ := key a.slots a.length (by omega)
  unfold RaAlloc.parse
  rw [raAllocBytes, List.append_assoc]
  refine P.step (P.run_be 4 (foSize mu) _ _ _ (foSize_le mu) h.start) (P.step (P.run_byte _ _ _) ?_)
  rw [P.run_pure, k1, k2]
  simp [beBytes_length, Nat.add_assoc]

theorem ResourceAllocation.parse_run (mu : Nat) (m : ResourceAllocation)
    (hr : (m.dl.isNone && m.ul.isNone) = false) (h : RaOk mu m) (rest : List Nat) :
    (parse mu).run 0 (raBytes mu m ++ rest) = .ok ((m, none), raSize mu m, rest) := by
  have hlen := raBytes_length mu m
  have b8 := raCode_le m.rep
  have ebits : ∀ (u d a s f : Bool), ∀ k < 5,
      let x := u.toNat * 128 + d.toNat * 64 + a.toNat * 32 + s.toNat * 16 + k * 2 + f.toNat
      (x >>> 6 = 0 ↔ d = false ∧ u = false) ∧ (x >>> 6 == 1 || x >>> 6 == 3) = d ∧
      (x >>> 6 == 2 || x >>> 6 == 3) = u ∧
      ((x >>> 5) &&& 1 != 0) = a ∧ ((x >>> 4) &&& 1 != 0) = s ∧ (x >>> 1) &&& 7 = k ∧
      (x &&& 1 != 0) = f := by decide +kernel
  have ebits1 : ∀ (u d : Bool), let x := u.toNat * 128 + d.toNat * 64
      (x >>> 7 != 0) = u ∧ ((x >>> 6) &&& 1 != 0) = d := by decide +kernel
  obtain ⟨e0, e1, e2, e3, e4, e5, e6⟩ := ebits m.ul.isSome m.dl.isSome m.additional
    m.shortId.isSome m.sfn.isSome (raCode m.rep) (by omega)
  obtain ⟨f1, f2⟩ := ebits1 m.channel.isSome m.failure.isSome
  have r1 := fun o l => P.run_opt (RaAlloc.parse mu) (raAllocBytes mu) m.dl o l
    fun a ha => RaAlloc.run_parse (h.dl a ha) o l
  have r2 := fun o l => P.run_opt (RaAlloc.parse mu) (raAllocBytes mu) m.ul o l
    fun a ha => RaAlloc.run_parse (h.ul a ha) o l
  have r3 := fun o l => P.run_opt (P.be 4 2) (beBytes 2) m.shortId o l (by
    intro a ha
    have := h.shortId a ha
    rw [beBytes_length]
    exact P.run_be 4 2 a o l (by omega) (by omega))
  have r4 : ∀ o l, (parseRepeat (raCode m.rep)).run o
      (P.wr m.rep (fun r => [r.repetition, r.validity]) ++ l) =
      .ok (m.rep, o + (P.wr m.rep (fun r => [r.repetition, r.validity])).length, l) := by
    intro o l
    have := P.run_opt (do
      let a ← P.byte
      let b ← P.byte
      pure ⟨raCode m.rep == 2 || raCode m.rep == 4, raCode m.rep == 3 || raCode m.rep == 4, a, b⟩)
      (fun r : RaRepeat => [r.repetition, r.validity]) m.rep o l (by
        intro r hr
        rw [hr]
        obtain ⟨a, b, c, d⟩ := r
        cases a <;> cases b <;> rfl)
    rw [show m.rep.isSome = (raCode m.rep != 0) by
      cases m.rep with
      | none => rfl
      | some r => simp [raCode]] at this
    exact this
  have r5 := fun o l => P.run_opt P.byte (fun x => [x]) m.sfn o l fun a _ => rfl
  have r6 := fun o l => P.run_opt (do
      let x ← P.be 4 2
      pure (x &&& bitmaskLsb 13)) (beBytes 2) m.channel o l (by
    intro a ha
    have := Channel.lt_of_assigned (h.channel a ha)
    rw [beBytes_length]
    refine P.step (P.run_be 4 2 a o l (by omega) (by omega)) ?_
    rw [P.run_pure, and_bitmaskLsb, Nat.mod_eq_of_lt (by omega)])
  have r7 := fun o l => P.run_opt (do
      let x ← P.byte
      pure (enumFromL 1 12 (x &&& 0xf))) (fun x => [x]) m.failure o l (by
    intro a ha
    have := h.failure a ha
    have e : a &&& 15 = a := by rw [and15]; omega
    refine P.step (P.run_byte _ _ _) ?_
    rw [P.run_pure, e, enumFromL_of (by omega) (by omega)]
    rfl)
  rw [← hlen]
  unfold raBytes
  rw [if_neg (by rw [hr]; simp)]
  simp only [List.cons_append, List.nil_append, List.append_assoc, List.length_cons,
    List.length_append]
  unfold parse
  refine P.step (P.run_byte _ _ _) ?_
  rw [if_neg (by
    rw [e0]
    rintro ⟨h1, h2⟩
    rw [Option.isSome_eq_false_iff] at h1 h2
    rw [h1, h2] at hr
    simp at hr)]
  refine P.step (P.run_byte _ _ _) ?_
  rw [e1, e2, e3, e4, e5, e6, f1, f2]
  refine P.step (r1 _ _) (P.step (r2 _ _) (P.step (r3 _ _) ?_))
  rw [if_neg (by omega : ¬ 4 < raCode m.rep)]
  refine P.step (r4 _ _) (P.step (r5 _ _) (P.step (r6 _ _) ?_))
  have r7' := r7
  refine P.step (r7 _ rest) ?_
  rw [P.run_pure]
  congr 3
  omega

/-- C53 (partial): round trip of a complete IE. -/
theorem C53_roundtrip_partial (mu : Nat) (m : ResourceAllocation) (hc : RaComplete m)
    (h : RaOk mu m) (rest : List Nat) :
    ∃ l, m.pack mu = .ok l ∧ ResourceAllocation.unpack mu (l ++ rest) = .ok (m, true) := by
  refine ⟨_, (C53_pack_partial mu m (Or.inr hc) h).1, ?_⟩
  have hv : m.isValid mu = .ok true :=
    (ResourceAllocation.isValid_iff h.typed).2 (Or.inr ⟨hc, h⟩)
  obtain ⟨h1, h2, h3⟩ := hc
  have hnr : (m.dl.isNone && m.ul.isNone) = false := by
    cases hdl : m.dl <;> simp_all
  have hrun := ResourceAllocation.parse_run mu m hnr h rest
  have hsz : m.packedSize mu = .ok (raSize mu m) := by
    simp only [ResourceAllocation.packedSize, hv, Res.ok_bind, Res.assert_true, hnr, h1, h2]
    simp only [raSize, hnr, h1, h2, foSize]
    simp only [Bool.false_eq_true, if_false, Bool.and_self, if_true, Bool.toNat_true, Res.pure_eq,
      Res.ok.injEq]
    split <;> omega
  unfold ResourceAllocation.unpack
  have : (ResourceAllocation.parse mu >>= fun m => P.offset >>= fun o =>
      (pure (m, o) : P ((ResourceAllocation × Option Bool) × Nat))).eval (raBytes mu m ++ rest) =
      .ok ((m, none), raSize mu m) := by
    unfold P.eval
    rw [P.run_bind, hrun]
    rfl
  rw [this, Res.ok_bind]
  simp [hsz, hv]

/-- C53: round trip of a release: the receiver finds a release and no other field. -/
theorem C53_release (mu : Nat) (m : ResourceAllocation) (hc : RaRelease m) (rest : List Nat) :
    ∃ l, m.pack mu = .ok l ∧ ∃ m', ResourceAllocation.unpack mu (l ++ rest) = .ok (m', true) ∧
      RaRelease m' := by
  obtain ⟨h1, h2⟩ := hc
  have hv : m.isValid mu = .ok true := by simp [ResourceAllocation.isValid, h1, h2]
  refine ⟨[0], ?_, .zero, ?_, rfl, rfl⟩
  · simp only [ResourceAllocation.pack, hv, Res.ok_bind, Res.assert_true, h1, h2]
    rfl
  · have : (ResourceAllocation.parse mu >>= fun m => P.offset >>= fun o =>
        (pure (m, o) : P ((ResourceAllocation × Option Bool) × Nat))).eval ([0] ++ rest) =
        .ok ((.zero, some true), 1) := by
      unfold P.eval ResourceAllocation.parse
      rw [List.cons_append, P.run_bind, P.run_bind, P.run_byte, Res.ok_bind]
      rw [if_pos (show (0 : Nat) >>> 6 = 0 by decide)]
      rfl
    unfold ResourceAllocation.unpack
    rw [this]
    rfl

theorem RaAlloc.parse_reads (mu : Nat) :
    P.Reads (RaAlloc.parse mu) (foSize mu + 1) (RaAllocOk mu) := by
  refine P.Reads.congr (k := foSize mu + (1 + 0)) ((P.Reads.be (foSize_le mu)).bind fun s hs =>
    P.Reads.byte.bind fun b hb => P.Reads.pure ⟨hs, ?_⟩) rfl
  show b &&& bitmaskLsb 7 ≤ 127
  rw [and_bitmaskLsb]; omega

theorem RaAlloc.parse_mono (mu : Nat) : P.Mono (RaAlloc.parse mu) := by
  unfold RaAlloc.parse; pmono

theorem ResourceAllocation.parse_mono (mu : Nat) : P.Mono (parse mu) := by
  have := RaAlloc.parse_mono mu
  have : ∀ k, P.Mono (parseRepeat k) := by intro k; unfold parseRepeat; pmono
  unfold parse
  have h1 := this
  repeat' first
    | exact h1 _
    | exact P.Mono.pure _
    | exact P.Mono.byte
    | exact P.Mono.be _ _
    | assumption
    | refine P.Mono.bind ?_ fun _ => ?_
    | refine P.Mono.opt _ ?_
    | refine P.Mono.ite ?_ ?_

/-- C53 (partial): what the receiver does with arbitrary bytes. Two bytes are enough to know the
size, or that the IE is refused. With that many bytes the receiver does not read further. A release
is delivered. Every other IE is delivered if it names both directions and a repetition and the
fields are in range; otherwise the receiver aborts. -/
theorem C53_receive_partial (mu : Nat) (p : List Nat) (hp : Bytes p) (h2 : 2 ≤ p.length) :
    (p[0]! / 64 ≠ 0 ∧ 4 < p[0]! / 2 % 8 ∧ ResourceAllocation.peek mu p = .ok none) ∨
    (p[0]! / 64 = 0 ∧ ResourceAllocation.peek mu p = .ok (some 1) ∧
      ∃ m, RaRelease m ∧ ∀ q, ResourceAllocation.unpack mu (p ++ q) = .ok (m, true)) ∨
    (p[0]! / 64 ≠ 0 ∧ p[0]! / 2 % 8 ≤ 4 ∧
      ∃ n, ResourceAllocation.peek mu p = .ok (some n) ∧ n ≤ 16 ∧
      (n ≤ p.length → ∃ m, RaTyped m ∧ m.dl.isSome = decide (p[0]! / 64 % 2 = 1) ∧
        m.ul.isSome = decide (p[0]! / 128 = 1) ∧
        m.rep.isSome = decide (p[0]! / 2 % 8 ≠ 0) ∧
        (RaComplete m ∧ RaOk mu m → ∀ q, ResourceAllocation.unpack mu (p ++ q) = .ok (m, true)) ∧
        (¬ (RaComplete m ∧ RaOk mu m) →
          ∀ q, ResourceAllocation.unpack mu (p ++ q) = .abort))) := by
  match p, h2 with
  | b0 :: b1 :: l, _ =>
    have hb0 : b0 < 256 := hp b0 (by simp)
    have hb1 : b1 < 256 := hp b1 (by simp)
    have hl : Bytes l := fun b hb => hp b (by simp [hb])
    simp only [List.getElem!_cons_zero]
    have e1 : b0 >>> 6 = b0 / 64 := by bitsg
    have e2 : (b0 >>> 4) &&& 1 = b0 / 16 % 2 := by bitsg
    have e3 : (b0 >>> 1) &&& 7 = b0 / 2 % 8 := by bitsg
    have e4 : b0 &&& 1 = b0 % 2 := by bitsg
    have e5 : b1 >>> 7 = b1 / 128 := by bitsg
    have e6 : (b1 >>> 6) &&& 1 = b1 / 64 % 2 := by bitsg
    have hbit : ∀ x : Nat, x < 2 → (x != 0).toNat = x := by
      intro x hx
      have : x = 0 ∨ x = 1 := by omega
      rcases this with h | h <;> rw [h] <;> rfl
    simp only [ResourceAllocation.peek, rd_zero, rd_succ, Res.ok_bind, e1, e2, e3, e4, e5, e6]
    by_cases hz : b0 / 64 = 0
    · right; left
      refine ⟨hz, by rw [if_pos hz]; rfl, .zero, ⟨rfl, rfl⟩, fun q => ?_⟩
      have : (ResourceAllocation.parse mu >>= fun m => P.offset >>= fun o =>
          (pure (m, o) : P ((ResourceAllocation × Option Bool) × Nat))).eval
            (b0 :: b1 :: l ++ q) = .ok ((.zero, some true), 1) := by
        unfold P.eval ResourceAllocation.parse
        rw [List.cons_append, P.run_bind, P.run_bind, P.run_byte, Res.ok_bind]
        simp only [e1]
        rw [if_pos hz]
        rfl
      unfold ResourceAllocation.unpack
      rw [this]
      rfl
    · by_cases hk : 4 < b0 / 2 % 8
      · left
        exact ⟨hz, hk, by rw [if_neg hz, if_pos hk]; rfl⟩
      · right; right
        have hd : ((b0 / 64 == 1 || b0 / 64 == 3) : Bool) = decide (b0 / 64 % 2 = 1) := by
          have : b0 / 64 = 1 ∨ b0 / 64 = 2 ∨ b0 / 64 = 3 := by omega
          rcases this with h | h | h <;> rw [h] <;> rfl
        have hu : ((b0 / 64 == 2 || b0 / 64 == 3) : Bool) = decide (b0 / 128 = 1) := by
          have : (b0 / 64 = 1 ∧ b0 / 128 = 0) ∨ (b0 / 64 = 2 ∧ b0 / 128 = 1) ∨
            (b0 / 64 = 3 ∧ b0 / 128 = 1) := by omega
          rcases this with h | h | h <;> rw [h.1, h.2] <;> rfl
        refine ⟨hz, by omega, 2 + (b0 / 64 % 2) * (foSize mu + 1) + (b0 / 128) * (foSize mu + 1) +
          b0 / 16 % 2 * 2 + (b0 / 2 % 8 != 0).toNat * 2 + b0 % 2 + b1 / 128 * 2 + b1 / 64 % 2,
          ?_, ?_, fun hn => ?_⟩
        · rw [if_neg hz, if_neg hk]
          have hrep : (if b0 / 2 % 8 = 0 then 0 else 2) = (b0 / 2 % 8 != 0).toNat * 2 := by
            by_cases h : b0 / 2 % 8 = 0 <;> simp [h]
          have hsid : (if (b0 / 16 % 2 != 0) = true then 2 else 0) = b0 / 16 % 2 * 2 := by
            have : b0 / 16 % 2 = 0 ∨ b0 / 16 % 2 = 1 := by omega
            rcases this with h | h <;> rw [h] <;> rfl
          rw [hrep, hsid]
          simp only [Res.pure_eq, Res.ok.injEq, Option.some.injEq, foSize]
          have : (b0 / 64 = 1 ∧ b0 / 128 = 0 ∧ b0 / 64 % 2 = 1) ∨
            (b0 / 64 = 2 ∧ b0 / 128 = 1 ∧ b0 / 64 % 2 = 0) ∨
            (b0 / 64 = 3 ∧ b0 / 128 = 1 ∧ b0 / 64 % 2 = 1) := by omega
          rcases this with ⟨h1, h2, h3⟩ | ⟨h1, h2, h3⟩ | ⟨h1, h2, h3⟩ <;> rw [h3, h1, h2] <;>
            by_cases hm : mu ≤ 4 <;> simp [hm]
        · have := toNat_le (b0 / 2 % 8 != 0)
          have : b0 / 64 % 2 ≤ 1 := by omega
          have : b0 / 128 ≤ 1 := by omega
          have hfs : foSize mu ≤ 2 := by unfold foSize; split <;> omega
          have q1 : (b0 / 64 % 2) * (foSize mu + 1) ≤ 1 * 3 := Nat.mul_le_mul (by omega) (by omega)
          have q2 : (b0 / 128) * (foSize mu + 1) ≤ 1 * 3 := Nat.mul_le_mul (by omega) (by omega)
          omega
        · set N := l.length + 2 with hN
          have hdn : (decide (b0 / 64 % 2 = 1)).toNat = b0 / 64 % 2 := by
            have : b0 / 64 % 2 = 0 ∨ b0 / 64 % 2 = 1 := by omega
            rcases this with h | h <;> rw [h] <;> rfl
          have hun : (decide (b0 / 128 = 1)).toNat = b0 / 128 := by
            have : b0 / 128 = 0 ∨ b0 / 128 = 1 := by omega
            rcases this with h | h <;> rw [h] <;> rfl
          simp only [List.length_cons] at hn
          generalize hD : (b0 / 64 % 2) * (foSize mu + 1) = D at hn
          generalize hU : (b0 / 128) * (foSize mu + 1) = U at hn
          have hrun : ∃ x o l', (ResourceAllocation.parse mu).run 0 (b0 :: b1 :: l) =
              .ok (x, o, l') ∧ (x.2 = none ∧ RaTyped x.1 ∧
              x.1.dl.isSome = decide (b0 / 64 % 2 = 1) ∧ x.1.ul.isSome = decide (b0 / 128 = 1) ∧
              x.1.rep.isSome = decide (b0 / 2 % 8 ≠ 0) ∧ o = 2 + D + U +
              x.1.shortId.isSome.toNat * 2 + x.1.rep.isSome.toNat * 2 + x.1.sfn.isSome.toNat +
              x.1.channel.isSome.toNat * 2 + x.1.failure.isSome.toNat) := by
            unfold ResourceAllocation.parse
            refine P.run_step (P.run_byte _ _ _) ?_
            simp only [e1, e2, e3, e4, e5, e6]
            rw [if_neg hz]
            refine P.run_step (P.run_byte _ _ _) ?_
            simp only [e5, e6]
            rw [hd, hu]
            refine P.WP.run (N := N) ?_ hl (by omega)
            refine .bind (.opt (RaAlloc.parse_reads mu) (by rw [hdn, hD]; omega) fun dl x1 y1 => ?_)
            rw [hdn, hD]
            refine .bind (.opt (RaAlloc.parse_reads mu) (by rw [hun, hU]; omega) fun ul x2 y2 => ?_)
            rw [hun, hU]
            refine .bind (.opt (P.Reads.be (by omega)) (by rw [hbit (b0 / 16 % 2) (by omega)]; omega)
              fun sid x3 y3 => ?_)
            rw [hbit (b0 / 16 % 2) (by omega)]
            rw [if_neg hk]
            refine .bind ?_
            unfold ResourceAllocation.parseRepeat
            refine .opt (k := 2) (R := fun _ => True) ?_ (by omega) fun rep x4 y4 => ?_
            · exact P.Reads.congr (k := 1 + (1 + 0)) (P.Reads.byte.bind fun _ _ =>
                P.Reads.byte.bind fun _ _ => P.Reads.pure trivial) rfl
            refine .bind (.opt P.Reads.byte (by rw [hbit (b0 % 2) (by omega)]; omega) fun sfn x5 y5 => ?_)
            rw [hbit (b0 % 2) (by omega)]
            refine .bind (.opt (k := 2) (R := fun _ => True) ?_ (by rw [hbit (b1 / 128) (by omega)]; omega)
              fun ch x6 y6 => ?_)
            · exact P.Reads.congr (k := 2 + 0) ((P.Reads.be (by omega)).bind fun _ _ =>
                P.Reads.pure trivial) rfl
            rw [hbit (b1 / 128) (by omega)]
            refine .bind (.opt (k := 1) (R := fun x => EnumValL 1 12 x) ?_
              (by rw [hbit (b1 / 64 % 2) (by omega)]; omega) fun f x7 y7 => ?_)
            · exact P.Reads.congr (k := 1 + 0) (P.Reads.byte.bind fun _ _ =>
                P.Reads.pure (enumValL_from _ _ _)) rfl
            rw [hbit (b1 / 64 % 2) (by omega)]
            refine .pure ⟨rfl, y7, x1, x2, ?_, ?_⟩
            · rw [x4]; by_cases h : b0 / 2 % 8 = 0 <;> simp [h]
            · simp only [x3, x4, x5, x6, x7, hbit _ (show b0 / 16 % 2 < 2 by omega),
                hbit _ (show b0 % 2 < 2 by omega), hbit _ (show b1 / 128 < 2 by omega),
                hbit _ (show b1 / 64 % 2 < 2 by omega)]
              omega
          obtain ⟨⟨m, ret⟩, o, l', e, hret, ht, hdl, hul, hrep, ho⟩ := hrun
          dsimp only at hret ht hdl hul hrep ho
          subst hret
          have heval : ∀ q, (ResourceAllocation.parse mu >>= fun m => P.offset >>= fun o =>
              (pure (m, o) : P ((ResourceAllocation × Option Bool) × Nat))).eval
                (b0 :: b1 :: l ++ q) = .ok ((m, none), o) := by
            intro q
            have hm : P.Mono (ResourceAllocation.parse mu >>= fun m => P.offset >>= fun o =>
                (pure (m, o) : P ((ResourceAllocation × Option Bool) × Nat))) := by
              have := ResourceAllocation.parse_mono mu
              pmono
            exact hm.eval_of_run (P.step e (P.step (P.run_offset _ _) (P.run_pure _ _ _))) q
          have hnr : ¬ RaRelease m := by
            rintro ⟨r1, r2⟩
            rw [r1] at hdl
            rw [r2] at hul
            simp at hdl hul
            omega
          refine ⟨m, ht, hdl, hul, hrep, ?_, ?_⟩
          · rintro ⟨hc, hok⟩ q
            have hv : m.isValid mu = .ok true :=
              (ResourceAllocation.isValid_iff ht).2 (Or.inr ⟨hc, hok⟩)
            obtain ⟨c1, c2, c3⟩ := hc
            have hnn : (m.dl.isNone && m.ul.isNone) = false := by
              cases hdl' : m.dl <;> simp_all
            rw [c1, eq_comm, decide_eq_true_iff] at hdl
            rw [c2, eq_comm, decide_eq_true_iff] at hul
            rw [hdl] at hD
            rw [hul] at hU
            have hsz : m.packedSize mu = .ok o := by
              simp only [ResourceAllocation.packedSize, hv, Res.ok_bind, Res.assert_true, hnn, c1, c2]
              simp only [Bool.false_eq_true, if_false, Bool.and_self, if_true, Res.pure_eq,
                Res.ok.injEq]
              rw [ho, ← hD, ← hU, foSize, c3]
              split <;> omega
            unfold ResourceAllocation.unpack
            rw [heval, Res.ok_bind]
            simp [hsz, hv]
          · intro hn' q
            have hv : m.isValid mu ≠ .ok true := by
              rw [Ne, ResourceAllocation.isValid_iff ht]
              rintro (h' | h')
              · exact hnr h'
              · exact hn' h'
            have hub := ResourceAllocation.isValid_ne_ub mu m
            unfold ResourceAllocation.unpack
            rw [heval, Res.ok_bind]
            simp only [ResourceAllocation.packedSize]
            cases hv' : m.isValid mu with
            | ok v =>
              cases v with
              | true => exact absurd hv' hv
              | false => rfl
            | abort => rfl
            | ub => exact absurd hv' hub

/-- C53: the IE the FT fills in for both directions is emitted and received as filled in, for every
short RD ID and whatever was in the IE before. -/
theorem C53_firmware (mu : Nat) (m : ResourceAllocation) (srdid : Nat) (h : srdid ≤ 0xffff)
    (rest : List Nat) :
    ∃ l, (m.translate true true srdid).pack mu = .ok l ∧
      ResourceAllocation.unpack mu (l ++ rest) = .ok (m.translate true true srdid, true) := by
  have hp : 255 < 256 ^ foSize mu := by unfold foSize; split <;> decide
  refine C53_roundtrip_partial mu _ ⟨rfl, rfl, rfl⟩ ?_ rest
  refine ⟨?_, ?_, ?_, ?_, ?_, ?_, ?_⟩
  · rintro _ ⟨⟩; exact ⟨by show 1 < _; omega, by decide⟩
  · rintro _ ⟨⟩; exact ⟨by show 1 < _; omega, by decide⟩
  · rintro _ ⟨⟩; exact h
  · rintro _ ⟨⟩; decide
  · rintro _ ⟨⟩
  · rintro _ ⟨⟩
  · rintro _ ⟨⟩

/-- C53: filling in one direction of a fresh IE aborts the sender. -/
theorem C53_finding_firmware (mu srdid : Nat) :
    (ResourceAllocation.zero.translate true false srdid).pack mu = .abort ∧
    (ResourceAllocation.zero.translate false true srdid).pack mu = .abort := by
  constructor <;> refine C53_finding_sender mu _ ?_ ?_ ?_ <;>
    simp [ResourceAllocation.translate, ResourceAllocation.zero, RaRelease, RaTyped]

/-- A complete IE: one subslot in each direction, every second frame. -/
def sampleRa : ResourceAllocation :=
  ⟨some ⟨10, false, 1⟩, some ⟨200, true, 127⟩, true, some 0xABCD, some ⟨true, true, 2, 255⟩, some 7,
    some 1657, some 11⟩

/-- Hypotheses of `C53_roundtrip_partial` can be met. -/
theorem sampleRa_ok : RaComplete sampleRa ∧ RaOk 1 sampleRa := by
  refine ⟨⟨rfl, rfl, rfl⟩, ?_, ?_, ?_, ?_, ?_, ?_, ?_⟩
  · rintro _ ⟨⟩; exact ⟨by decide, by decide⟩
  · rintro _ ⟨⟩; exact ⟨by decide, by decide⟩
  · rintro _ ⟨⟩; decide
  · rintro _ ⟨⟩; decide
  · rintro _ ⟨⟩; decide
  · rintro _ ⟨⟩; simp [Channel.Assigned]
  · rintro _ ⟨⟩; decide

theorem C53_example : sampleRa.pack 1 =
    .ok [249, 192, 10, 1, 200, 255, 171, 205, 2, 255, 7, 6, 121, 11] := by decide +kernel

/-- C53, negation: an IE that grants one uplink resource, with every field in range, aborts the
sender. -/
theorem C53_negation : ∃ m, RaOk 1 m ∧ m.ul = some ⟨10, false, 1⟩ ∧ m.pack 1 = .abort := by
  refine ⟨⟨none, some ⟨10, false, 1⟩, false, none, none, none, none, none⟩, ?_, rfl, by
    decide +kernel⟩
  refine ⟨?_, ?_, ?_, ?_, ?_, ?_, ?_⟩
  · rintro _ ⟨⟩
  · rintro _ ⟨⟩; exact ⟨by decide, by decide⟩
  · rintro _ ⟨⟩
  · rintro _ ⟨⟩
  · rintro _ ⟨⟩
  · rintro _ ⟨⟩
  · rintro _ ⟨⟩

/-- C53: four received bytes of the right size that abort the receiver. -/
theorem C53_finding_receiver : ResourceAllocation.peek 1 [64, 0, 10, 1] = .ok (some 4) ∧
    ResourceAllocation.unpack 1 [64, 0, 10, 1] = .abort := by decide +kernel

end Verif.Mac
