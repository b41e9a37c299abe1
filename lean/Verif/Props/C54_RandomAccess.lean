import Verif.Model.RandomAccess
import Verif.Props.C53_ResourceAllocation

set_option linter.unusedSimpArgs false

/-!
# C54: random access resource IE

The size found by peeking is too large if the IE has an SFN offset or a channel, and the validity
test aborts without a repetition. What remains works: IEs with a repetition, without SFN offset and
channel.
-/

namespace Verif.Mac
open BitByte

/-- Field ranges (Table 6.4.3.4-1). -/
structure RachOk (mu : Nat) (m : RandomAccess) : Prop where
  rep : ∀ r, m.rep = some r → 1 ≤ r.repetition ∧ r.repetition ≤ 255 ∧ r.validity ≤ 255
  sfn : ∀ x, m.sfn = some x → x ≤ 255
  channel : ∀ x, m.channel = some x → Channel.Assigned x
  channel2 : ∀ x, m.channel2 = some x → Channel.Assigned x
  alloc : RaAllocOk mu m.alloc
  maxLen : m.maxLen ≤ 15
  cwMin : m.cwMin ≤ 7
  window : m.window ≤ 15
  cwMax : m.cwMax ≤ 7

/-- Values the members can hold. -/
def RachTyped (m : RandomAccess) : Prop := EnumVal 8 m.cwMin ∧ EnumVal 8 m.cwMax

theorem RachOk.typed {mu : Nat} {m : RandomAccess} (h : RachOk mu m) : RachTyped m :=
  ⟨Or.inl (by have := h.cwMin; omega), Or.inl (by have := h.cwMax; omega)⟩

theorem RandomAccess.isValid_iff {mu : Nat} {m : RandomAccess} (ht : RachTyped m) :
    m.isValid mu = .ok true ↔ m.rep.isSome = true ∧ RachOk mu m := by
  obtain ⟨rep, sfn, ch, ch2, alloc, ms, ml, cmin, dl, w, cmax⟩ := m
  cases rep with
  | none => simp [isValid]
  | some r =>
    have hn : P.all sfn (fun x => !decide (0xff < x)) = true ↔ ∀ x, sfn = some x → x ≤ 255 := by
      rw [P.all_iff]; simp
    have er : (decide (0xff < r.repetition) || r.repetition == 0 || decide (0xff < r.validity))
        = false ↔ 1 ≤ r.repetition ∧ r.repetition ≤ 255 ∧ r.validity ≤ 255 := by
      simp; omega
    have ea : (!(decide ((if mu ≤ 4 then 0xff else 0xffff) < alloc.start) ||
        decide (bitmaskLsb 7 < alloc.length))) = true ↔ RaAllocOk mu alloc := by
      rw [← RaAlloc.isValid_iff, RaAlloc.isValid]
      simp
    have eb : (!(decide (0xf < ml) || !enumValid 8 cmin || decide (0xf < w) ||
        !enumValid 8 cmax)) = true ↔ ml ≤ 15 ∧ cmin ≤ 7 ∧ w ≤ 15 ∧ cmax ≤ 7 := by
      simp only [Bool.not_or, Bool.and_eq_true, Bool.not_not, Bool.not_eq_true',
        decide_eq_false_iff_not, enumValid_iff ht.1 (by omega : 8 ≤ 1000),
        enumValid_iff ht.2 (by omega : 8 ≤ 1000)]
      omega
    have key : RachOk mu ⟨some r, sfn, ch, ch2, alloc, ms, ml, cmin, dl, w, cmax⟩ ↔
        (1 ≤ r.repetition ∧ r.repetition ≤ 255 ∧ r.validity ≤ 255) ∧
        (∀ x, sfn = some x → x ≤ 255) ∧ (∀ x, ch = some x → Channel.Assigned x) ∧
        (∀ x, ch2 = some x → Channel.Assigned x) ∧ RaAllocOk mu alloc ∧
        (ml ≤ 15 ∧ cmin ≤ 7 ∧ w ≤ 15 ∧ cmax ≤ 7) := by
      constructor
      · rintro ⟨h1, h2, h3, h4, h5, h6, h7, h8, h9⟩
        exact ⟨h1 _ rfl, h2, h3, h4, h5, h6, h7, h8, h9⟩
      · rintro ⟨h1, h2, h3, h4, h5, h6, h7, h8, h9⟩
        exact ⟨by rintro _ ⟨⟩; exact h1, h2, h3, h4, h5, h6, h7, h8, h9⟩
    rw [key, ← er, ← hn, ← allChannel_iff, ← allChannel_iff, ← ea, ← eb]
    simp only [isValid, optValue_some, Res.ok_bind]
    cases (decide (0xff < r.repetition) || r.repetition == 0 || decide (0xff < r.validity)) <;>
      simp [and_assoc]

theorem RandomAccess.isValid_ne_ub (mu : Nat) (m : RandomAccess) : m.isValid mu ≠ .ub := by
  obtain ⟨rep, sfn, ch, ch2, alloc, ms, ml, cmin, dl, w, cmax⟩ := m
  unfold isValid
  cases rep <;> simp <;> split_ifs <;> simp

/-- The Repeat field. -/
def rachCode : Option RachRepeat → Nat
  | none => 0
  | some r => 1 + r.subslots.toNat

/-- The bytes of the IE. -/
def rachBytes (mu : Nat) (m : RandomAccess) : List Nat :=
  [rachCode m.rep * 8 + m.sfn.isSome.toNat * 4 + m.channel.isSome.toNat * 2 +
    m.channel2.isSome.toNat] ++ (beBytes (foSize mu) m.alloc.start ++
  ([m.alloc.slots.toNat * 128 + m.alloc.length, m.maxSlots.toNat * 128 + m.maxLen * 8 + m.cwMin,
    m.delay.toNat * 128 + m.window * 8 + m.cwMax] ++
  (P.wr m.rep (fun r => [r.repetition, r.validity]) ++ (P.wr m.sfn (fun x => [x]) ++
    (P.wr m.channel (beBytes 2) ++ P.wr m.channel2 (beBytes 2))))))

/-- The size of the IE. -/
def rachSize (mu : Nat) (m : RandomAccess) : Nat :=
  4 + foSize mu + m.rep.isSome.toNat * 2 + m.sfn.isSome.toNat + m.channel.isSome.toNat * 2 +
    m.channel2.isSome.toNat * 2

theorem wr_length {α : Type} (o : Option α) (f : α → List Nat) (k : Nat)
    (h : ∀ a, (f a).length = k) : (P.wr o f).length = o.isSome.toNat * k := by
  cases o <;> simp [P.wr, h]

theorem rachBytes_length (mu : Nat) (m : RandomAccess) :
    (rachBytes mu m).length = rachSize mu m := by
  simp only [rachBytes, rachSize, List.length_append, wr_length _ _ 2 (beBytes_length 2),
    beBytes_length, List.length_cons, List.length_nil,
    wr_length m.rep (fun r => [r.repetition, r.validity]) 2 (fun _ => rfl),
    wr_length m.sfn (fun x => [x]) 1 (fun _ => rfl)]
  omega

theorem rachCode_le (r : Option RachRepeat) : rachCode r ≤ 2 := by
  cases r with
  | none => decide
  | some r =>
    have := toNat_le r.subslots
    simp only [rachCode]; omega

/-- C54, the code does not meet the claim: the size the receiver finds by peeking is three bytes too
large with an SFN offset, and two bytes too large with a channel. -/
theorem C54_finding_peek (mu : Nat) (m : RandomAccess) (rest : List Nat) :
    RandomAccess.peek mu (rachBytes mu m ++ rest) =
      .ok (some (rachSize mu m + 3 * m.sfn.isSome.toNat + 2 * m.channel.isSome.toNat)) := by
  have b1 := toNat_le m.sfn.isSome
  have b2 := toNat_le m.channel.isSome
  have b3 := toNat_le m.channel2.isSome
  have b4 := rachCode_le m.rep
  have bits : ∀ (a b c : Bool), ∀ k < 3,
      let x := k * 8 + a.toNat * 4 + b.toNat * 2 + c.toNat
      (x >>> 3) &&& 3 = k ∧ x &&& 4 = a.toNat * 4 ∧ x &&& 2 = b.toNat * 2 ∧ x &&& 1 = c.toNat := by
    decide +kernel
  obtain ⟨e1, e2, e3, e4⟩ := bits m.sfn.isSome m.channel.isSome m.channel2.isSome (rachCode m.rep)
    (by omega)
  simp only [RandomAccess.peek, rachBytes, List.cons_append, rd_zero, Res.ok_bind, e1, e2, e3, e4]
  rw [if_neg (by omega)]
  have hrep : (if rachCode m.rep = 0 then 0 else 2) = m.rep.isSome.toNat * 2 := by
    cases hm : m.rep with
    | none => rfl
    | some r => simp [rachCode]
  rw [hrep]
  simp only [Res.pure_eq, Res.ok.injEq, Option.some.injEq, rachSize, foSize]
  split <;> omega

/-- The bytes written before the final check of `pack`. -/
theorem RandomAccess.pack_eq (mu : Nat) (m : RandomAccess) (hr : m.rep.isSome = true)
    (h : RachOk mu m) : m.pack mu = (RandomAccess.peek mu (rachBytes mu m) >>= fun n =>
      Res.assert n.isSome >>= fun _ => Res.assert (decide (n = some (rachBytes mu m).length)) >>=
        fun _ => pure (rachBytes mu m)) := by
  have hv : m.isValid mu = .ok true := (RandomAccess.isValid_iff h.typed).2 ⟨hr, h⟩
  obtain ⟨r, hr⟩ := Option.isSome_iff_exists.1 hr
  simp only [RandomAccess.pack, hv, Res.ok_bind, Res.assert_true, l2bLower_eq _ (foSize_le mu)]
  have hov : optValue m.rep = .ok r := by rw [hr]; rfl
  rw [hov, Res.ok_bind]
  rw [P.wr_congr m.rep _ (fun r => [r.repetition, r.validity]) (by
      intro r hr
      have := h.rep r hr
      simp only [u8, Nat.mod_eq_of_lt (show r.repetition < 256 by omega),
        Nat.mod_eq_of_lt (show r.validity < 256 by omega)]),
    P.wr_congr m.sfn _ (fun x => [x]) (by
      intro x hx
      have := h.sfn x hx
      simp only [u8, Nat.mod_eq_of_lt (show x < 256 by omega)]),
    P.wr_congr m.channel wrChannel (beBytes 2)
      fun x hx => (beBytes_channel (Channel.lt_of_assigned (h.channel x hx))).symm,
    P.wr_congr m.channel2 wrChannel (beBytes 2)
      fun x hx => (beBytes_channel (Channel.lt_of_assigned (h.channel2 x hx))).symm]
  have b1 := toNat_le m.sfn.isSome
  have b2 := toNat_le m.channel.isSome
  have b3 := toNat_le m.channel2.isSome
  have b4 := rachCode_le m.rep
  have b5 := toNat_le m.alloc.slots
  have b6 := toNat_le m.maxSlots
  have b7 := toNat_le m.delay
  have c1 := h.alloc.length
  have c2 := h.maxLen
  have c3 := h.cwMin
  have c4 := h.window
  have c5 := h.cwMax
  have hcode : (if m.rep.isNone = true then 0 else if (!r.subslots) = true then 1 else 2) =
      rachCode m.rep := by
    rw [hr]
    cases hs : r.subslots <;> simp [rachCode, hs]
  rw [hcode]
  have e0 : u8 (u8 (u8 (u8 (m.sfn.isSome.toNat <<< 2) ||| m.channel.isSome.toNat <<< 1) |||
      m.channel2.isSome.toNat) ||| rachCode m.rep <<< 3) =
      rachCode m.rep * 8 + m.sfn.isSome.toNat * 4 + m.channel.isSome.toNat * 2 +
      m.channel2.isSome.toNat := by
    have : ∀ (a b c : Bool), ∀ k < 3, u8 (u8 (u8 (u8 (a.toNat <<< 2) ||| b.toNat <<< 1) |||
        c.toNat) ||| k <<< 3) = k * 8 + a.toNat * 4 + b.toNat * 2 + c.toNat := by decide +kernel
    exact this _ _ _ _ (by omega)
  have e1 : u8 (u8 (m.alloc.slots.toNat <<< 7) ||| m.alloc.length) =
      m.alloc.slots.toNat * 128 + m.alloc.length := by bitsg; omega
  have e2 : u8 (u8 (u8 (m.maxSlots.toNat <<< 7) ||| m.maxLen <<< 3) ||| m.cwMin) =
      m.maxSlots.toNat * 128 + m.maxLen * 8 + m.cwMin := by bitsg; omega
  have e3 : u8 (u8 (u8 (m.delay.toNat <<< 7) ||| m.window <<< 3) ||| m.cwMax) =
      m.delay.toNat * 128 + m.window * 8 + m.cwMax := by bitsg; omega
  rw [e0, e1, e2, e3]
  rfl

/-- An IE without the fields whose size is counted wrongly. -/
def RachPlain (m : RandomAccess) : Prop :=
  m.rep.isSome = true ∧ m.sfn = none ∧ m.channel = none

/-- C54 (partial): layout and size of a packed IE with a repetition and without SFN offset and
channel. -/
theorem C54_pack_partial (mu : Nat) (m : RandomAccess) (hc : RachPlain m) (h : RachOk mu m) :
    m.pack mu = .ok (rachBytes mu m) ∧ (rachBytes mu m).length = rachSize mu m ∧
      Bytes (rachBytes mu m) ∧
      ∀ rest, RandomAccess.peek mu (rachBytes mu m ++ rest) = .ok (some (rachSize mu m)) := by
  obtain ⟨h1, h2, h3⟩ := hc
  have hpk : ∀ rest, RandomAccess.peek mu (rachBytes mu m ++ rest) = .ok (some (rachSize mu m)) := by
    intro rest
    rw [C54_finding_peek, h2, h3]; rfl
  have hpk0 := hpk []
  rw [List.append_nil] at hpk0
  refine ⟨?_, rachBytes_length mu m, ?_, hpk⟩
  · rw [RandomAccess.pack_eq mu m h1 h, hpk0, rachBytes_length]
    simp
  · have b1 := toNat_le m.sfn.isSome
    have b2 := toNat_le m.channel.isSome
    have b3 := toNat_le m.channel2.isSome
    have b4 := rachCode_le m.rep
    have b5 := toNat_le m.alloc.slots
    have b6 := toNat_le m.maxSlots
    have b7 := toNat_le m.delay
    have c1 := h.alloc.length
    have c2 := h.maxLen
    have c3 := h.cwMin
    have c4 := h.window
    have c5 := h.cwMax
    intro b hb
    simp only [rachBytes, List.mem_append, List.mem_cons, List.not_mem_nil, or_false] at hb
    rcases hb with rfl | hb | (rfl | rfl | rfl) | hb | hb | hb | hb
    · omega
    · exact beBytes_bytes _ _ _ hb
    · omega
    · omega
    · omega
    · refine P.wr_bytes m.rep _ (fun r hr => ?_) b hb
      intro c hc
      have := h.rep r hr
      simp at hc; omega
    · refine P.wr_bytes m.sfn _ (fun r hr => ?_) b hb
      intro c hc
      have := h.sfn r hr
      simp at hc; omega
    · exact P.wr_bytes m.channel (beBytes 2) (fun x _ => beBytes_bytes 2 x) b hb
    · exact P.wr_bytes m.channel2 (beBytes 2) (fun x _ => beBytes_bytes 2 x) b hb

/-- C54: every other IE aborts the sender: without repetition, with SFN offset, with channel, or with
a field out of range. -/
theorem C54_abort (mu : Nat) (m : RandomAccess) (ht : RachTyped m)
    (h : ¬ (RachPlain m ∧ RachOk mu m)) : m.pack mu = .abort := by
  by_cases hv : m.isValid mu = .ok true
  · obtain ⟨hr, hok⟩ := (RandomAccess.isValid_iff ht).1 hv
    have hpk := C54_finding_peek mu m []
    rw [List.append_nil] at hpk
    rw [RandomAccess.pack_eq mu m hr hok, hpk, rachBytes_length]
    have hne : rachSize mu m + 3 * m.sfn.isSome.toNat + 2 * m.channel.isSome.toNat ≠
        rachSize mu m := by
      intro hc
      apply h
      refine ⟨⟨hr, ?_, ?_⟩, hok⟩
      · cases hs : m.sfn with
        | none => rfl
        | some x => rw [hs] at hc; simp at hc; omega
      · cases hs : m.channel with
        | none => rfl
        | some x => rw [hs] at hc; simp at hc; omega
    have hd : decide (some (rachSize mu m + 3 * m.sfn.isSome.toNat +
        2 * m.channel.isSome.toNat) = some (rachSize mu m)) = false := by
      rw [decide_eq_false_iff_not, Option.some.injEq]; exact hne
    simp only [Res.ok_bind, Option.isSome_some, Res.assert_true, hd]
    rfl
  · have hu := RandomAccess.isValid_ne_ub mu m
    unfold RandomAccess.pack
    cases hv' : m.isValid mu with
    | ok v =>
      cases v with
      | true => exact absurd hv' hv
      | false => rfl
    | abort => rfl
    | ub => exact absurd hv' hu

/-! ## Receiving -/

theorem RandomAccess.parse_run (mu : Nat) (m : RandomAccess) (h : RachOk mu m) (rest : List Nat) :
    (parse mu).run 0 (rachBytes mu m ++ rest) = .ok (some m, rachSize mu m, rest) := by
  have hlen := rachBytes_length mu m
  have b8 := rachCode_le m.rep
  have c1 := h.alloc.length
  have c2 := h.maxLen
  have c3 := h.cwMin
  have c4 := h.window
  have c5 := h.cwMax
  have bits : ∀ (a b c : Bool), ∀ k < 3,
      let x := k * 8 + a.toNat * 4 + b.toNat * 2 + c.toNat
      (x >>> 3) &&& 3 = k ∧ (x &&& 4 != 0) = a ∧ (x &&& 2 != 0) = b ∧ (x &&& 1 != 0) = c := by
    decide +kernel
  obtain ⟨e1, e2, e3, e4⟩ := bits m.sfn.isSome m.channel.isSome m.channel2.isSome (rachCode m.rep)
    (by omega)
  have key : ∀ (b : Bool), ∀ n < 128, ((b.toNat * 128 + n) >>> 7 != 0) = b ∧
      (b.toNat * 128 + n) &&& bitmaskLsb 7 = n := by decide +kernel
  obtain ⟨k1, k2⟩ := key m.alloc.slots m.alloc.length (by omega)
  have key2 : ∀ (b : Bool), ∀ n < 16, ∀ c < 8, ((b.toNat * 128 + n * 8 + c) >>> 7 != 0) = b ∧
      ((b.toNat * 128 + n * 8 + c) >>> 3) &&& 15 = n ∧ (b.toNat * 128 + n * 8 + c) &&& 7 = c := by
    decide +kernel
  obtain ⟨f1, f2, f3⟩ := key2 m.maxSlots m.maxLen (by omega) m.cwMin (by omega)
  obtain ⟨g1, g2, g3⟩ := key2 m.delay m.window (by omega) m.cwMax (by omega)
  have r1 : ∀ o l, (P.opt (rachCode m.rep != 0) (do
      let x ← P.byte
      let y ← P.byte
      pure (RachRepeat.mk (rachCode m.rep == 2) x y))).run o
      (P.wr m.rep (fun r => [r.repetition, r.validity]) ++ l) =
      .ok (m.rep, o + (P.wr m.rep (fun r => [r.repetition, r.validity])).length, l) := by
    intro o l
    have := P.run_opt (do
      let x ← P.byte
      let y ← P.byte
      pure (RachRepeat.mk (rachCode m.rep == 2) x y))
      (fun r : RachRepeat => [r.repetition, r.validity]) m.rep o l (by
        intro r hr
        rw [hr]
        obtain ⟨a, c, d⟩ := r
        cases a <;> rfl)
    rw [show m.rep.isSome = (rachCode m.rep != 0) by
      cases m.rep with
      | none => rfl
      | some r => simp [rachCode]] at this
    exact this
  have r2 := fun o l => P.run_opt P.byte (fun x => [x]) m.sfn o l fun a _ => rfl
  have rc : ∀ x : Option Nat, (∀ a, x = some a → Channel.Assigned a) → ∀ o l,
      (P.opt x.isSome rdChannel).run o (P.wr x (beBytes 2) ++ l) =
        .ok (x, o + (P.wr x (beBytes 2)).length, l) := fun x hx o l =>
    P.run_opt rdChannel (beBytes 2) x o l (by
      intro a ha
      have := Channel.lt_of_assigned (hx a ha)
      rw [beBytes_length, beBytes_channel this]
      exact run_rdChannel this o l)
  have rs : ∀ o l, (P.be 4 (foSize mu)).run o (beBytes (foSize mu) m.alloc.start ++ l) =
      .ok (m.alloc.start, o + foSize mu, l) := fun o l =>
    P.run_be 4 (foSize mu) _ _ _ (foSize_le mu) h.alloc.start
  rw [← hlen]
  unfold rachBytes
  simp only [List.cons_append, List.nil_append, List.append_assoc, List.length_cons,
    List.length_append, beBytes_length]
  unfold parse
  refine P.step (P.run_byte _ _ _) (P.step (rs _ _) (P.step (P.run_byte _ _ _)
    (P.step (P.run_byte _ _ _) (P.step (P.run_byte _ _ _) ?_))))
  rw [e1, e2, e3, e4, k1, k2, f1, f2, f3, g1, g2, g3, if_neg (by omega : ¬ rachCode m.rep = 3)]
  refine P.step (r1 _ _) (P.step (r2 _ _) (P.step (rc _ h.channel _ _) ?_))
  refine P.step (rc _ h.channel2 _ rest) ?_
  rw [P.run_pure, enumFrom_of_lt (show m.cwMin < 8 by omega),
    enumFrom_of_lt (show m.cwMax < 8 by omega)]
  congr 3
  omega

theorem RandomAccess.eval_run {mu : Nat} {m : RandomAccess} {l rest : List Nat} {o : Nat}
    (h : (parse mu).run 0 l = .ok (some m, o, rest)) :
    (parse mu >>= fun m => P.offset >>= fun o =>
      (pure (m, o) : P (Option RandomAccess × Nat))).eval l = .ok (some m, o) := by
  unfold P.eval
  rw [P.run_bind, h]
  rfl

/-- C54: what a correct sender emits, by the standard, is received correctly if it has a
repetition: the reading itself handles the SFN offset and the channel. -/
theorem C54_receive_standard (mu : Nat) (m : RandomAccess) (hr : m.rep.isSome = true)
    (h : RachOk mu m) (rest : List Nat) :
    RandomAccess.unpack mu (rachBytes mu m ++ rest) = .ok (some (m, true)) := by
  have hv : m.isValid mu = .ok true := (RandomAccess.isValid_iff h.typed).2 ⟨hr, h⟩
  have hsz : m.packedSize mu = .ok (rachSize mu m) := by
    simp only [RandomAccess.packedSize, hv, Res.ok_bind, Res.assert_true, rachSize, foSize]
    simp only [Res.pure_eq, Res.ok.injEq]
    split <;> omega
  unfold RandomAccess.unpack
  rw [RandomAccess.eval_run (RandomAccess.parse_run mu m h rest), Res.ok_bind]
  simp [hsz, hv]

/-- C54 (partial): round trip. -/
theorem C54_roundtrip_partial (mu : Nat) (m : RandomAccess) (hc : RachPlain m) (h : RachOk mu m)
    (rest : List Nat) :
    ∃ l, m.pack mu = .ok l ∧ RandomAccess.unpack mu (l ++ rest) = .ok (some (m, true)) :=
  ⟨_, (C54_pack_partial mu m hc h).1, C54_receive_standard mu m hc.1 h rest⟩

/-- C54: an IE without repetition aborts the receiver. -/
theorem C54_finding_receiver (mu : Nat) (m : RandomAccess) (hr : m.rep = none) (h : RachOk mu m)
    (rest : List Nat) : RandomAccess.unpack mu (rachBytes mu m ++ rest) = .abort := by
  unfold RandomAccess.unpack
  rw [RandomAccess.eval_run (RandomAccess.parse_run mu m h rest), Res.ok_bind]
  simp [RandomAccess.packedSize, RandomAccess.isValid, hr]

theorem RandomAccess.parse_mono (mu : Nat) : P.Mono (parse mu) := by
  have := rdChannel_mono
  unfold parse; pmono

/-- C54 (partial): what the receiver does with arbitrary bytes. One byte is enough to know a size, or
that the IE is refused. With that many bytes the receiver does not read further, and it delivers the
IE or aborts; it delivers it if it has a repetition and all fields are in range. -/
theorem C54_receive_partial (mu : Nat) (p : List Nat) (hp : Bytes p) (h1 : 1 ≤ p.length) :
    (p[0]! / 8 % 4 = 3 ∧ RandomAccess.peek mu p = .ok none) ∨
    (p[0]! / 8 % 4 ≠ 3 ∧ ∃ n, RandomAccess.peek mu p = .ok (some n) ∧ n ≤ 18 ∧
      (n ≤ p.length → ∃ m, RachTyped m ∧ m.rep.isSome = decide (p[0]! / 8 % 4 ≠ 0) ∧
        m.sfn.isSome = decide (p[0]! / 4 % 2 = 1) ∧ m.channel.isSome = decide (p[0]! / 2 % 2 = 1) ∧
        n = rachSize mu m + 3 * m.sfn.isSome.toNat + 2 * m.channel.isSome.toNat ∧
        (m.rep.isSome = true ∧ RachOk mu m →
          ∀ q, RandomAccess.unpack mu (p ++ q) = .ok (some (m, true))) ∧
        (¬ (m.rep.isSome = true ∧ RachOk mu m) →
          ∀ q, RandomAccess.unpack mu (p ++ q) = .abort))) := by
  match p, h1 with
  | b0 :: l, _ =>
    have hb0 : b0 < 256 := hp b0 (by simp)
    have hl : Bytes l := fun b hb => hp b (by simp [hb])
    simp only [List.getElem!_cons_zero]
    have bits : ∀ x < 256, (x >>> 3) &&& 3 = x / 8 % 4 ∧ x &&& 4 = x / 4 % 2 * 4 ∧
        x &&& 2 = x / 2 % 2 * 2 ∧ x &&& 1 = x % 2 ∧
        (x &&& 4 != 0) = decide (x / 4 % 2 = 1) ∧ (x &&& 2 != 0) = decide (x / 2 % 2 = 1) ∧
        (x &&& 1 != 0) = decide (x % 2 = 1) := by decide +kernel
    obtain ⟨e1, e2, e3, e4, e5, e6, e7⟩ := bits b0 hb0
    have hbit : ∀ x : Nat, x < 2 → (decide (x = 1)).toNat = x := by
      intro x hx
      have : x = 0 ∨ x = 1 := by omega
      rcases this with h | h <;> rw [h] <;> rfl
    simp only [RandomAccess.peek, rd_zero, Res.ok_bind]
    rw [e1, e2, e3, e4]
    by_cases hk : b0 / 8 % 4 = 3
    · left; exact ⟨hk, by rw [if_pos hk]; rfl⟩
    · right
      have hrep : (if b0 / 8 % 4 = 0 then 0 else 2) = (b0 / 8 % 4 != 0).toNat * 2 := by
        by_cases h : b0 / 8 % 4 = 0 <;> simp [h]
      have hbase : (if mu ≤ 4 then 5 else 6) = 4 + foSize mu := by unfold foSize; split <;> rfl
      have hfs : foSize mu ≤ 2 := by unfold foSize; split <;> omega
      have := toNat_le (b0 / 8 % 4 != 0)
      rw [if_neg hk, hrep, hbase]
      refine ⟨hk, _, rfl, by omega, fun hn => ?_⟩
      simp only [List.length_cons] at hn
      have hrun : ∃ x o l', (RandomAccess.parse mu).run 0 (b0 :: l) = .ok (x, o, l') ∧
          (∃ m, x = some m ∧ RachTyped m ∧ m.rep.isSome = decide (b0 / 8 % 4 ≠ 0) ∧
            m.sfn.isSome = decide (b0 / 4 % 2 = 1) ∧ m.channel.isSome = decide (b0 / 2 % 2 = 1) ∧
            m.channel2.isSome = decide (b0 % 2 = 1) ∧ o = rachSize mu m) := by
        unfold RandomAccess.parse
        refine P.run_step (P.run_byte _ _ _) ?_
        refine P.WP.run (N := l.length + 1) ?_ hl (by omega)
        refine .bind (.be (foSize_le mu) (by omega) fun s hs => ?_)
        refine .bind (.byte (by omega) fun a ha => .bind (.byte (by omega) fun b hb =>
          .bind (.byte (by omega) fun c hc => ?_)))
        simp only [e1, e5, e6, e7]
        rw [if_neg hk]
        refine .bind (.opt (k := 2) (R := fun _ => True) ?_ (by omega) fun rep x1 y1 => ?_)
        · exact P.Reads.congr (k := 1 + (1 + 0)) (P.Reads.byte.bind fun _ _ =>
            P.Reads.byte.bind fun _ _ => P.Reads.pure trivial) rfl
        refine .bind (.opt P.Reads.byte (by rw [hbit (b0 / 4 % 2) (by omega)]; omega)
          fun sfn x2 y2 => ?_)
        rw [hbit (b0 / 4 % 2) (by omega)]
        refine .bind (.opt rdChannel_reads (by rw [hbit (b0 / 2 % 2) (by omega)]; omega)
          fun ch x3 y3 => ?_)
        rw [hbit (b0 / 2 % 2) (by omega)]
        refine .bind (.opt rdChannel_reads (by rw [hbit (b0 % 2) (by omega)]; omega)
          fun ch2 x4 y4 => ?_)
        rw [hbit (b0 % 2) (by omega)]
        refine .pure ⟨_, rfl, ⟨enumVal_from _ _, enumVal_from _ _⟩, ?_, x2, x3, x4, ?_⟩
        · show rep.isSome = _
          rw [x1]; by_cases h : b0 / 8 % 4 = 0 <;> simp [h]
        · simp only [rachSize, x1, x2, x3, x4, hbit (b0 / 4 % 2) (by omega),
            hbit (b0 / 2 % 2) (by omega), hbit (b0 % 2) (by omega)]
          omega
      obtain ⟨_, o, l', e, m, rfl, ht, c1, c2, c3, c4, ho⟩ := hrun
      have heval : ∀ q, (RandomAccess.parse mu >>= fun m => P.offset >>= fun o =>
          (pure (m, o) : P (Option RandomAccess × Nat))).eval (b0 :: l ++ q) = .ok (some m, o) := by
        intro q
        have hm : P.Mono (RandomAccess.parse mu >>= fun m => P.offset >>= fun o =>
            (pure (m, o) : P (Option RandomAccess × Nat))) := by
          have := RandomAccess.parse_mono mu
          pmono
        exact hm.eval_of_run (P.step e (P.step (P.run_offset _ _) (P.run_pure _ _ _))) q
      refine ⟨m, ht, c1, c2, c3, ?_, ?_, ?_⟩
      · rw [rachSize, c1, c2, c3, c4, hbit (b0 / 4 % 2) (by omega), hbit (b0 / 2 % 2) (by omega),
          hbit (b0 % 2) (by omega)]
        have : (decide (b0 / 8 % 4 ≠ 0)).toNat = (b0 / 8 % 4 != 0).toNat := by
          congr 1
          by_cases h : b0 / 8 % 4 = 0
          · rw [h]; rfl
          · rw [decide_eq_true h, bne_iff_ne.2 h]
        omega
      · rintro ⟨hr, hok⟩ q
        have hv : m.isValid mu = .ok true := (RandomAccess.isValid_iff ht).2 ⟨hr, hok⟩
        have hsz : m.packedSize mu = .ok o := by
          simp only [RandomAccess.packedSize, hv, Res.ok_bind, Res.assert_true]
          rw [ho, hbase]; rfl
        unfold RandomAccess.unpack
        rw [heval, Res.ok_bind]
        simp [hsz, hv]
      · intro hn' q
        have hv : m.isValid mu ≠ .ok true := by
          rw [Ne, RandomAccess.isValid_iff ht]; exact hn'
        have hub := RandomAccess.isValid_ne_ub mu m
        unfold RandomAccess.unpack
        rw [heval, Res.ok_bind]
        simp only [RandomAccess.packedSize]
        cases hv' : m.isValid mu with
        | ok v =>
          cases v with
          | true => exact absurd hv' hv
          | false => rfl
        | abort => rfl
        | ub => exact absurd hv' hub

/-- An IE with a repetition and a second channel. -/
def sampleRach : RandomAccess :=
  ⟨some ⟨true, 2, 255⟩, none, none, some 1657, ⟨200, true, 127⟩, true, 9, 5, true, 12, 7⟩

/-- Hypotheses of `C54_roundtrip_partial` can be met. -/
theorem sampleRach_ok : RachPlain sampleRach ∧ RachOk 1 sampleRach := by
  refine ⟨⟨rfl, rfl, rfl⟩, ?_, ?_, ?_, ?_, ⟨by decide, by decide⟩, by decide, by decide, by decide,
    by decide⟩
  · rintro _ ⟨⟩; decide
  · rintro _ ⟨⟩
  · rintro _ ⟨⟩
  · rintro _ ⟨⟩; simp [Channel.Assigned]

theorem C54_example : sampleRach.pack 1 = .ok [17, 200, 255, 205, 231, 2, 255, 6, 121] := by
  decide +kernel

/-- C54, negation: the same IE with an SFN offset, all fields in range, aborts the sender. -/
theorem C54_negation : ∃ m, RachOk 1 m ∧ m.sfn = some 3 ∧ m.pack 1 = .abort := by
  obtain ⟨-, h⟩ := sampleRach_ok
  exact ⟨{ sampleRach with sfn := some 3 }, ⟨h.rep, by rintro _ ⟨⟩; decide, h.channel, h.channel2,
    h.alloc, h.maxLen, h.cwMin, h.window, h.cwMax⟩, rfl, by decide +kernel⟩

end Verif.Mac
