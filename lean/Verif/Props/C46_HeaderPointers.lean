import Verif.Props.C06_Decoder

set_option linter.unusedSimpArgs false

/-!
# C46: what the header pointers of the decoder tell
-/

namespace Verif.Mac
open BitByte Mmh Dec

/-- The headers are behind. -/
def Past (d : Dec) : Prop := d.st ≠ .headerType ∧ d.st ≠ .commonHeader

theorem body_keeps {buf : List Nat} {d d' : Dec} {f : Bool} (hp : Past d)
    (h : body buf d = .ok (d', f)) : Past d' ∧ d'.mch = d.mch ∧ d'.mht = d.mht := by
  obtain ⟨h1, h2⟩ := hp
  cases hs : d.st with
  | headerType => exact absurd hs h1
  | commonHeader => exact absurd hs h2
  | mux =>
    simp only [body, hs, stepMux, Res.bind_eq_ok, Res.pure_eq, Res.ok.injEq, Prod.mk.injEq] at h
    obtain ⟨x, ⟨⟨m, ok⟩, -, hx⟩, rfl, -⟩ := h
    split at hx
    · simp only [Res.ok.injEq] at hx; subst hx; exact ⟨⟨by simp [prematureAbort], by simp [prematureAbort]⟩, rfl, rfl⟩
    · split at hx
      · exact absurd hx (by simp)
      · split at hx
        · simp only [Res.ok.injEq] at hx; subst hx
          exact ⟨⟨by simp [prematureAbort], by simp [prematureAbort]⟩, rfl, rfl⟩
        · split at hx
          · simp only [Res.ok.injEq] at hx; subst hx
            exact ⟨⟨by simp [prematureAbort], by simp [prematureAbort]⟩, rfl, rfl⟩
          · split at hx
            · simp only [Res.ok.injEq] at hx; subst hx
              exact ⟨⟨by simp, by simp⟩, rfl, rfl⟩
            · simp only [Res.bind_eq_ok, Res.ok.injEq] at hx
              obtain ⟨n, -, rfl⟩ := hx
              exact ⟨⟨by simp, by simp⟩, rfl, rfl⟩
  | lengthOrFixed =>
    simp only [body, hs, stepLength, Res.bind_eq_ok, Res.pure_eq, Res.ok.injEq, Prod.mk.injEq] at h
    obtain ⟨x, ⟨m, -, hx⟩, rfl, -⟩ := h
    split at hx
    · exact absurd hx (by simp)
    · simp only [Res.ok.injEq] at hx; subst hx; exact ⟨⟨by simp, by simp⟩, rfl, rfl⟩
  | peek =>
    simp only [body, hs, stepPeek, Res.bind_eq_ok, Res.pure_eq, Res.ok.injEq, Prod.mk.injEq] at h
    obtain ⟨x, hx, rfl, -⟩ := h
    split at hx
    · exact absurd hx (by simp)
    · simp only [Res.bind_eq_ok, Res.ok.injEq] at hx
      obtain ⟨-, -, n, -, rfl⟩ := hx
      exact ⟨⟨by simp, by simp⟩, rfl, rfl⟩
  | unpack =>
    simp only [body, hs, stepUnpack, Res.bind_eq_ok, Res.pure_eq, Res.ok.injEq, Prod.mk.injEq] at h
    obtain ⟨x, hx, rfl, -⟩ := h
    split at hx
    · exact absurd hx (by simp)
    · simp only [Res.bind_eq_ok, Res.ok.injEq] at hx
      obtain ⟨⟨c, ok⟩, -, hx⟩ := hx
      split at hx
      · split at hx
        · exact absurd hx (by simp)
        · simp only [Res.ok_bind, Res.ok.injEq] at hx; subst hx
          exact ⟨⟨by simp [prepareCheck], by simp [prepareCheck]⟩, rfl, rfl⟩
      · simp only [Res.ok_bind, Res.ok.injEq] at hx; subst hx
        exact ⟨⟨by simp [prepareCheck], by simp [prepareCheck]⟩, rfl, rfl⟩
  | checkDone =>
    simp only [body, hs, Res.pure_eq] at h
    split at h
    · simp only [Res.ok.injEq, Prod.mk.injEq] at h; obtain ⟨rfl, -⟩ := h; exact ⟨⟨by simp, by simp⟩, rfl, rfl⟩
    · simp only [Res.ok.injEq, Prod.mk.injEq] at h; obtain ⟨rfl, -⟩ := h; exact ⟨⟨by simp, by simp⟩, rfl, rfl⟩
  | done => simp [body, hs] at h
  | abort =>
    simp only [body, hs, Res.pure_eq, Res.ok.injEq, Prod.mk.injEq] at h
    obtain ⟨rfl, -⟩ := h; exact ⟨⟨by simp [hs], by simp [hs]⟩, rfl, rfl⟩

theorem step_keeps {buf : List Nat} {d d' : Dec} {f : Bool} (hp : Past d)
    (h : step buf d = .ok (d', f)) : Past d' ∧ d'.mch = d.mch ∧ d'.mht = d.mht := by
  rw [step] at h
  split at h
  · have := body_keeps (d := d.prematureAbort) ⟨by simp [prematureAbort], by simp [prematureAbort]⟩ h
    exact this
  · split at h
    · simp only [Res.pure_eq, Res.ok.injEq, Prod.mk.injEq] at h
      obtain ⟨rfl, -⟩ := h; exact ⟨hp, rfl, rfl⟩
    · exact body_keeps hp h

theorem loop_keeps {buf : List Nat} : ∀ k (d d' : Dec), Past d → loop buf k d = .ok d' →
    d'.mch = d.mch ∧ d'.mht = d.mht := by
  intro k
  induction k with
  | zero => intro d d' _ h; exact absurd h (by simp [loop])
  | succ k ih =>
    intro d d' hp h
    rw [loop, Res.bind_eq_ok] at h
    obtain ⟨⟨x, f⟩, h1, h2⟩ := h
    obtain ⟨e1, e2, e3⟩ := step_keeps hp h1
    cases f with
    | true =>
      simp only [if_true, Res.pure_eq, Res.ok.injEq] at h2
      subst h2; exact ⟨e2, e3⟩
    | false =>
      obtain ⟨g1, g2⟩ := ih x d' e1 h2
      exact ⟨g1.trans e2, g2.trans e3⟩

/-- C46: what the two header pointers show once the block has arrived, for every block and every
arrival schedule. The header type is there exactly if the first byte is accepted. The common header
is there if it was read and accepted; it is absent if its content is refused; but if it does not fit
into the block, the pointer is there although no field was ever read (`fields = none`).
The documentation (mac_pdu_decoder.hpp:113-119) promises a null pointer if decoding failed. -/
theorem C46_partial (F : List Nat) (mu : Nat) (pool : Ref → Obj) (ws : List Nat) (hF : Bytes F)
    (h1 : 0 < F.length) (h2 : F.length + 65536 ≤ 2 ^ 32) (hmu : mu = 1 ∨ mu = 2 ∨ mu = 4 ∨ mu = 8)
    (hs : ws.Pairwise (· ≤ ·)) (hl : ∀ w ∈ ws, w < F.length) :
    ∃ d0 d h ok, setConfiguration F.length mu pool = .ok d0 ∧ feed F (ws ++ [F.length]) d0 = .ok d ∧
      HeaderType.unpack F = .ok (h, ok) ∧
      (ok = false → d.mht = none ∧ d.mch = none) ∧
      (ok = true → d.mht = some h ∧ ∃ t, h.type = some t ∧
        (F.length < 1 + t.mchSize → d.mch = some ⟨t, none⟩) ∧
        (1 + t.mchSize ≤ F.length → ∃ m mok, Mch.unpack t (F.drop 1) = .ok (m, mok) ∧
          d.mch = if mok then some ⟨t, some m⟩ else none)) := by
  obtain ⟨d0', d, e1, e2, e3⟩ := C06_chunks F mu pool ws hF h1 h2 hmu hs hl
  obtain ⟨d0, f1, hi, hst, hr0, htb0⟩ := inv_start F mu pool hF h1 h2 hmu
  rw [f1] at e1
  simp only [Res.ok.injEq] at e1
  subst e1
  have hmht : d0.mht = none ∧ d0.mch = none ∧ d0.n = 1 := by
    simp only [setConfiguration, Res.bind_eq_ok, Res.pure_eq, Res.ok.injEq] at f1
    obtain ⟨-, -, -, -, rfl⟩ := f1
    exact ⟨rfl, rfl, rfl⟩
  have hdec := decode_eq hi (Nat.le_refl _) (show d0.r ≤ F.length by omega)
  simp only [feed] at e3
  rw [hdec, List.take_length] at e3
  have e4 : loop F (4 * d0.tb + 6) d0 = .ok d := by
    cases hx : loop F (4 * d0.tb + 6) d0 with
    | ok y => rw [hx] at e3; exact e3
    | abort => rw [hx] at e3; exact absurd e3 (by simp)
    | ub => rw [hx] at e3; exact absurd e3 (by simp)
  -- the first step
  obtain ⟨b, rest, hFb⟩ : ∃ b rest, F = b :: rest := by
    cases F with
    | nil => simp at h1
    | cons b rest => exact ⟨b, rest, rfl⟩
  obtain ⟨h, ok, hu⟩ : ∃ h ok, HeaderType.unpack F = .ok (h, ok) := by
    rw [hFb]; exact ⟨_, _, rfl⟩
  refine ⟨d0, d, h, ok, f1, e2, hu, ?_⟩
  have hstep : step F d0 = (stepHeaderType F d0 >>= fun x => Res.ok (x, false)) := by
    have a1 : u32 (d0.r + d0.n) = 1 := by rw [hr0, hmht.2.2]; rfl
    have a2 : u32 (F.length + 2 ^ 32 - d0.r) = F.length := by rw [hr0]; unfold u32; omega
    rw [step, a1, if_neg (by omega), a2, if_neg (by omega)]
    simp only [body, hst, Res.pure_eq]
  have huD : HeaderType.unpack (F.drop d0.r) = .ok (h, ok) := by rw [hr0]; exact hu
  have hloop : loop F (4 * d0.tb + 5 + 1) d0 = .ok d := e4
  rw [loop, hstep] at hloop
  cases ok with
  | false =>
    have e5 : stepHeaderType F d0 = .ok d0.prematureAbort := by
      simp [stepHeaderType, hr0, h1] at huD ⊢
      rw [huD]; rfl
    rw [e5] at hloop
    obtain ⟨g1, g2⟩ := loop_keeps _ d0.prematureAbort d
      ⟨by simp [prematureAbort], by simp [prematureAbort]⟩ hloop
    exact ⟨fun _ => ⟨g2.trans hmht.1, g1.trans hmht.2.1⟩, fun h => absurd h (by simp)⟩
  | true =>
    refine ⟨fun h => absurd h (by simp), fun _ => ?_⟩
    have hb : b < 256 := hF b (by rw [hFb]; simp)
    obtain ⟨-, -, ⟨t, ht1, ht2⟩, -⟩ := C03_header_type_sound b rest hb h (by rw [← hFb]; exact hu)
    let d1 : Dec := { d0 with mht := some h, r := 1, st := .commonHeader, mch := some ⟨t, none⟩, n := t.mchSize }
    have e5 : stepHeaderType F d0 = .ok d1 := by
      simp only [stepHeaderType, hr0, h1, decide_true, Res.assert_true, Res.ok_bind] at huD ⊢
      rw [huD]
      simp only [Res.ok_bind, Bool.not_true, Bool.false_eq_true, if_false, hmht.2.2,
        show u32 (0 + 1) = 1 by decide, decide_true, Res.assert_true, ht2, Res.pure_eq]
      cases t <;> rfl
    rw [e5] at hloop
    have hloop : loop F (4 * d0.tb + 4 + 1) d1 = .ok d := hloop
    rw [loop] at hloop
    have hsz : t.mchSize ≤ 10 := by cases t <;> decide
    have htb1 : d1.tb = F.length := htb0
    have a1 : u32 (d1.r + d1.n) = 1 + t.mchSize := u32_of_lt (show 1 + t.mchSize < 2 ^ 32 by omega)
    by_cases hfit : 1 + t.mchSize ≤ F.length
    · have a2 : u32 (F.length + 2 ^ 32 - d1.r) = F.length - 1 := by
        show u32 (F.length + 2 ^ 32 - 1) = _
        unfold u32; omega
      obtain ⟨m, mok, hm, -⟩ := C03_mch_total t (F.drop 1) ht1 (by simp; omega)
      have e6 : step F d1 = (stepCommonHeader F d1 >>= fun x => Res.ok (x, false)) := by
        rw [step, a1, if_neg (by omega), a2, if_neg (show ¬ F.length - 1 < t.mchSize by omega)]
        rfl
      have e7 : stepCommonHeader F d1 = (Mch.unpack t (F.drop 1) >>= fun (x : Mch × Bool) =>
          if !x.2 then Res.ok { d1 with mch := none }.prematureAbort
          else Res.ok { d1 with mch := some ⟨t, some x.1⟩, r := u32 (d1.r + d1.n), st := .mux, n := 1 }) := rfl
      rw [hm] at e7
      rw [e6, e7] at hloop
      cases mok with
      | false =>
        let d2 : Dec := { d1 with mch := none, st := .abort, n := 0 }
        have hloop : loop F (4 * d0.tb + 4) d2 = .ok d := hloop
        obtain ⟨g1, g2⟩ := loop_keeps (buf := F) (4 * d0.tb + 4) d2 d
          ⟨by simp [d2], by simp [d2]⟩ hloop
        exact ⟨g2, t, ht2, fun h => absurd h (by omega), fun _ => ⟨m, false, hm, g1⟩⟩
      | true =>
        obtain ⟨g1, g2⟩ := loop_keeps (buf := F) (4 * d0.tb + 4)
          { d1 with mch := some ⟨t, some m⟩, r := u32 (d1.r + d1.n), st := .mux, n := 1 } d
          ⟨by simp, by simp⟩ hloop
        exact ⟨g2, t, ht2, fun h => absurd h (by omega), fun _ => ⟨m, true, hm, g1⟩⟩
    · have e6 : step F d1 = .ok ({ d1.prematureAbort with r := F.length }, true) := by
        rw [step, a1, if_pos (by omega)]; rfl
      rw [e6] at hloop
      simp only [Res.ok_bind, if_true, Res.pure_eq, Res.ok.injEq] at hloop
      subst hloop
      exact ⟨rfl, t, ht2, fun _ => rfl, fun h => absurd h hfit⟩

/-- C46, negation: a block of two bytes announcing a beacon header. The pointer is not null, but no
field of the header was read. -/
theorem C46_negation : ∃ (F : List Nat) (d0 d : Dec), Bytes F ∧
    setConfiguration F.length 1 (fun _ => ⟨Mmh.zero, 0, .fresh⟩) = .ok d0 ∧
    feed F [F.length] d0 = .ok d ∧ d.mch = some ⟨.beacon, none⟩ :=
  ⟨[1, 0], _, _, by simp [Bytes], rfl, rfl, rfl⟩

/-- A block with a readable common header. -/
example : ∃ d0 d : Dec, setConfiguration 3 1 (fun _ => ⟨Mmh.zero, 0, .fresh⟩) = .ok d0 ∧
    feed [0, 16, 5] [2, 3] d0 = .ok d ∧ d.mch = some ⟨.data, some (.data 0 1 5)⟩ :=
  ⟨_, _, rfl, rfl, rfl⟩

end Verif.Mac
