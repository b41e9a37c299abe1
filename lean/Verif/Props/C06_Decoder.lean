import Verif.Lemma.Decoder

set_option linter.unusedSimpArgs false

/-!
# C06, C07: the MAC PDU decoder for every transport block and every arrival schedule
-/

namespace Verif.Mac
open BitByte Mmh Dec

variable {μ₀ : Nat}

theorem Good.step {F : List Nat} {d : Dec} {f : List Nat → Dec → Res Dec} {w : Nat}
    (hw : w ≤ F.length) (hr : d.r ≤ w)
    (hg : Good F μ₀ d ((F.drop d.r).take (w - d.r)) f) (h0 : d.st = .headerType → 0 < w) :
    ∃ d', (∀ w', w ≤ w' → w' ≤ F.length → f (F.take w') d = .ok d') ∧ Inv F μ₀ d' ∧ d.r ≤ d'.r ∧
      d'.r ≤ w ∧ d'.meas < d.meas ∧ d'.st ≠ .done := by
  obtain ⟨d', h1, h2, h3, h4, h5⟩ := hg
  refine ⟨d', fun w' hw1 hw2 => h1 _ ((F.drop d.r).take (w' - d.r) |>.drop (w - d.r)) ?_ ?_, h2, h3, ?_, h5⟩
  · rw [List.drop_take]
    have : (F.drop d.r).take (w - d.r) = ((F.drop d.r).take (w' - d.r)).take (w - d.r) := by
      rw [List.take_take, Nat.min_eq_left (by omega)]
    rw [this, List.take_append_drop]
  · intro hs; have := h0 hs; simp; omega
  · simp at h4; omega

/-- What one iteration of the loop does, for a buffer of which `w` bytes are written. -/
theorem step_cases {F : List Nat} {d : Dec} {w : Nat} (hi : Inv F μ₀ d) (hd : d.st ≠ .done)
    (hw : w ≤ F.length) (hr : d.r ≤ w) :
    (∃ d1 : Dec, d1.st = .abort ∧ d1.n = 0 ∧ (∀ x ≤ d1.tb, Inv F μ₀ { d1 with r := x }) ∧
      d1.tb = d.tb ∧ ∀ w', d.r ≤ w' → w' ≤ F.length →
        step (F.take w') d = .ok ({ d1 with r := w' }, true)) ∨
    (w < d.r + d.n ∧ d.r + d.n ≤ d.tb ∧ step (F.take w) d = .ok (d, true)) ∨
    (∃ d', Inv F μ₀ d' ∧ d'.st ≠ .done ∧ d.r ≤ d'.r ∧ d'.r ≤ w ∧ d'.meas < d.meas ∧
      ∀ w', w ≤ w' → w' ≤ F.length → step (F.take w') d = .ok (d', false)) ∨
    (d.r = d.tb ∧ w = F.length ∧ Inv F μ₀ { d with st := .done } ∧
      step (F.take w) d = .ok ({ d with st := .done }, true)) := by
  have htb := hi.tb
  have hbig := hi.big
  have hrt := hi.r
  have hn : d.n ≤ 65535 := by
    have hst := hi.st
    revert hst hd
    unfold StInv
    cases d.st <;> simp only <;> intro hd hst
    · omega
    · obtain ⟨t, -, -, h⟩ := hst
      rw [h]; cases t <;> simp [HType.mchSize]
    · omega
    · obtain ⟨_, _, _, e, -, -, -, h, -⟩ := hst
      rw [h]; cases e <;> simp [headerSize]
    · omega
    · obtain ⟨k, -, -, -, h⟩ := hst
      rcases h with h | h | h | h <;> omega
    · omega
    · exact absurd rfl hd
    · omega
  have hu : u32 (d.r + d.n) = d.r + d.n := u32_of_lt (by omega)
  have hu2 : ∀ w', d.r ≤ w' → w' ≤ F.length → u32 ((F.take w').length + 2 ^ 32 - d.r) = w' - d.r := by
    intro w' h1 h2
    simp only [List.length_take, Nat.min_eq_left h2]
    unfold u32; omega
  by_cases hov : d.tb < d.r + d.n
  · left
    refine ⟨d.prematureAbort, rfl, rfl, fun x hx => ?_, rfl, fun w' h1 h2 => ?_⟩
    · exact hi.of_same rfl hx rfl rfl rfl (fun _ _ => rfl) rfl
    · rw [step, hu, if_pos hov]
      simp [body, prematureAbort, Nat.min_eq_left h2]
  by_cases hab : d.st = .abort
  · left
    have hn0 : d.n = 0 := by have := hi.st; simpa [StInv, hab] using this
    refine ⟨d, hab, hn0, fun x hx => ?_, rfl, fun w' h1 h2 => ?_⟩
    · refine hi.of_same rfl hx rfl rfl rfl (fun _ _ => rfl) ?_
      simp only [StInv, hab]; exact hn0
    · rw [step, hu, if_neg hov, hu2 w' h1 h2, if_neg (by omega)]
      simp [body, hab, Nat.min_eq_left h2]
  by_cases hwt : w < d.r + d.n
  · right; left
    refine ⟨hwt, by omega, ?_⟩
    rw [step, hu, if_neg hov, hu2 w hr hw, if_pos (by omega)]
    rfl
  right; right
  have hstep : ∀ w', w ≤ w' → w' ≤ F.length → step (F.take w') d = body (F.take w') d := by
    intro w' h1 h2
    rw [step, hu, if_neg hov, hu2 w' (by omega) h2, if_neg (by omega)]
  have hp : F.drop d.r = (F.drop d.r).take (w - d.r) ++ (F.drop d.r).drop (w - d.r) :=
    (List.take_append_drop _ _).symm
  have hpl : ((F.drop d.r).take (w - d.r)).length = w - d.r := by simp; omega
  have hnp : d.n ≤ ((F.drop d.r).take (w - d.r)).length := by omega
  -- a transition of one of the reading states
  have main : ∀ f, (∀ buf, body buf d = (f buf d >>= fun d' => Res.ok (d', false))) →
      Good F μ₀ d ((F.drop d.r).take (w - d.r)) f →
      ∃ d', Inv F μ₀ d' ∧ d'.st ≠ .done ∧ d.r ≤ d'.r ∧ d'.r ≤ w ∧ d'.meas < d.meas ∧
        ∀ w', w ≤ w' → w' ≤ F.length → step (F.take w') d = .ok (d', false) := by
    intro f hb hg
    have h0 : d.st = .headerType → 0 < w := by
      intro hs
      have hst := hi.st
      simp only [StInv, hs] at hst
      omega
    obtain ⟨d', h1, h2, h3, h4, h5, h6⟩ := hg.step hw hr h0
    refine ⟨d', h2, h6, h3, h4, h5, fun w' hw1 hw2 => ?_⟩
    rw [hstep w' hw1 hw2, hb, h1 w' hw1 hw2]; rfl
  cases hs : d.st with
  | headerType =>
    exact Or.inl (main stepHeaderType (fun buf => by simp only [body, hs]; rfl)
      (good_headerType hi hs hp hnp))
  | commonHeader =>
    exact Or.inl (main stepCommonHeader (fun buf => by simp only [body, hs]; rfl)
      (good_commonHeader hi hs hp hnp))
  | mux =>
    exact Or.inl (main stepMux (fun buf => by simp only [body, hs]; rfl) (good_mux hi hs hp hnp))
  | lengthOrFixed =>
    exact Or.inl (main stepLength (fun buf => by simp only [body, hs]; rfl)
      (good_length hi hs hp hnp))
  | peek =>
    exact Or.inl (main stepPeek (fun buf => by simp only [body, hs]; rfl) (good_peek hi hs hp hnp))
  | unpack =>
    exact Or.inl (main stepUnpack (fun buf => by simp only [body, hs]; rfl)
      (good_unpack hi hs hp hnp))
  | checkDone =>
    have hn0 : d.n = 0 := by have := hi.st; simpa [StInv, hs] using this
    by_cases hlt : d.r < d.tb
    · left
      refine ⟨{ d with st := .mux, n := 1 }, ?_, by simp, Nat.le_refl _, hr, ?_, fun w' h1 h2 => ?_⟩
      · exact hi.of_same rfl hi.r rfl rfl rfl (fun _ _ => rfl) rfl
      · simp only [meas, rank, hs]; omega
      · rw [hstep w' h1 h2]; simp [body, hs, hlt]
    · right
      have he : d.r = d.tb := by omega
      refine ⟨he, by omega, ?_, ?_⟩
      · exact hi.of_same rfl hi.r rfl rfl rfl (fun _ _ => rfl) ⟨hn0, he⟩
      · rw [hstep w (Nat.le_refl _) hw]; simp [body, hs, hlt]
  | done => exact absurd hs hd
  | abort => exact absurd hs hab

/-- The loop ends within the measure of the state, for every content. -/
theorem loop_ok {F : List Nat} {w : Nat} (hw : w ≤ F.length) :
    ∀ k d, Inv F μ₀ d → d.st ≠ .done → d.r ≤ w → d.meas < k →
      ∃ d1, loop (F.take w) k d = .ok d1 ∧ Inv F μ₀ d1 ∧ d1.r ≤ w ∧
        (w < F.length → d1.st ≠ .done) ∧
        (w = F.length → d1.r = d1.tb ∧ (d1.st = .done ∨ d1.st = .abort)) := by
  intro k
  induction k with
  | zero => intro d _ _ _ h; omega
  | succ k ih =>
    intro d hi hd hr hm
    have htb := hi.tb
    rcases step_cases hi hd hw hr with ⟨d1, h1, h2, h3, h4, h5⟩ | ⟨h1, h2, h3⟩ |
      ⟨d', h1, h2, h3, h4, h5, h6⟩ | ⟨h1, h2, h3, h4⟩
    · refine ⟨{ d1 with r := w }, ?_, h3 w (by omega), Nat.le_refl _, fun _ => by simp [h1], fun h => ?_⟩
      · rw [loop, h5 w hr hw]; rfl
      · exact ⟨by simp; omega, Or.inr h1⟩
    · refine ⟨d, ?_, hi, hr, fun _ => hd, fun h => by omega⟩
      rw [loop, h3]; rfl
    · obtain ⟨d1, g1, g2⟩ := ih d' h1 h2 h4 (by omega)
      refine ⟨d1, ?_, g2⟩
      rw [loop, h6 w (Nat.le_refl _) hw]; exact g1
    · refine ⟨{ d with st := .done }, ?_, h3, hr, fun h => by omega, fun _ => ⟨h1, Or.inl rfl⟩⟩
      rw [loop, h4]; rfl

theorem loop_mono {buf : List Nat} : ∀ k k' d x, k ≤ k' → loop buf k d = .ok x → loop buf k' d = .ok x := by
  intro k
  induction k with
  | zero => intro k' d x _ h; exact absurd h (by simp [loop])
  | succ k ih =>
    intro k' d x hk h
    obtain ⟨k', rfl⟩ : ∃ j, k' = j + 1 := ⟨k' - 1, by omega⟩
    rw [loop] at h ⊢
    cases hs : step buf d with
    | ok y =>
      obtain ⟨d', fin⟩ := y
      rw [hs] at h
      cases fin
      · exact ih k' d' x (by omega) h
      · exact h
    | abort => rw [hs] at h; exact absurd h (by simp)
    | ub => rw [hs] at h; exact absurd h (by simp)

/-- Decoding a prefix first makes no difference for what a longer prefix gives. -/
theorem loop_prefix {F : List Nat} {w w' : Nat} (hw : w < F.length) (hww : w ≤ w')
    (hw' : w' ≤ F.length) :
    ∀ k d, Inv F μ₀ d → d.st ≠ .done → d.r ≤ w → d.meas < k → ∀ d1, loop (F.take w) k d = .ok d1 →
      ∀ k1 k2, d.meas < k1 → d1.meas < k2 → loop (F.take w') k2 d1 = loop (F.take w') k1 d := by
  intro k
  induction k with
  | zero => intro d _ _ _ h; omega
  | succ k ih =>
    intro d hi hd hr hm x hx k1 k2 hk1 hk2
    have htb := hi.tb
    have hbig := hi.big
    rcases step_cases hi hd (Nat.le_of_lt hw) hr with ⟨d1, h1, h2, h3, h4, h5⟩ | ⟨h1, h2, h3⟩ |
      ⟨d', h1, h2, h3, h4, h5, h6⟩ | ⟨h1, h2, h3, h4⟩
    · rw [loop, h5 w hr (Nat.le_of_lt hw)] at hx
      simp only [Res.ok_bind, if_true, Res.pure_eq, Res.ok.injEq] at hx
      subst hx
      obtain ⟨k1, rfl⟩ : ∃ j, k1 = j + 1 := ⟨k1 - 1, by omega⟩
      obtain ⟨k2, rfl⟩ : ∃ j, k2 = j + 1 := ⟨k2 - 1, by omega⟩
      rw [loop, loop, h5 w' (by omega) hw']
      have e : step (F.take w') { d1 with r := w } = .ok ({ d1 with r := w' }, true) := by
        have e1 : u32 (w + 0) = w := u32_of_lt (by omega)
        simp only [step, h2, h4, e1]
        rw [if_neg (by omega), if_neg (by omega)]
        simp [body, h1, Nat.min_eq_left hw']
      rw [e]
      rfl
    · rw [loop, h3] at hx
      simp only [Res.ok_bind, if_true, Res.pure_eq, Res.ok.injEq] at hx
      subst hx
      obtain ⟨y, hy, -⟩ := loop_ok hw' (d.meas + 1) d hi hd (by omega) (by omega)
      rw [loop_mono _ k1 _ _ (by omega) hy, loop_mono _ k2 _ _ (by omega) hy]
    · obtain ⟨k1, rfl⟩ : ∃ j, k1 = j + 1 := ⟨k1 - 1, by omega⟩
      rw [loop, h6 w (Nat.le_refl _) (Nat.le_of_lt hw)] at hx
      have := ih d' h1 h2 h4 (by omega) x hx k1 k2 (by omega) hk2
      rw [this]
      conv_rhs => rw [loop, h6 w' hww hw']
      rfl
    · omega

theorem meas_lt {F : List Nat} {d : Dec} (hi : Inv F μ₀ d) : d.meas < 4 * d.tb + 6 := by
  have := rank_le d.st
  have := hi.r
  unfold meas; omega

theorem decode_eq {F : List Nat} {d : Dec} {w : Nat} (hi : Inv F μ₀ d) (hw : w ≤ F.length)
    (hr : d.r ≤ w) : decode (F.take w) d = loop (F.take w) (4 * d.tb + 6) d := by
  have htb := hi.tb
  have e1 : (F.take w).length = w := by simp; omega
  simp [decode, e1, hr, htb, hw]

/-- `set_configuration` establishes the invariant, whatever an earlier PDU left in the pool. -/
theorem inv_start (F : List Nat) (mu : Nat) (pool : Ref → Obj) (hF : Bytes F) (h1 : 0 < F.length)
    (h2 : F.length + 65536 ≤ 2 ^ 32) (hmu : mu = 1 ∨ mu = 2 ∨ mu = 4 ∨ mu = 8) :
    ∃ d, setConfiguration F.length mu pool = .ok d ∧ Inv F mu d ∧ d.st = .headerType ∧ d.r = 0 ∧
      d.tb = F.length := by
  refine ⟨_, by simp [setConfiguration, h1, Nat.succ_le_of_lt h1]; rfl, ?_, rfl, rfl, rfl⟩
  exact ⟨rfl, rfl, h2, hF, Nat.zero_le _, hmu, fun _ => Nat.zero_le _, List.nodup_nil, by simp, by simp,
    ⟨rfl, rfl, rfl⟩⟩

theorem feed_ok {F : List Nat} : ∀ (ws : List Nat) (d : Dec), Inv F μ₀ d → d.st ≠ .done →
    (∀ w ∈ ws, d.r ≤ w) → ws.Pairwise (· ≤ ·) → (∀ w ∈ ws, w < F.length) →
    ∃ d1, feed F ws d = .ok d1 ∧ Inv F μ₀ d1 ∧ d1.st ≠ .done ∧ decode F d1 = decode F d ∧
      (∀ w, (∀ x ∈ ws, x ≤ w) → d.r ≤ w → d1.r ≤ w) := by
  intro ws
  induction ws with
  | nil => intro d hi hd _ _ _; exact ⟨d, rfl, hi, hd, rfl, fun w _ h => h⟩
  | cons w ws ih =>
    intro d hi hd hr hs hl
    have hw : w < F.length := hl w (by simp)
    have hrw : d.r ≤ w := hr w (by simp)
    obtain ⟨d', h1, h2, h3, h4, -⟩ := loop_ok (Nat.le_of_lt hw) _ d hi hd hrw (meas_lt hi)
    rw [List.pairwise_cons] at hs
    obtain ⟨d1, g1, g2, g3, g4, g5⟩ := ih d' h2 (h4 hw) (fun x hx => Nat.le_trans h3 (hs.1 x hx)) hs.2
      (fun x hx => hl x (by simp [hx]))
    refine ⟨d1, ?_, g2, g3, ?_, fun x hx hx' => g5 x (fun y hy => hx y (by simp [hy])) ?_⟩
    · rw [feed, decode_eq hi (Nat.le_of_lt hw) hrw, h1]; exact g1
    · rw [g4]
      have e := loop_prefix hw (Nat.le_of_lt hw) (Nat.le_refl _) _ d hi hd hrw (meas_lt hi) d' h1
        (4 * d.tb + 6) (4 * d'.tb + 6) (meas_lt hi) (meas_lt h2)
      have a1 := decode_eq h2 (Nat.le_refl _) (show d'.r ≤ F.length by omega)
      have a2 := decode_eq hi (Nat.le_refl _) (show d.r ≤ F.length by omega)
      rw [List.take_length] at a1 a2 e
      rw [a1, a2, e]
    · exact Nat.le_trans h3 (hx w (by simp))

theorem feed_append (F : List Nat) (ws vs : List Nat) (d : Dec) :
    feed F (ws ++ vs) d = (feed F ws d >>= fun d => feed F vs d) := by
  induction ws generalizing d with
  | nil => rfl
  | cons w ws ih =>
    simp only [List.cons_append, feed]
    cases decode (F.take w) d with
    | ok x => exact ih x
    | abort => rfl
    | ub => rfl

/-- C06: for every transport block, feeding it in any sequence of growing prefixes, the last of which
is the whole block, gives the same decoder state (and thus the same headers and elements) as
feeding the whole block at once. -/
theorem C06_chunks (F : List Nat) (mu : Nat) (pool : Ref → Obj) (ws : List Nat) (hF : Bytes F)
    (h1 : 0 < F.length) (h2 : F.length + 65536 ≤ 2 ^ 32) (hmu : mu = 1 ∨ mu = 2 ∨ mu = 4 ∨ mu = 8)
    (hs : ws.Pairwise (· ≤ ·)) (hl : ∀ w ∈ ws, w < F.length) :
    ∃ d0 d1, setConfiguration F.length mu pool = .ok d0 ∧
      feed F (ws ++ [F.length]) d0 = .ok d1 ∧ feed F [F.length] d0 = .ok d1 := by
  obtain ⟨d0, e0, hi, hst, hr, -⟩ := inv_start F mu pool hF h1 h2 hmu
  have hd : d0.st ≠ .done := by rw [hst]; decide
  obtain ⟨d1, g1, g2, g3, g4, -⟩ := feed_ok ws d0 hi hd (by simp [hr]) hs hl
  obtain ⟨d2, k1, -⟩ := loop_ok (Nat.le_refl F.length) _ d0 hi hd (by omega) (meas_lt hi)
  have e2 := decode_eq hi (Nat.le_refl _) (show d0.r ≤ F.length by omega)
  rw [k1] at e2
  refine ⟨d0, d2, e0, ?_, ?_⟩
  · rw [feed_append, g1]
    simp only [Res.ok_bind, feed, List.take_length] at e2 ⊢
    rw [g4, e2]; rfl
  · simp only [feed]; rw [e2]; rfl

/-- C06, announcing the whole block twice: once the decoder is done, another call aborts. The
hypothesis of `C06_chunks` that only the last call announces the whole block is needed. -/
theorem C06_done_twice : ∃ (F : List Nat) (d0 : Dec), Bytes F ∧
    setConfiguration F.length 1 (fun _ => ⟨Mmh.zero, 0, .fresh⟩) = .ok d0 ∧
    (∃ d, feed F [F.length] d0 = .ok d) ∧ feed F [F.length, F.length] d0 = .abort := by
  refine ⟨[4, 29, 50], _, by simp [Bytes], rfl, ⟨_, rfl⟩, rfl⟩

/-- C07: for every transport block and every arrival schedule, decoding ends after finitely many
iterations without a failed assertion and without reading a byte that was not yet written; after
the whole block it is in a valid final state. Each delivered element is distinct, has its fields in
range, and the bytes of user plane data are inside the transport block. -/
theorem C07_total (F : List Nat) (mu : Nat) (pool : Ref → Obj) (ws : List Nat) (hF : Bytes F)
    (h1 : 0 < F.length) (h2 : F.length + 65536 ≤ 2 ^ 32) (hmu : mu = 1 ∨ mu = 2 ∨ mu = 4 ∨ mu = 8)
    (hs : ws.Pairwise (· ≤ ·)) (hl : ∀ w ∈ ws, w < F.length) :
    ∃ d0, setConfiguration F.length mu pool = .ok d0 ∧
      (∃ d, feed F ws d0 = .ok d ∧ ∀ s ∈ d.delivered F, ∃ x, s = some x ∧ SeenOk mu x) ∧
      (∃ d, feed F (ws ++ [F.length]) d0 = .ok d ∧ d.hasReachedValidFinalState = .ok true ∧
        d.decoded.Nodup ∧ (∀ ref ∈ d.decoded, ref.2 < poolSize ref.1) ∧
        ∀ s ∈ d.delivered F, ∃ x, s = some x ∧ SeenOk mu x) := by
  obtain ⟨d0, e0, hi, hst, hr, htb⟩ := inv_start F mu pool hF h1 h2 hmu
  have hd : d0.st ≠ .done := by rw [hst]; decide
  obtain ⟨d1, g1, g2, g3, g4, g5⟩ := feed_ok ws d0 hi hd (by simp [hr]) hs hl
  have hr1 : d1.r ≤ F.length := g5 _ (fun x hx => Nat.le_of_lt (hl x hx)) (by omega)
  obtain ⟨d2, k1, k2, k3, -, k4⟩ := loop_ok (Nat.le_refl F.length) _ d1 g2 g3 hr1 (meas_lt g2)
  have e2 := decode_eq g2 (Nat.le_refl _) hr1
  rw [k1] at e2
  have seen : ∀ {d : Dec}, Inv F mu d → ∀ s ∈ d.delivered F, ∃ x, s = some x ∧ SeenOk mu x := by
    intro d hd s hs
    simp only [delivered, List.mem_map] at hs
    obtain ⟨ref, hr, rfl⟩ := hs
    obtain ⟨x, hx1, hx2⟩ := hd.ok ref hr
    exact ⟨x, hx1, hd.muEq ▸ hx2⟩
  obtain ⟨kr, ks⟩ := k4 rfl
  refine ⟨d0, e0, ⟨d1, g1, seen g2⟩, d2, ?_, ?_, k2.nodup, fun ref hr => ?_, seen k2⟩
  · rw [feed_append, g1]
    simp only [Res.ok_bind, feed]
    rw [e2]; rfl
  · rcases ks with ks | ks <;> simp [hasReachedValidFinalState, kr, ks]
  · exact Nat.lt_of_lt_of_le (k2.below ref hr) (k2.cnt ref.1)

/-- Non-vacuity of C06 and C07: a block with a power target, user plane data and padding in three
steps. -/
example : ∃ d0 d, setConfiguration 9 1 (fun _ => ⟨Mmh.zero, 0, .fresh⟩) = .ok d0 ∧
    feed [4, 29, 50, 67, 2, 7, 8, 192, 192] [3, 6, 9] d0 = .ok d ∧
    d.delivered [4, 29, 50, 67, 2, 7, 8, 192, 192] = [some (.power ⟨50⟩), some (.data 1 [7, 8])] :=
  ⟨_, _, rfl, rfl, rfl⟩

end Verif.Mac
