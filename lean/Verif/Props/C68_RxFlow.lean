import Verif.Lemma.RxFlowPacket
import Verif.Props.C30_Cells

set_option linter.unusedSimpArgs false

/-!
# C68: the receiver walks through the OFDM symbols of a packet
-/

namespace Verif.Phy.RxFlow
open Verif.Sp3 Verif.Sp3.Cells Verif.Sp3.Cells.Spec Spec

/-- What the packet sizes say -/
theorem sizes_flow {q : PsDef} {r : PacketSizes} (h : getPacketSizes q = .ok (some r)) (h8 : r.tm.nEffTx ≠ 8) :
    bOk q.b = true ∧ (r.tm.nEffTx = 1 ∨ r.tm.nEffTx = 2 ∨ r.tm.nEffTx = 4) ∧ r.nDfSymb < 2 ^ 32 ∧
      r.nDrsSubc = 14 * q.b * r.tm.nEffTx * ((r.nDfSymb - 1) / nStep r.tm.nEffTx + 1) ∧
      r.nDfSymb = nDfSymb q.u r.nPacketSymb ∧ (q.u = 1 ∨ q.u = 2 ∨ q.u = 4 ∨ q.u = 8) ∧ 5 ≤ r.nPacketSymb ∧ r.nPacketSymb % 5 = 0 ∧
      (r.tm.nEffTx = 4 → 15 ≤ r.nPacketSymb) ∧ 98 + r.nDrsSubc < 56 * q.b * r.nDfSymb ∧
      ∀ L, PccOk q.b r.tm.nEffTx L → lastPcc q.b L ≤ r.nDfSymb ∧
        ((List.range' 1 r.nDfSymb).map fun l => (pdcSpec q.b r.tm.nEffTx L l).length).sum = r.nPdcSubc := by
  obtain ⟨hv, tm, mcs, ht, hm, ⟨hd, hpdc, -, -⟩, rfl⟩ := getPacketSizes_some h
  obtain ⟨hu, hb, -, -, htm, -, -⟩ := valid_cases hv
  obtain ⟨hn5, hn1280, hmod⟩ := nPacketSymb_range hv
  have hbok : bOk q.b = true := by rcases hb with h | h | h | h | h | h <;> rw [h] <;> rfl
  obtain ⟨-, -, -, -, hpos⟩ := luts hbok
  have hts := tm_streams ht
  change drsImpossible q.u (nPacketSymb q.u q.plt q.pl) tm.nEffTx = false at hd
  change q.b * cells q.u (nPacketSymb q.u q.plt q.pl) tm.nEffTx - 98 ≠ 0 at hpdc
  have e0 : (sizesOf q tm mcs).tm = tm := rfl
  have e1 : (sizesOf q tm mcs).nDfSymb = nDfSymb q.u (nPacketSymb q.u q.plt q.pl) := rfl
  have e2 : (sizesOf q tm mcs).nPdcSubc = q.b * cells q.u (nPacketSymb q.u q.plt q.pl) tm.nEffTx - 98 := rfl
  have e3 : (sizesOf q tm mcs).nDrsSubc = q.b * (14 * tm.nEffTx * drsSymb (nPacketSymb q.u q.plt q.pl) tm.nEffTx) := rfl
  have e4 : (sizesOf q tm mcs).nPacketSymb = nPacketSymb q.u q.plt q.pl := rfl
  rw [e0] at h8
  rw [e0, e1, e2, e3, e4]
  clear e0 e1 e2 e3 e4
  generalize nPacketSymb q.u q.plt q.pl = n at hd hpdc hn5 hn1280 hmod ⊢
  have hstr := streams_df hu hmod hn5 hts hd
  generalize tm.nEffTx = e at hd hpdc hts hstr h8 ⊢
  have hcells : q.b * cells q.u n e = 56 * q.b * nDfSymb q.u n - 14 * q.b * (e * drsSymb n e) := by
    unfold cells
    rw [Nat.mul_sub]
    congr 1 <;> ring
  rw [hcells] at hpdc ⊢
  have h4 : e = 4 → 15 ≤ n := by
    intro he
    unfold drsImpossible at hd
    simp only [Bool.or_eq_false_iff, decide_eq_false_iff_not] at hd
    omega
  have hdrs : drsSymb n e = (nDfSymb q.u n - 1) / nStep e + 1 := by
    unfold drsSymb nDfSymb nStep
    rcases hts with rfl | rfl | rfl | rfl <;> rcases hu with h | h | h | h <;> simp [h] <;> (try split) <;> omega
  have hd' : q.b * (14 * e * drsSymb n e) = 14 * q.b * (e * drsSymb n e) := by ring
  refine ⟨hbok, ?_, ?_, ?_, rfl, hu, hn5, hmod, h4, by rw [hd']; omega, fun L hL => ?_⟩
  · rcases hts with h | h | h | h <;> omega
  · unfold nDfSymb; split <;> (try split) <;> omega
  · rw [hdrs]; ring
  · have hsum := pdc_sum hpos hts hL (nDfSymb q.u n)
    have hin := pcc_inside hpos hts hL (n := nDfSymb q.u n) (by rw [hstr]; omega)
    have h98 := pcc_le_last hpos hL hin
    rw [h98, hstr] at hsum
    exact ⟨hin, by omega⟩

theorem listed_range (sel : Symbol → List Nat) (f : Nat → Symbol) : ∀ n l0, listed sel l0 ((List.range' l0 n).map f) =
    ((List.range' l0 n).map fun l => (l, sel (f l))).filter (fun x => decide (x.2 ≠ [])) := by
  intro n
  induction n with
  | zero => intro l0; rfl
  | succ n ih =>
    intro l0
    rw [List.range'_succ, List.map_cons, List.map_cons, List.filter_cons]
    unfold listed
    by_cases h : sel (f l0) = []
    · rw [if_pos h, if_neg (by simp [h]), ih]
    · rw [if_neg h, if_pos (by simp [h]), ih]

theorem filter_extend {f : Nat → List Nat} {k : Nat} (h : ∀ l, k < l → f l = []) : ∀ n, k ≤ n →
    ((List.range' 1 n).map fun l => (l, f l)).filter (fun x => decide (x.2 ≠ [])) =
      ((List.range' 1 k).map fun l => (l, f l)).filter (fun x => decide (x.2 ≠ [])) := by
  intro n
  induction n with
  | zero => intro hk; rw [Nat.le_zero.mp hk]
  | succ n ih =>
    intro hk
    rcases Nat.lt_or_eq_of_le hk with h1 | h1
    · rw [← ih (by omega), List.range'_concat, List.map_append, List.filter_append]
      simp [h (1 + n) (by omega), h (n + 1) (by omega)]
    · rw [h1]

theorem pcc_after {b nTs : Nat} {L : List Nat} (hb : 0 < b) (h : PccOk b nTs L) {l : Nat} (hl : lastPcc b L < l) :
    pccSpec (64 * b) (4 * b) L l = [] := by
  unfold pccSpec
  rw [List.map_eq_nil_iff, List.filter_eq_nil_iff]
  intro x hx
  obtain ⟨l', p, -, h2, -, hp, rfl, -⟩ := h.cell x hx
  rw [symb_eq hb hp, decide_eq_true_eq]
  unfold lastPcc at hl
  omega

/-- The last OFDM symbol carries PCC exactly if it is the last one with PCC. -/
theorem last_pcc {b nTs df : Nat} {L : List Nat} (hb : bOk b = true) (hn : TsOk nTs) (hL : pccLinear b nTs = .ok L) (h : PccOk b nTs L)
    (hdf : lastPcc b L ≤ df) (g : Nat → List (Nat × List Nat)) (pd : Nat → List Nat) :
    (∃ s, (((List.range' 1 df).map fun l => (⟨g l, pccSpec (64 * b) (4 * b) L l, pd l⟩ : Symbol)).getLast? = some s) ∧ s.pcc ≠ []) ↔ lastPcc b L = df := by
  obtain ⟨-, -, -, -, hpos⟩ := luts hb
  obtain ⟨m1, -, m3, -⟩ := flow_good hb hn hL
  obtain ⟨n, rfl⟩ : ∃ n, df = n + 1 := ⟨df - 1, by omega⟩
  rw [List.range'_concat, List.map_append, List.map_cons, List.map_nil, List.getLast?_append]
  simp only [List.getLast?_singleton, Option.some_or, Option.some.injEq, exists_eq_left', Nat.one_mul]
  rw [Nat.add_comm 1 n]
  constructor
  · intro hne
    by_contra hx
    exact hne (pcc_after hpos h (by omega))
  · intro he hx
    have := pccSpec_length b L (n + 1)
    rw [hx, ← he] at this
    simp only [List.length_nil] at this
    omega

/-- Cells of a packet, all in one -/
theorem packet_even {b nTs : Nat} (hb : bOk b = true) (hts : TsOk nTs) : ∃ L, pccLinear b nTs = .ok L ∧ PccOk b nTs L ∧
    (∀ df, packet b nTs df = .ok ((List.range' 1 df).map fun l => ⟨drsSpec b nTs l, pccSpec (64 * b) (4 * b) L l, pdcSpec b nTs L l⟩)) ∧
    (∀ l, 1 ≤ l → (pccSpec (64 * b) (4 * b) L l).length % 2 = 0) ∧ ∀ l, 1 ≤ l → (pdcSpec b nTs L l).length % 2 = 0 := by
  obtain ⟨L, l1, l2, l3⟩ := packet_ok' hb hts
  obtain ⟨L', l2', l3', lev⟩ := packet_sizes hb hts
  have hsame : ∀ l, 1 ≤ l → pccSpec (64 * b) (4 * b) L' l = pccSpec (64 * b) (4 * b) L l ∧ pdcSpec b nTs L' l = pdcSpec b nTs L l := by
    intro l hl
    have e := (l3 l).symm.trans (l3' l)
    rw [Res.ok.injEq] at e
    obtain ⟨n, rfl⟩ : ∃ n, l = n + 1 := ⟨l - 1, by omega⟩
    rw [List.range'_concat, List.map_append, List.map_append] at e
    have e' := List.append_inj_right' e (by simp)
    simp only [List.map_cons, List.map_nil, List.cons.injEq, Symbol.mk.injEq, Nat.one_mul] at e'
    rw [Nat.add_comm n 1]
    exact ⟨e'.1.2.1.symm, e'.1.2.2.symm⟩
  exact ⟨L, l1, l2, l3, fun l hl => by rw [← (hsame l hl).1]; exact (lev l hl).1, fun l hl => by rw [← (hsame l hl).2]; exact (lev l hl).2.1⟩

/-- For every packet for which there are packet sizes, with up to four transmit streams, whose last OFDM symbol has no PCC: the
receiver gets through without an error, whatever was left over from packets before and for all settings of the channel
estimation. PCC and PDC are read from exactly the cells where the transmitter has put them, in the same order, from the right
OFDM symbol, and with an estimate for every transmit stream which was made from DRS of this stream, at those places of the
packet for which the weights have been computed. -/
theorem C68_flow_partial {q : PsDef} {r : PacketSizes} (h : getPacketSizes q = .ok (some r)) (h8 : r.tm.nEffTx ≠ 8)
    {syms : List Symbol} (hp : packet q.b r.tm.nEffTx r.nDfSymb = .ok syms) (hlast : ¬ ∃ s, syms.getLast? = some s ∧ s.pcc ≠ [])
    (lrDefault : Bool) {stride : Nat} (hs : 0 < stride) (est : Nat → Option Est) :
    ∃ s, receive ⟨q.b, r.tm.nEffTx, lrDefault, stride⟩ r.nDfSymb r.nDrsSubc r.nPdcSubc est = .ok s ∧
      s.pcc.map (fun rd => (rd.l, rd.ks)) = listed Symbol.pcc 1 syms ∧
      s.pdc.map (fun rd => (rd.l, rd.ks)) = listed Symbol.pdc 1 syms ∧
      (∀ rd ∈ s.pcc, RdOk ⟨q.b, r.tm.nEffTx, lrDefault, stride⟩ (Left ⟨q.b, r.tm.nEffTx, lrDefault, stride⟩) rd) ∧
      ∀ rd ∈ s.pdc, RdOk ⟨q.b, r.tm.nEffTx, lrDefault, stride⟩ (EstOk ⟨q.b, r.tm.nEffTx, lrDefault, stride⟩ r.nDfSymb) rd := by
  obtain ⟨hb, hn, h32, hd, -, -, -, -, -, -, hL⟩ := sizes_flow h h8
  have hts : TsOk r.tm.nEffTx := by rcases hn with h | h | h <;> simp [TsOk, h]
  obtain ⟨-, -, -, -, hpos⟩ := luts hb
  obtain ⟨L, l1, l2, l3, ev1, ev2⟩ := packet_even hb hts
  obtain ⟨tab, t1, t2⟩ := pdcSymbol_ok hb hts l1 l2
  obtain ⟨d1, d2⟩ := hL L l2
  rw [l3] at hp
  cases hp
  rw [last_pcc hb hts l1 l2 d1] at hlast
  obtain ⟨s, e, g1, g2⟩ := receive_ok (c := ⟨q.b, r.tm.nEffTx, lrDefault, stride⟩) ⟨hb, hn⟩ hs l1 l2 t1 t2 ev1 ev2 (df := r.nDfSymb) (nDrs := r.nDrsSubc)
    (nPdc := r.nPdcSubc) (Nat.lt_of_le_of_ne d1 hlast) h32 hd d2 est
  refine ⟨s, e, ?_, ?_, g1.2, g2.2⟩
  · rw [listed_range, g1.1]
    exact (filter_extend (fun l hl => pcc_after hpos l2 hl) _ d1).symm
  · rw [listed_range, g2.1]

/-- If the last OFDM symbol carries PCC, the receiver is aborted by an assert though there is PDC in that symbol. -/
theorem C68_short_finding {q : PsDef} {r : PacketSizes} (h : getPacketSizes q = .ok (some r)) (h8 : r.tm.nEffTx ≠ 8)
    {syms : List Symbol} (hp : packet q.b r.tm.nEffTx r.nDfSymb = .ok syms) (hlast : ∃ s, syms.getLast? = some s ∧ s.pcc ≠ [])
    (lrDefault : Bool) (stride : Nat) (est : Nat → Option Est) :
    receive ⟨q.b, r.tm.nEffTx, lrDefault, stride⟩ r.nDfSymb r.nDrsSubc r.nPdcSubc est = .abort := by
  obtain ⟨hb, hn, h32, hd, -, -, -, -, -, -, hL⟩ := sizes_flow h h8
  have hts : TsOk r.tm.nEffTx := by rcases hn with h | h | h <;> simp [TsOk, h]
  obtain ⟨L, l1, l2, l3, ev1, ev2⟩ := packet_even hb hts
  obtain ⟨tab, t1, t2⟩ := pdcSymbol_ok hb hts l1 l2
  obtain ⟨d1, d2⟩ := hL L l2
  rw [l3] at hp
  cases hp
  rw [last_pcc hb hts l1 l2 d1] at hlast
  obtain ⟨s0, e0, i0⟩ := runPcc_ok (c := ⟨q.b, r.tm.nEffTx, lrDefault, stride⟩) ⟨hb, hn⟩ l1 l2 ev1 est
  unfold receive runPdc
  rw [e0, Res.ok_bind, t1, Res.ok_bind, i0.idx]
  have : decide (lastPcc q.b L + 1 ≤ r.nDfSymb) = false := by simp; omega
  rw [this, Res.assert_false]
  rfl

/-- These are exactly the packets of a single subslot with one of these numerologies, bandwidths and numbers of streams. -/
theorem C68_short_iff {q : PsDef} {r : PacketSizes} (h : getPacketSizes q = .ok (some r)) (h8 : r.tm.nEffTx ≠ 8)
    {syms : List Symbol} (hp : packet q.b r.tm.nEffTx r.nDfSymb = .ok syms) :
    (∃ s, syms.getLast? = some s ∧ s.pcc ≠ []) ↔ r.nPacketSymb = 5 ∧
      (q.u = 1 ∧ q.b = 1 ∧ r.tm.nEffTx = 2 ∨ (q.u = 2 ∨ q.u = 4) ∧ q.b = 2 ∨ q.u = 8 ∧ 4 ≤ q.b) := by
  obtain ⟨hb, hn, h32, hd, hdf, hu, h5, hmod, h4, hpdc, hL⟩ := sizes_flow h h8
  have hts : TsOk r.tm.nEffTx := by rcases hn with h | h | h <;> simp [TsOk, h]
  obtain ⟨L, l1, l2, l3⟩ := packet_ok' hb hts
  obtain ⟨d1, d2⟩ := hL L l2
  rw [l3] at hp
  cases hp
  rw [last_pcc hb hts l1 l2 d1]
  obtain ⟨-, m4, -, -, m5, m6⟩ := flow_good hb hts l1
  rw [hd] at hpdc
  have hn' : r.nPacketSymb = 5 ∨ 10 ≤ r.nPacketSymb := by omega
  rcases hn' with hn' | hn'
  · rw [hn'] at hdf h4
    have h2 : r.tm.nEffTx ≤ 2 := by omega
    have hM := m5 h2
    rw [hdf] at d1 hpdc ⊢
    have hstep : nStep r.tm.nEffTx = 5 := by unfold nStep; rw [if_pos h2]
    rw [hstep] at hpdc
    generalize r.tm.nEffTx = e at *
    generalize lastPcc q.b L = M at *
    unfold nDfSymb at *
    rcases b_cases hb with h | h | h | h | h | h <;> simp only [h] at * <;> rcases hn with rfl | rfl | rfl <;>
      rcases hu with g | g | g | g <;> simp [g, hM] at * <;> omega
  · have : 6 ≤ nDfSymb q.u r.nPacketSymb := by unfold nDfSymb; split <;> (try split) <;> omega
    constructor
    · intro hx; omega
    · intro hx; omega

theorem readPcc_some {c : Cfg} {L : List Nat} {dim o : Nat} (hp : L.Pairwise (· < ·)) {k : Nat} {s : St}
    (hi : s.idx = k) (hc : PccAt (groups dim o L) k s.cnt) (he : (pccSpec dim o L k).length % 2 = 0) :
    ∃ p n, readPcc c (groups dim o L) s = .ok { s with cnt := n, pcc := p } := by
  obtain ⟨h1, h2⟩ := pccSymbol_ok hp hc
  unfold readPcc
  rw [hi]
  dsimp only
  rw [h1]
  by_cases h : pccSpec dim o L k = []
  · rw [if_pos h]
    exact ⟨_, _, rfl⟩
  · rw [if_neg h]
    have : evenOk c (pccSpec dim o L k) = true := by unfold evenOk; simp [he]
    rw [this, Res.assert_true, Res.ok_bind]
    exact ⟨_, _, rfl⟩

/-- With eight transmit streams the receiver is aborted by an assert while it reads PCC: the second OFDM symbol has DRS, too, but
the table of weights for pilots from the left has one OFDM symbol. -/
theorem C68_eight_finding {q : PsDef} {r : PacketSizes} (h : getPacketSizes q = .ok (some r)) (h8 : r.tm.nEffTx = 8)
    (lrDefault : Bool) (stride : Nat) (est : Nat → Option Est) :
    receive ⟨q.b, r.tm.nEffTx, lrDefault, stride⟩ r.nDfSymb r.nDrsSubc r.nPdcSubc est = .abort := by
  rw [h8]
  obtain ⟨hv, -⟩ := getPacketSizes_some h
  obtain ⟨-, hb', -⟩ := valid_cases hv
  have hb : bOk q.b = true := by rcases hb' with h | h | h | h | h | h <;> rw [h] <;> rfl
  obtain ⟨-, -, -, -, hpos⟩ := luts hb
  have hts : TsOk 8 := by simp [TsOk]
  obtain ⟨L, l1, l2, l3, ev1, -⟩ := packet_even hb hts
  obtain ⟨-, -, -, m4, -⟩ := flow_good hb hts l1
  obtain ⟨m, hm⟩ : ∃ m, lastPcc q.b L = m + 2 := ⟨lastPcc q.b L - 2, by have := m4 rfl; omega⟩
  have hne : L ≠ [] := by
    intro hx
    have := l2.len
    rw [hx] at this
    cases this
  suffices hs : runPcc ⟨q.b, 8, lrDefault, stride⟩ est = .abort by
    unfold receive
    rw [hs]
    rfl
  unfold runPcc
  rw [pccTable_ok hb l1 l2, Res.ok_bind, pccMax_groups hne, hm]
  suffices hs : pccLoop ⟨q.b, 8, lrDefault, stride⟩ (groups (64 * q.b) (4 * q.b) L) (m + 2) (start est) = .abort by
    rw [hs]
    rfl
  have h1 : ∃ s1, (do let s ← take ⟨q.b, 8, lrDefault, stride⟩ (start est); drsFull ⟨q.b, 8, lrDefault, stride⟩ s) = .ok s1 ∧
      s1.idx = 1 ∧ s1.rel = 0 ∧ s1.cnt = 0 ∧ s1.lr = false ∧ s1.drs = ⟨2, false, 4⟩ := by
    rw [take_ok (by show 0 < psLen 8; decide), Res.ok_bind]
    exact ⟨_, rfl, rfl, rfl, rfl, rfl, rfl⟩
  obtain ⟨s1, e1, a1, a2, a3, a4, a5⟩ := h1
  obtain ⟨p, n, e2⟩ := readPcc_some (c := ⟨q.b, 8, lrDefault, stride⟩) (s := s1) l2.sorted a1 (by rw [a3]; exact pccAt_start hpos l2) (ev1 1 (Nat.le_refl _))
  have h2 : pccStep ⟨q.b, 8, lrDefault, stride⟩ (groups (64 * q.b) (4 * q.b) L) (start est) = .ok { s1 with cnt := n, pcc := p, idx := 2, rel := 1 } := by
    rw [pccStep, ← bind_assoc, e1, Res.ok_bind, e2, Res.ok_bind]
    dsimp only
    rw [a1, a2]
  rw [pccLoop, h2, Res.ok_bind, pccLoop]
  suffices hs : pccStep ⟨q.b, 8, lrDefault, stride⟩ (groups (64 * q.b) (4 * q.b) L) { s1 with cnt := n, pcc := p, idx := 2, rel := 1 } = .abort by
    rw [hs]
    rfl
  unfold pccStep
  rw [take_ok (by show 1 < psLen 8; decide), Res.ok_bind]
  unfold drsFull
  rw [if_pos (by dsimp only; rw [a5])]
  unfold drsZf
  simp [a4, a5, interpolate, lutStep]

/-! ## Weights -/

theorem optLoop_le (less stop : Nat → Bool) {m : Nat} : ∀ left i opt, opt ≤ m → i + left ≤ m + 1 → optLoop less stop left i opt ≤ m := by
  intro left
  induction left with
  | zero => intro i opt h _; exact h
  | succ n ih =>
    intro i opt h1 h2
    unfold optLoop
    dsimp only
    have ho : (if less i = true then i else opt) ≤ m := by split <;> omega
    split
    · exact ho
    · exact ih _ _ ho (by omega)

/-- For every OFDM symbol and every subcarrier the pilots to which weights are applied are all inside of the vector of pilots,
whatever the comparisons of distances give: `nof` consecutive ones of `14 b` from the left or `28 b` from both sides. -/
theorem C68_index {b nof size : Nat} (hb : bOk b = true) (hs : size = 14 * b ∧ nof ≤ 7 ∨ size = 28 * b ∧ nof ≤ 14)
    (less stop : Nat → Nat → Bool) (f : Nat) : optRow less stop size nof f + nof ≤ size := by
  have hb16 : 1 ≤ b ∧ b ≤ 16 := by rcases b_cases hb with h | h | h | h | h | h <;> omega
  have hsub : sub32 size nof = size - nof := by unfold sub32; omega
  have hle : ∀ less stop prev, prev ≤ size - nof → optIdx less stop size nof prev ≤ size - nof := by
    intro less stop prev hp
    unfold optIdx
    rw [hsub]
    exact optLoop_le less stop _ _ _ (Nat.zero_le _) (by omega)
  have : optRow less stop size nof f ≤ size - nof := by
    induction f with
    | zero => exact hle _ _ _ (Nat.zero_le _)
    | succ f ih => exact hle _ _ _ ih
  omega

/-! ## Examples -/

def exFlow : PsDef := ⟨1, 2, 0, 6, 5, 4, 2048⟩

/-- Four streams, three OFDM symbols with DRS, PCC in the second OFDM symbol. -/
theorem C68_example : (match getPacketSizes exFlow with
    | .ok (some r) => decide (r.tm.nEffTx = 4 ∧ r.nDfSymb = 28 ∧ r.nDrsSubc = 336) | _ => false) = true ∧
    (match getPacketSizes ⟨1, 1, 0, 1, 1, 1, 2048⟩ with
    | .ok (some r) => decide (r.tm.nEffTx = 2 ∧ r.nPacketSymb = 5 ∧ r.nPdcSubc = 42) | _ => false) = true ∧
    (match getPacketSizes ⟨1, 1, 1, 2, 10, 1, 2048⟩ with | .ok (some r) => decide (r.tm.nEffTx = 8) | _ => false) = true := by
  refine ⟨?_, ?_, ?_⟩ <;> decide +kernel

end Verif.Phy.RxFlow
