import Verif.Lemma.SymbolMap
import Verif.Lemma.CellsSize
import Verif.Props.C30_Cells

/-!
# C67: all coded bits are put on the subcarriers in order
-/

namespace Verif.Phy.SymbolMap
open Verif.Sp3 Verif.Sp3.Cells Verif.Sp3.Cells.Spec Verif.Spec.SymbolMap

/-- The symbol mapper cuts the bits of the octets `d`, from octet `o` on, into groups; for all five tables, whether a group fits
into an octet or not. -/
theorem C67_modulate {bps : Nat} (hb : bps = 1 ∨ bps = 2 ∨ bps = 4 ∨ bps = 6 ∨ bps = 8) {d : List Nat} (hd : ∀ x ∈ d, x < 256)
    {o n : Nat} (hn : n % bps = 0) (hl : 8 * o + n ≤ 8 * d.length) :
    modulate bps d o n = .ok ((List.range (n / bps)).map fun j => number d (8 * o + j * bps) bps) :=
  modulate_ok hb hd hn hl

variable {K : Type} [Field K]

theorem order_index (sel : Symbol → List Nat) : ∀ (xs : List Symbol) (l0 i l k : Nat), (order sel l0 xs)[i]? = some (l, k) →
    ∃ n x j, l = l0 + n ∧ xs[n]? = some x ∧ (sel x)[j]? = some k ∧ i = ((xs.take n).map fun x => (sel x).length).sum + j := by
  intro xs
  induction xs with
  | nil => intro l0 i l k h; simp [order] at h
  | cons x xs ih =>
    intro l0 i l k h
    unfold order at h
    rw [List.getElem?_append, List.length_map] at h
    split at h
    · rename_i hi
      rw [List.getElem?_map, Option.map_eq_some_iff] at h
      obtain ⟨k', hk, he⟩ := h
      cases he
      exact ⟨0, x, i, rfl, rfl, hk, by simp⟩
    · rename_i hi
      obtain ⟨n, x', j, h1, h2, h3, h4⟩ := ih _ _ _ _ h
      refine ⟨n + 1, x', j, by omega, by simpa using h2, h3, ?_⟩
      simp only [List.take_succ_cons, List.map_cons, List.sum_cons]
      omega

theorem order_length (sel : Symbol → List Nat) : ∀ (xs : List Symbol) (l0 : Nat),
    (order sel l0 xs).length = (xs.map fun x => (sel x).length).sum := by
  intro xs
  induction xs with
  | nil => intro l0; rfl
  | cons x xs ih => intro l0; simp [order, ih]

theorem mem_order (sel : Symbol → List Nat) : ∀ (xs : List Symbol) (l0 n k : Nat) (x : Symbol), xs[n]? = some x → k ∈ sel x →
    (l0 + n, k) ∈ order sel l0 xs := by
  intro xs
  induction xs with
  | nil => intro l0 n k x h; simp at h
  | cons z xs ih =>
    intro l0 n k x h hk
    unfold order
    rw [List.mem_append]
    cases n with
    | zero =>
      simp only [List.getElem?_cons_zero, Option.some.injEq] at h
      subst h
      exact Or.inl (List.mem_map.mpr ⟨k, hk, rfl⟩)
    | succ n =>
      right
      have := ih (l0 + 1) n k x (by simpa using h) hk
      rwa [show l0 + (n + 1) = l0 + 1 + n by omega]

theorem allOk_index {c : Cfg} {psym sym : Nat → Cx K} {y : Nat → Nat → Nat → Cx K} : ∀ (xs : List Symbol) (sts : List (Stage K)) (P C l : Nat),
    AllOk c psym sym y P C l xs sts → sts.length = xs.length ∧ ∀ n x, xs[n]? = some x → ∃ st, sts[n]? = some st ∧
      StageOk c psym sym (y (l + n)) (P + ((xs.take n).map fun x => x.pcc.length).sum) (C + ((xs.take n).map fun x => x.pdc.length).sum) x st := by
  intro xs
  induction xs with
  | nil =>
    intro sts P C l h
    cases sts with
    | nil => exact ⟨rfl, fun n x hx => by simp at hx⟩
    | cons _ _ => exact absurd h id
  | cons z xs ih =>
    intro sts P C l h
    cases sts with
    | nil => exact absurd h id
    | cons st sts =>
      obtain ⟨h1, h2⟩ := h
      obtain ⟨i1, i2⟩ := ih sts _ _ _ h2
      refine ⟨by simp [i1], fun n x hx => ?_⟩
      cases n with
      | zero =>
        simp only [List.getElem?_cons_zero, Option.some.injEq] at hx
        subst hx
        exact ⟨st, rfl, by simpa using h1⟩
      | succ n =>
        obtain ⟨st', e, hs⟩ := i2 n x (by simpa using hx)
        refine ⟨st', by simpa using e, ?_⟩
        simp only [List.take_succ_cons, List.map_cons, List.sum_cons]
        rw [show l + (n + 1) = l + 1 + n by omega, ← Nat.add_assoc, ← Nat.add_assoc]
        exact hs

theorem sizesOk_of (f : Nat → Symbol) : ∀ (n l C : Nat), (∀ i, l ≤ i → (f i).pdc.length = 0 ∨ 24 ≤ (f i).pdc.length ∨
    (C = 0 ∧ ∀ i', l ≤ i' → i' < i → (f i').pdc.length = 0)) → SizesOk C ((List.range' l n).map f) := by
  intro n
  induction n with
  | zero => intro l C _; exact trivial
  | succ n ih =>
    intro l C h
    rw [List.range'_succ, List.map_cons]
    refine ⟨?_, ih _ _ fun i hi => ?_⟩
    · rcases h l le_rfl with h | h | h
      · exact Or.inl h
      · exact Or.inr (Or.inl h)
      · exact Or.inr (Or.inr h.1)
    · rcases h i (by omega) with h | h | h
      · exact Or.inl h
      · exact Or.inr (Or.inl h)
      · refine Or.inr (Or.inr ⟨?_, fun i' h1 h2 => h.2 i' (by omega) h2⟩)
        rw [h.1, h.2 l le_rfl (by omega)]

/-- **C67.** For every packet for which there are packet sizes, with an MCS up to 9: the transmitter finishes without an error and
- cell `i` of the PCC carries symbol `i` of the PLCF, with transmit diversity if there is more than one transmit stream;
- cell `i` of the PDC carries, in modes 1, 5 and 10, symbol `i` of the transport block with transmit diversity, otherwise on each
  spatial stream the next symbol; symbol `j` is made from bits `j * nBps` to `(j + 1) * nBps - 1`;
- every DRS has its value;
- and there is nothing else. -/
theorem C67_grid {q : PsDef} {r : PacketSizes} (h : getPacketSizes q = .ok (some r)) (hm : q.mcs ≤ 9) {cap : Nat}
    (hcap : r.tm.nSs * (56 * q.b) + 23 ≤ cap) (qpsk point : Nat → Cx K) (y : Nat → Nat → Nat → Cx K) {dPcc d : List Nat}
    (hp8 : ∀ x ∈ dPcc, x < 256) (hp : 196 ≤ 8 * dPcc.length) (hd8 : ∀ x ∈ d, x < 256) (hd : r.G ≤ 8 * d.length) :
    ∃ syms stages, packet q.b r.tm.nTs r.nDfSymb = .ok syms ∧ txPacket r cap qpsk point y dPcc d = .ok stages ∧
      stages.length = r.nDfSymb ∧
      (order Symbol.pcc 1 syms).length = 98 ∧ (order Symbol.pdc 1 syms).length = r.nPdcSubc ∧
      r.G = r.nPdcSubc * r.tm.nSs * r.mcs.nBps ∧
      (∀ i l k, (order Symbol.pcc 1 syms)[i]? = some (l, k) → ∀ t, value stages l t k =
        if r.tm.nTs = 1 then multiplexed 1 (fun j => qpsk (number dPcc (j * 2) 2)) i t
        else diversity r.tm.nTs (fun j => qpsk (number dPcc (j * 2) 2)) i t) ∧
      (∀ i l k, (order Symbol.pdc 1 syms)[i]? = some (l, k) → ∀ t, value stages l t k =
        if q.tm = 1 ∨ q.tm = 5 ∨ q.tm = 10 then diversity r.tm.nTs (fun j => point (number d (j * r.mcs.nBps) r.mcs.nBps)) i t
        else multiplexed r.tm.nSs (fun j => point (number d (j * r.mcs.nBps) r.mcs.nBps)) i t) ∧
      (∀ l t k, 1 ≤ l → l ≤ r.nDfSymb → DrsCell q.b r.tm.nTs t l k → value stages l t k = y l t k) ∧
      (∀ l t k, 1 ≤ l → l ≤ r.nDfSymb → (l, k) ∉ order Symbol.pcc 1 syms → (l, k) ∉ order Symbol.pdc 1 syms → ¬ DrsCell q.b r.tm.nTs t l k →
        value stages l t k = 0) := by
  obtain ⟨hv, tm, mcs, ht, hmc, -, rfl⟩ := getPacketSizes_some h
  obtain ⟨hu, hb, -, -, htm, -, -⟩ := valid_cases hv
  have hbok : bOk q.b = true := by rcases hb with h | h | h | h | h | h <;> rw [h] <;> rfl
  have hts := tm_streams ht
  obtain ⟨-, hG, -⟩ := bits_range hv ht hmc
  obtain ⟨syms, hsyms, hlen, hsym, hpccsum, hpdcsum, hdrssum⟩ := C30_cells h
  obtain ⟨L, hL, hpk, hsz⟩ := packet_sizes hbok hts
  have hnTs : tm.nTs = tm.nEffTx := by
    match hq : q.tm, ht with
    | 0, ht | 1, ht | 2, ht | 3, ht | 4, ht | 5, ht | 6, ht | 7, ht | 8, ht | 9, ht | 10, ht | 11, ht => cases ht; rfl
    | _ + 12, ht => cases ht
  have e0 : (sizesOf q tm mcs).tm = tm := rfl
  have e1 : (sizesOf q tm mcs).mcs = mcs := rfl
  have e2 : (sizesOf q tm mcs).psdef = q := rfl
  have e3 : (sizesOf q tm mcs).G = (sizesOf q tm mcs).nPdcSubc * tm.nSs * mcs.nBps := by
    show tm.nSs * _ * mcs.nBps = _ * tm.nSs * mcs.nBps
    rw [Nat.mul_comm tm.nSs]; rfl
  rw [e0] at hsyms hsym hcap
  rw [e0, e1]
  generalize hr : sizesOf q tm mcs = r at *
  -- cells
  have hsymseq : syms = (List.range' 1 r.nDfSymb).map fun l => Symbol.mk (drsSpec q.b tm.nEffTx l) (pccSpec (64 * q.b) (4 * q.b) L l) (pdcSpec q.b tm.nEffTx L l) := by
    rw [hpk] at hsyms
    exact (Res.ok.inj hsyms).symm
  have hidx : ∀ n x, syms[n]? = some x → x = Symbol.mk (drsSpec q.b tm.nEffTx (n + 1)) (pccSpec (64 * q.b) (4 * q.b) L (n + 1)) (pdcSpec q.b tm.nEffTx L (n + 1)) := by
    intro n x hx
    rw [hsymseq, List.getElem?_map, Option.map_eq_some_iff] at hx
    obtain ⟨l, hl, rfl⟩ := hx
    obtain ⟨h1, h2⟩ := List.getElem?_eq_some_iff.mp hl
    rw [List.getElem_range'] at h2
    rw [← h2, Nat.one_mul, Nat.add_comm]
  have hsymok : ∀ x ∈ syms, SymOk x := by
    intro x hx
    obtain ⟨n, hn⟩ := List.mem_iff_getElem?.mp hx
    obtain ⟨h1, h2, h3, -, -, h6, h7⟩ := hsym n x hn
    obtain ⟨z1, z2, -⟩ := hsz (n + 1) (by omega)
    have hxe := hidx n x hn
    refine ⟨h6.imp Nat.ne_of_lt, h7.imp Nat.ne_of_lt, ?_, ?_, ?_, by rw [hxe]; exact z1, by rw [hxe]; exact z2⟩
    · intro k hk hk'
      exact ((h3 k).mp hk').2.2 hk
    · rintro k hk ⟨t, ks⟩ he hk'
      exact (h2 k hk).2 ⟨t, (h1 t k).mp ⟨ks, he, hk'⟩⟩
    · rintro k hk ⟨t, ks⟩ he hk'
      exact ((h3 k).mp hk).2.1 ⟨t, (h1 t k).mp ⟨ks, he, hk'⟩⟩
  have hsizes : SizesOk 0 syms := by
    rw [hsymseq]
    apply sizesOk_of
    intro i hi
    obtain ⟨-, -, -, z⟩ := hsz i hi
    rcases z with z | z | z
    · exact Or.inl z
    · exact Or.inr (Or.inl z)
    · exact Or.inr (Or.inr ⟨rfl, fun i' h1 h2 => z i' h1 h2⟩)
  -- the configuration
  let c : Cfg := ⟨tm.nTs, tm.nSs, q.tm == 1 || q.tm == 5 || q.tm == 10, mcs.nBps, modemBps q.mcs, r.G, cap⟩
  have hdiv : c.diversity = true ↔ (q.tm = 1 ∨ q.tm = 5 ∨ q.tm = 10) := by
    show (q.tm == 1 || q.tm == 5 || q.tm == 10) = true ↔ _
    simp only [Bool.or_eq_true, beq_iff_eq, or_assoc]
  have hc : CfgOk c d r.nPdcSubc := by
    refine ⟨by show TsOk tm.nTs; rw [hnTs]; exact hts, ?_, ?_, ?_, ?_, e3, by show r.G < _; omega, hd8, hd⟩
    · show 0 < tm.nSs
      match hq : q.tm, ht with
      | 0, ht | 1, ht | 2, ht | 3, ht | 4, ht | 5, ht | 6, ht | 7, ht | 8, ht | 9, ht | 10, ht | 11, ht => cases ht; decide
      | _ + 12, ht => cases ht
    · show mcs.nBps = 1 ∨ mcs.nBps = 2 ∨ mcs.nBps = 4 ∨ mcs.nBps = 6 ∨ mcs.nBps = 8
      match hq : q.mcs, hmc with
      | 0, ht | 1, ht | 2, ht | 3, ht | 4, ht | 5, ht | 6, ht | 7, ht | 8, ht | 9, ht => cases ht; decide
      | _ + 10, _ => omega
    · show modemBps q.mcs = mcs.nBps
      match hq : q.mcs, hmc with
      | 0, ht | 1, ht | 2, ht | 3, ht | 4, ht | 5, ht | 6, ht | 7, ht | 8, ht | 9, ht => cases ht; rfl
      | _ + 10, _ => omega
    · intro hdv
      show tm.nSs = 1 ∧ (tm.nTs = 2 ∨ tm.nTs = 4 ∨ tm.nTs = 8)
      rcases hdiv.mp hdv with hq | hq | hq <;> rw [hq] at ht <;> cases ht <;> decide
  have hbps : 0 < mcs.nBps := by rcases hc.bps with h | h | h | h | h <;> change mcs.nBps = _ at h <;> omega
  -- symbols of the PCC
  have hpcc : pccSymbols qpsk dPcc = .ok ((List.range 98).map fun j => qpsk (number dPcc (j * 2) 2)) := by
    unfold pccSymbols
    rw [modulate_ok (Or.inr (Or.inl rfl)) hp8 (by decide) (by omega), Res.ok_bind]
    simp [Function.comp_def]
  -- the loop
  have hstart : Inv c (pdcSym c point d) 0 0 0 (Tx.start : Tx K) :=
    ⟨rfl, rfl, by show 0 = _; omega, by show 0 ≤ 23; omega, rfl, by show 0 = (0 * c.nSs + 0) * _; omega, by show 0 ≤ _; omega, Or.inl rfl, fun _ => rfl, rfl⟩
  have hcap' : ∀ x ∈ syms, c.nSs * x.pdc.length + 23 ≤ c.cap := by
    intro x hx
    obtain ⟨n, hn⟩ := List.mem_iff_getElem?.mp hx
    obtain ⟨-, -, z, -⟩ := hsz (n + 1) (by omega)
    rw [hidx n x hn]
    have : tm.nSs * (pdcSpec q.b tm.nEffTx L (n + 1)).length ≤ tm.nSs * (56 * q.b) := Nat.mul_le_mul_left _ z
    show tm.nSs * (pdcSpec q.b tm.nEffTx L (n + 1)).length + 23 ≤ cap
    omega
  obtain ⟨stages, s', hloop, hinv, hall⟩ := txLoop_ok hc (psym := fun j => qpsk (number dPcc (j * 2) 2)) rfl y syms 1 0 0 0 Tx.start hstart rfl hsymok hsizes
    (by rw [hpccsum]) (by rw [hpdcsum]; omega) hcap'
  rw [hpccsum, hpdcsum, hdrssum] at hinv
  simp only [Nat.zero_add] at hinv
  have hres : s'.resid = 0 := by
    have := hinv.le
    rw [hinv.bits, hc.G, Nat.mul_le_mul_right_iff (show 0 < c.nBps from hbps)] at this
    omega
  obtain ⟨hl, hst⟩ := allOk_index syms stages 0 0 1 hall
  have hval : ∀ n x, syms[n]? = some x → StageOk c (fun j => qpsk (number dPcc (j * 2) 2)) (pdcSym c point d) (y (1 + n))
      ((syms.take n).map fun x => x.pcc.length).sum ((syms.take n).map fun x => x.pdc.length).sum x (value stages (1 + n)) := by
    intro n x hx
    obtain ⟨st, e, hs⟩ := hst n x hx
    have : value stages (1 + n) = st := by
      unfold value
      rw [show 1 + n - 1 = n by omega, List.getD_eq_getElem?_getD, e]
      rfl
    rw [this]
    simpa using hs
  refine ⟨syms, stages, by rw [hnTs]; exact hsyms, ?_, by rw [hl, hlen], by rw [order_length, hpccsum], by rw [order_length, hpdcsum], e3, ?_, ?_, ?_, ?_⟩
  · unfold txPacket
    rw [e2, e0, e1, decide_eq_true hm, Res.assert_true, Res.ok_bind, hnTs, hsyms, Res.ok_bind, ← hnTs, hpcc, Res.ok_bind]
    dsimp only
    rw [hloop, Res.ok_bind]
    dsimp only
    rw [hinv.pcc, hinv.drs, hinv.bits, hinv.subc, hres, decide_eq_true rfl, Res.assert_true, Res.ok_bind, decide_eq_true rfl, Res.assert_true, Res.ok_bind,
      decide_eq_true (by rw [e3, Nat.add_zero]), Res.assert_true, Res.ok_bind, decide_eq_true rfl, Res.assert_true, Res.ok_bind]
    rfl
  · intro i l k hi t
    obtain ⟨n, x, j, rfl, hx, hj, rfl⟩ := order_index _ _ _ _ _ _ hi
    obtain ⟨hj1, hj2⟩ := List.getElem?_eq_some_iff.mp hj
    have := (hval n x hx).pcc j hj1 t
    rw [hj2] at this
    exact this
  · intro i l k hi t
    obtain ⟨n, x, j, rfl, hx, hj, rfl⟩ := order_index _ _ _ _ _ _ hi
    obtain ⟨hj1, hj2⟩ := List.getElem?_eq_some_iff.mp hj
    have := (hval n x hx).pdc j hj1 t
    rw [hj2] at this
    simp only [hdiv] at this
    exact this
  · intro l t k h1 h2 hcell
    have hx : syms[l - 1]? = some syms[l - 1] := List.getElem?_eq_getElem (by omega)
    have hs := hval _ _ hx
    rw [show 1 + (l - 1) = l by omega] at hs
    obtain ⟨h3, -⟩ := hsym _ _ hx
    rw [show l - 1 + 1 = l by omega] at h3
    rw [hnTs] at hcell
    obtain ⟨ks, he, hk⟩ := (h3 t k).mpr hcell
    exact hs.drs (t, ks) he k hk
  · intro l t k hl1 hl2 h1 h2 hcell
    have hx : syms[l - 1]? = some syms[l - 1] := List.getElem?_eq_getElem (by omega)
    have hs := hval _ _ hx
    rw [show 1 + (l - 1) = l by omega] at hs
    obtain ⟨h3, -⟩ := hsym _ _ hx
    rw [show l - 1 + 1 = l by omega] at h3
    apply hs.other
    · intro hk
      have := mem_order Symbol.pcc syms 1 (l - 1) k _ hx hk
      rw [show 1 + (l - 1) = l by omega] at this
      exact h1 this
    · intro hk
      have := mem_order Symbol.pdc syms 1 (l - 1) k _ hx hk
      rw [show 1 + (l - 1) = l by omega] at this
      exact h2 this
    · rintro ⟨t', ks⟩ he rfl hk
      rw [hnTs] at hcell
      exact hcell ((h3 t k).mp ⟨ks, he, hk⟩)

/-- MCS 10 and 11 are refused. -/
theorem C67_refused (r : PacketSizes) (hm : 9 < r.psdef.mcs) (cap : Nat) (qpsk point : Nat → Cx K) (y : Nat → Nat → Nat → Cx K) (dPcc d : List Nat) :
    txPacket r cap qpsk point y dPcc d = .abort := by
  unfold txPacket
  rw [decide_eq_false (by omega), Res.assert_false]
  rfl

/-- The buffer for complex symbols, with the size given by the maximum packet sizes of a radio device class (tx_rx.cpp:125-128),
is large enough for every packet of that class: `C67_grid` applies to all of them. -/
theorem C67_buffer {c : Rdc} {M : PacketSizes} (h : maximumPacketSizes c = .ok M) {q : PsDef} {t : Tm} (ha : Spec.Allowed c q t)
    {r : PacketSizes} (hr : getPacketSizes q = .ok (some r)) :
    r.tm.nSs * (56 * q.b) + 23 ≤ M.tm.nSs * (56 * M.psdef.b) + 23 := by
  obtain ⟨i, hi, hq⟩ := max_some h
  obtain ⟨hnTx, tM, htM, hE, hS⟩ := maxTm hi
  obtain ⟨hv, t', mc, ht', hmc, -, rfl⟩ := getPacketSizes_some hr
  obtain ⟨hvM, tM', mcM, htM', hmcM, hexM, rfl⟩ := getPacketSizes_some hq
  have e0 : tM' = tM := Res.ok.inj (htM'.symm.trans htM)
  have e1 : t' = t := Res.ok.inj (ht'.symm.trans ha.tm)
  subst e0 e1
  obtain ⟨-, hs, hle⟩ := stream_pairs ht' ha.nTx
  show t'.nSs * (56 * q.b) + 23 ≤ tM'.nSs * (56 * c.bMin) + 23
  refine Nat.add_le_add_right (Nat.mul_le_mul ?_ (Nat.mul_le_mul_left _ ha.b)) _
  rw [hS]
  rcases hs with hs | hs <;> omega

/-- A packet with eight transmit streams and one with four spatial streams, two slots and 64-QAM: sizes for which `C67_grid` holds;
groups of bits across octets; the streams of a pair -/
theorem C67_example : (∃ r, getPacketSizes exPacket = .ok (some r) ∧ exPacket.mcs ≤ 9 ∧ r.tm.nTs = 8 ∧ r.G = 574 ∧
      r.tm.nSs * (56 * exPacket.b) + 23 ≤ 79) ∧
    (match getPacketSizes ⟨1, 1, 1, 2, 6, 6, 2048⟩ with
      | .ok (some r) => decide (r.tm.nSs = 4 ∧ r.mcs.nBps = 6 ∧ r.nPdcSubc = 798 ∧ r.G = 19152)
      | _ => false) = true ∧
    modulate 6 [0x12, 0x34, 0x56] 0 24 = .ok [0b000100, 0b100011, 0b010001, 0b010110] ∧
    pair 8 15 = (3, 7) := by
  refine ⟨⟨_, rfl, by decide +kernel⟩, by decide +kernel, by decide +kernel, by decide⟩

end Verif.Phy.SymbolMap
