import Verif.Lemma.Fec

/-!
# Decoder
-/

set_option linter.unusedSimpArgs false

namespace Verif.Phy.Fec

open Sp3 Spec

variable {z : Nat} {c : Cfg} {x : RxLib} {rv : Nat} {seq : Nat → Bool}

theorem window_eq' (h : Ok z c) (i : Nat) : window c i = (start c i, usedBits c i) := window_eq h i

theorem window_end (h : Ok z c) (i : Nat) : start c i + usedBits c i ≤ start c (i + 1) := by
  rw [start]; unfold usedBits; omega

/-- State within a transmission: `cbIdx` code blocks are decoded, `lo` soft bits are received. -/
structure DInv (x : RxLib) (c : Cfg) (seq : Nat → Bool) (rv : Nat) (ys : List Int) (s : Harq x.F) (saved : Nat → Nat → Nat) (L lo : Nat)
    (st : Dec x) : Prop where
  le : st.cbIdx ≤ c.seg.C
  wp : st.wp = offset c st.cbIdx
  len : needed c ≤ st.data.length
  leng : st.data.length = L
  softD : ∀ i < st.cbIdx, st.soft i = (attempt x c seq rv ys s i).1
  crcD : ∀ i < st.cbIdx, st.crc i = (attempt x c seq rv ys s i).2.2
  data : st.data.take (offset c st.cbIdx / 8) = (List.range st.cbIdx).flatMap (block x c seq rv ys s)
  softU : ∀ i, st.cbIdx ≤ i → i < c.seg.C → st.soft i = s.soft i
  crcU : ∀ i, st.cbIdx ≤ i → i < c.seg.C → st.crc i = (s.kept i).isSome
  saved : st.saved = saved
  llr : ∀ p, start c st.cbIdx ≤ p → p < lo → st.llr p = ys.getD p 0

theorem put_ok {d : List Nat} {off : Nat} {b : List Nat} (h : off + b.length ≤ d.length) :
    put d off b = .ok (d.take off ++ b ++ d.drop (off + b.length)) := if_pos h

theorem put_take {d : List Nat} {off : Nat} {b : List Nat} (h : off + b.length ≤ d.length) {n : Nat} (hn : n ≤ b.length) :
    (d.take off ++ b ++ d.drop (off + b.length)).take (off + n) = d.take off ++ b.take n := by
  have hl : (d.take off).length = off := by rw [List.length_take]; omega
  rw [List.append_assoc, List.take_append, hl]
  rw [List.take_of_length_le (by rw [hl]; omega), show off + n - off = n by omega, List.take_append_of_le_length hn]

theorem put_length {d : List Nat} {off : Nat} {b : List Nat} (h : off + b.length ≤ d.length) :
    (d.take off ++ b ++ d.drop (off + b.length)).length = d.length := by
  simp only [List.length_append, List.length_take, List.length_drop]
  omega

theorem block_length (h : Ok z c) (ys : List Int) {s : Harq x.F} {i : Nat}
    (hk : ∀ b, s.kept i = some b → b.length = payload c i / 8) : (block x c seq rv ys s i).length = payload c i / 8 := by
  have hp := payload_ok h i
  unfold block attempt
  rw [List.length_take]
  cases hkk : s.kept i with
  | some b => simp only; rw [hk b hkk]; omega
  | none =>
    simp only
    have : (turboDecode x c i (x.combine (s.soft i) (received c seq ys i) (blockSize c i) rv)).1.length = blockSize c i / 8 := by
      unfold turboDecode
      rw [← cbLen_eq (c := c)]
      generalize x.combine (s.soft i) (received c seq ys i) (cbLen c.seg i) rv = f
      have key : ∀ fuel noi, (tdec (cbOk x c) (x.iter f (cbLen c.seg i)) fuel noi).1.length = cbLen c.seg i / 8 := by
        intro fuel
        induction fuel with
        | zero => intro noi; exact x.iter_length _ _ _
        | succ n ih =>
          intro noi
          rw [tdec]
          split
          · exact x.iter_length _ _ _
          · exact ih _
      exact key _ _
    rw [this]
    omega

theorem turbo_length (i : Nat) (f : x.F) : (turboDecode x c i f).1.length = blockSize c i / 8 := by
  unfold turboDecode
  rw [← cbLen_eq (c := c)]
  have key : ∀ fuel noi, (tdec (cbOk x c) (x.iter f (cbLen c.seg i)) fuel noi).1.length = cbLen c.seg i / 8 := by
    intro fuel
    induction fuel with
    | zero => intro noi; exact x.iter_length _ _ _
    | succ n ih =>
      intro noi
      rw [tdec]
      split
      · exact x.iter_length _ _ _
      · exact ih _
  exact key _ _

theorem end_fits (h : Ok z c) {i : Nat} (hi : i < c.seg.C) : offset c i / 8 + blockSize c i / 8 ≤ needed c := by
  have o := offset_mod h i
  have p := payload_ok h i
  have b := blockSize_ok h i
  have t := offset_total h
  have t8 := h.tbs8
  have mo := offset_mono (c := c) (by omega : i + 1 ≤ c.seg.C)
  rw [t, offset] at mo
  unfold needed
  split
  · rename_i h1
    rw [if_pos h1] at p
    omega
  · rename_i h1
    rw [if_neg h1] at p
    omega

theorem softBits_eq (h : Ok z c) {ys : List Int} {s : Harq x.F} {saved : Nat → Nat → Nat} {L : Nat} {lo : Nat} {st : Dec x}
    (hi : DInv x c seq rv ys s saved L lo st) (hlo : start c st.cbIdx + usedBits c st.cbIdx ≤ lo) :
    softBits c (descramble seq (window c st.cbIdx).1 (window c st.cbIdx).2 st.llr) st.cbIdx = received c seq ys st.cbIdx := by
  unfold softBits received
  rw [window_eq' h]
  simp only
  refine List.map_congr_left fun k hk => ?_
  have hk := List.mem_range.mp hk
  unfold descramble
  rw [if_pos ⟨by omega, by omega⟩, hi.llr _ (by omega) (by omega)]

theorem dec_step (h : Ok z c) {ys : List Int} {s : Harq x.F} {saved : Nat → Nat → Nat} {L : Nat} {lo : Nat} {st : Dec x}
    (hl : ∀ i < c.seg.C, ∀ b, s.kept i = some b → b.length = payload c i / 8 ∧ ∀ k < payload c i / 8, b[k]? = some (saved i k))
    (hi : DInv x c seq rv ys s saved L lo st) (hlt : st.cbIdx < c.seg.C) (hlo : start c st.cbIdx + usedBits c st.cbIdx ≤ lo) :
    ∃ st', decodeBlock x c rv seq st = .ok st' ∧ st'.cbIdx = st.cbIdx + 1 ∧ DInv x c seq rv ys s saved L lo st' := by
  have hsb := softBits_eq h hi hlo
  have hfit := end_fits h hlt
  have p := payload_ok h st.cbIdx
  have o := offset_mod h st.cbIdx
  have hcrc := hi.crcU _ (Nat.le_refl _) hlt
  have hlen := hi.len
  have hoff : offset c (st.cbIdx + 1) / 8 = offset c st.cbIdx / 8 + payload c st.cbIdx / 8 := by rw [offset]; omega
  have hllr : ∀ p, start c (st.cbIdx + 1) ≤ p → p < lo →
      descramble seq (window c st.cbIdx).1 (window c st.cbIdx).2 st.llr p = ys.getD p 0 := by
    intro p h1 h2
    have he := window_end h st.cbIdx
    have hs := start_mono (c := c) (Nat.le_succ st.cbIdx)
    unfold descramble
    rw [window_eq' h]
    simp only
    rw [if_neg (by omega)]
    exact hi.llr p (le_trans hs h1) h2
  cases hk : s.kept st.cbIdx with
  | some b =>
    rw [hk] at hcrc
    have hcrc : st.crc st.cbIdx = true := hcrc
    obtain ⟨hb1, hb2⟩ := hl _ hlt b hk
    have hsv : savedBytes c (st.saved st.cbIdx) st.cbIdx = b := by
      unfold savedBytes
      rw [rlenDec_eq, hi.saved]
      apply List.ext_getElem?
      intro k
      by_cases hkl : k < payload c st.cbIdx / 8
      · rw [hb2 k hkl, List.getElem?_map, List.getElem?_range hkl]; rfl
      · rw [List.getElem?_eq_none (by rw [List.length_map, List.length_range]; omega), List.getElem?_eq_none (by omega)]
    have hatt : attempt x c seq rv ys s st.cbIdx = (s.soft st.cbIdx, b, true) := by unfold attempt; rw [hk]
    have hbl : block x c seq rv ys s st.cbIdx = b := by
      unfold block; rw [hatt]; exact List.take_of_length_le hb1.le
    have hput : st.wp / 8 + b.length ≤ st.data.length := by rw [hi.wp]; omega
    refine ⟨{ st with
      cbIdx := st.cbIdx + 1, wp := st.wp + rlenDec c.seg st.cbIdx
      llr := descramble seq (window c st.cbIdx).1 (window c st.cbIdx).2 st.llr
      data := st.data.take (st.wp / 8) ++ b ++ st.data.drop (st.wp / 8 + b.length) }, ?_, rfl, ?_⟩
    · unfold decodeBlock
      simp only
      rw [if_pos hcrc, hsv, put_ok hput, Res.ok_bind]
    · refine ⟨hlt, ?_, ?_, ?_, ?_, ?_, ?_, ?_, ?_, hi.saved, hllr⟩
      · show st.wp + rlenDec c.seg st.cbIdx = offset c (st.cbIdx + 1)
        rw [hi.wp, rlenDec_eq]; rfl
      · show needed c ≤ List.length _
        rw [put_length hput]; exact hlen
      · show List.length _ = L
        rw [put_length hput]; exact hi.leng
      · intro i hi'
        rcases Nat.lt_or_eq_of_le (Nat.le_of_lt_succ (show i < st.cbIdx + 1 from hi')) with h' | h'
        · exact hi.softD i h'
        · rw [h', hatt]; exact hi.softU _ (Nat.le_refl _) hlt
      · intro i hi'
        rcases Nat.lt_or_eq_of_le (Nat.le_of_lt_succ (show i < st.cbIdx + 1 from hi')) with h' | h'
        · exact hi.crcD i h'
        · rw [h', hatt]; exact hcrc
      · show List.take (offset c (st.cbIdx + 1) / 8) _ = (List.range (st.cbIdx + 1)).flatMap _
        rw [hoff, List.range_succ, List.flatMap_append, List.flatMap_singleton, hbl]
        rw [hi.wp] at hput ⊢
        rw [put_take hput (by omega), hi.data, List.take_of_length_le (by omega)]
      · intro i h1 h2; exact hi.softU i (by have : st.cbIdx + 1 ≤ i := h1; omega) h2
      · intro i h1 h2; exact hi.crcU i (by have : st.cbIdx + 1 ≤ i := h1; omega) h2
  | none =>
    rw [hk] at hcrc
    have hcrc : st.crc st.cbIdx = false := hcrc
    have hs0 := hi.softU _ (Nat.le_refl _) hlt
    obtain ⟨f, hf⟩ : ∃ f, f = x.combine (s.soft st.cbIdx) (received c seq ys st.cbIdx) (blockSize c st.cbIdx) rv := ⟨_, rfl⟩
    have hatt : attempt x c seq rv ys s st.cbIdx = (f, turboDecode x c st.cbIdx f) := by unfold attempt; rw [hk, hf]
    have htl := turbo_length (c := c) st.cbIdx f
    have hput : st.wp / 8 + (turboDecode x c st.cbIdx f).1.length ≤ st.data.length := by rw [hi.wp]; omega
    refine ⟨{ st with
      cbIdx := st.cbIdx + 1, wp := st.wp + rlenDec c.seg st.cbIdx
      llr := descramble seq (window c st.cbIdx).1 (window c st.cbIdx).2 st.llr
      data := st.data.take (st.wp / 8) ++ (turboDecode x c st.cbIdx f).1 ++ st.data.drop (st.wp / 8 + (turboDecode x c st.cbIdx f).1.length)
      soft := Function.update st.soft st.cbIdx f
      crc := Function.update st.crc st.cbIdx (turboDecode x c st.cbIdx f).2 }, ?_, rfl, ?_⟩
    · unfold decodeBlock
      simp only
      rw [if_neg (by rw [hcrc]; exact Bool.false_ne_true), hsb, hs0, cbLen_eq, ← hf, put_ok hput, Res.ok_bind]
    · refine ⟨hlt, ?_, ?_, ?_, ?_, ?_, ?_, ?_, ?_, hi.saved, hllr⟩
      · show st.wp + rlenDec c.seg st.cbIdx = offset c (st.cbIdx + 1)
        rw [hi.wp, rlenDec_eq]; rfl
      · show needed c ≤ List.length _
        rw [put_length hput]; exact hlen
      · show List.length _ = L
        rw [put_length hput]; exact hi.leng
      · intro i hi'
        show Function.update st.soft st.cbIdx f i = _
        rcases Nat.lt_or_eq_of_le (Nat.le_of_lt_succ (show i < st.cbIdx + 1 from hi')) with h' | h'
        · rw [Function.update_of_ne (by omega)]; exact hi.softD i h'
        · rw [h', Function.update_self, hatt]
      · intro i hi'
        show Function.update st.crc st.cbIdx _ i = _
        rcases Nat.lt_or_eq_of_le (Nat.le_of_lt_succ (show i < st.cbIdx + 1 from hi')) with h' | h'
        · rw [Function.update_of_ne (by omega)]; exact hi.crcD i h'
        · rw [h', Function.update_self, hatt]
      · show List.take (offset c (st.cbIdx + 1) / 8) _ = (List.range (st.cbIdx + 1)).flatMap _
        rw [hoff, List.range_succ, List.flatMap_append, List.flatMap_singleton]
        rw [hi.wp] at hput ⊢
        rw [put_take hput (by omega), hi.data]
        congr 1
        unfold block
        rw [hatt]
      · intro i h1 h2
        have h1 : st.cbIdx + 1 ≤ i := h1
        show Function.update st.soft st.cbIdx f i = _
        rw [Function.update_of_ne (by omega)]
        exact hi.softU i (by omega) h2
      · intro i h1 h2
        have h1 : st.cbIdx + 1 ≤ i := h1
        show Function.update st.crc st.cbIdx _ i = _
        rw [Function.update_of_ne (by omega)]
        exact hi.crcU i (by omega) h2

theorem dec_loop (h : Ok z c) {ys : List Int} {s : Harq x.F} {saved : Nat → Nat → Nat} {L : Nat} {lo : Nat}
    (hl : ∀ i < c.seg.C, ∀ b, s.kept i = some b → b.length = payload c i / 8 ∧ ∀ k < payload c i / 8, b[k]? = some (saved i k)) :
    ∀ (d : Nat) (st : Dec x), c.seg.C - st.cbIdx = d → DInv x c seq rv ys s saved L lo st →
      ∃ st', decodeLoop x c rv seq lo st = .ok st' ∧ DInv x c seq rv ys s saved L lo st' ∧
        (st'.cbIdx = c.seg.C ∨ lo < start c st'.cbIdx + usedBits c st'.cbIdx) := by
  intro d
  induction d with
  | zero =>
    intro st hd hi
    refine ⟨st, ?_, hi, Or.inl (by have := hi.le; omega)⟩
    rw [decodeLoop, if_neg (by omega)]
  | succ d ih =>
    intro st hd hi
    by_cases hw : start c st.cbIdx + usedBits c st.cbIdx ≤ lo
    · obtain ⟨st1, h1, h2, h3⟩ := dec_step h hl hi (by omega) hw
      obtain ⟨st', a1, a2, a3⟩ := ih st1 (by omega) h3
      refine ⟨st', ?_, a2, a3⟩
      rw [decodeLoop, if_pos ⟨by omega, by rw [window_eq' h]; exact hw⟩]
      split
      · rename_i st2 he
        rw [h1] at he
        cases he
        exact a1
      · rename_i he; rw [h1] at he; cases he
      · rename_i he; rw [h1] at he; cases he
    · refine ⟨st, ?_, hi, Or.inr (by omega)⟩
      rw [decodeLoop, if_neg (by rw [window_eq' h]; exact fun hx => hw hx.2)]

theorem final_idem (h : Ok z c) (st : Dec x) : finalCheck x c (finalCheck x c st).2 = finalCheck x c st := by
  have hp := h.pos
  by_cases h1 : ∀ i < c.seg.C, st.crc i = true
  · by_cases h2 : c.seg.C = 1
    · have e : finalCheck x c st = (true, st) := by unfold finalCheck; rw [if_neg (not_not.mpr h1), if_pos h2]
      rw [e]; exact e
    · by_cases h3 : x.crcMatch (st.data.take (c.tbs / 8 + 3)) = true
      · have e : finalCheck x c st = (true, st) := by unfold finalCheck; rw [if_neg (not_not.mpr h1), if_neg h2, if_pos h3]
        rw [e]; exact e
      · have e : finalCheck x c st = (false, { st with crc := fun i => if i < c.seg.C then false else st.crc i }) := by
          unfold finalCheck; rw [if_neg (not_not.mpr h1), if_neg h2, if_neg h3]
        rw [e]
        unfold finalCheck
        rw [if_pos]
        · congr 2
          funext i k
          unfold saveBlocks
          rw [if_neg]
          intro hx
          have h4 : (if i < c.seg.C then false else st.crc i) = true := hx.2.1
          rw [if_pos hx.1] at h4
          cases h4
        · intro hx
          have := hx 0 hp
          simp only at this
          rw [if_pos hp] at this
          cases this
  · have e : finalCheck x c st = (false, { st with saved := saveBlocks c st.crc st.data st.saved }) := by
      unfold finalCheck; rw [if_pos h1]
    rw [e]
    unfold finalCheck
    rw [if_pos h1]
    congr 2
    funext i k
    unfold saveBlocks
    dsimp only
    split <;> rfl

theorem final_llr (st : Dec x) (llr : Nat → Int) :
    finalCheck x c { st with llr := llr } = ((finalCheck x c st).1, { (finalCheck x c st).2 with llr := llr }) := by
  unfold finalCheck
  split
  · rfl
  split
  · rfl
  split
  · rfl
  · rfl

theorem final_idx (st : Dec x) : (finalCheck x c st).2.cbIdx = st.cbIdx := by
  unfold finalCheck
  split
  · rfl
  split
  · rfl
  split
  · rfl
  · rfl

theorem decodeTb_eq (h : Ok z c) {maxCb limit : Nat} (h1 : c.seg.C ≤ maxCb) (h2 : c.seg.C ≤ limit) {n : Nat} (hn : n ≤ c.G) (st : Dec x) :
    decodeTb x maxCb limit c rv seq n st = (do
      let st ← decodeLoop x c rv seq n st
      if st.cbIdx = c.seg.C then .ok (finalCheck x c st) else .ok (false, st)) := by
  unfold decodeTb
  rw [decide_eq_true hn, Res.assert_true, Res.ok_bind, decide_eq_true h.F, Res.assert_true, Res.ok_bind, decide_eq_true h1,
    Res.assert_true, Res.ok_bind, decide_eq_true h2, Res.assert_true, Res.ok_bind, decide_eq_true (Nat.pos_iff_ne_zero.mp h.qm),
    Res.assert_true, Res.ok_bind]

theorem getD_prefix {xs ys : List Int} {a : Nat} (hx : xs.drop a = ys) (k : Nat) : ys.getD k 0 = xs.getD (a + k) 0 := by
  subst hx
  simp [List.getD_eq_getElem?_getD]

/-- State between the symbols: either code blocks are missing, or the final check has been made. -/
def Between (x : RxLib) (c : Cfg) (seq : Nat → Bool) (rv : Nat) (ys : List Int) (s : Harq x.F) (saved : Nat → Nat → Nat) (L lo : Nat)
    (b : Bool) (st : Dec x) : Prop :=
  (b = false ∧ st.cbIdx < c.seg.C ∧ (lo = 0 ∨ lo < start c st.cbIdx + usedBits c st.cbIdx) ∧ DInv x c seq rv ys s saved L lo st) ∨
    ∃ st1, st1.cbIdx = c.seg.C ∧ DInv x c seq rv ys s saved L lo st1 ∧ (b, st) = finalCheck x c st1

theorem receive_ok (h : Ok z c) {maxCb limit : Nat} (h1 : c.seg.C ≤ maxCb) (h2 : c.seg.C ≤ limit) {ys : List Int} (hys : ys.length = c.G)
    {s : Harq x.F} {saved : Nat → Nat → Nat} {L : Nat}
    (hl : ∀ i < c.seg.C, ∀ b, s.kept i = some b → b.length = payload c i / 8 ∧ ∀ k < payload c i / 8, b[k]? = some (saved i k)) :
    ∀ (chunks : List (List Int)) (lo : Nat) (b : Bool) (st : Dec x), ys.drop lo = chunks.flatten → lo ≤ c.G →
      Between x c seq rv ys s saved L lo b st →
      ∃ b' st', receive x maxCb limit c rv seq lo chunks b st = .ok (b', st') ∧ Between x c seq rv ys s saved L c.G b' st' := by
  intro chunks
  induction chunks with
  | nil =>
    intro lo b st hd hlo hb
    refine ⟨b, st, rfl, ?_⟩
    have : lo = c.G := by
      have := congrArg List.length hd
      rw [List.length_drop, hys] at this
      simp at this
      omega
    rw [← this]; exact hb
  | cons y rest ih =>
    intro lo b st hd hlo hb
    have hlen := congrArg List.length hd
    rw [List.length_drop, hys, List.flatten_cons, List.length_append] at hlen
    have hd' : ys.drop (lo + y.length) = rest.flatten := by
      rw [← List.drop_drop, hd, List.flatten_cons, List.drop_left]
    have hy : ∀ p, lo ≤ p → p < lo + y.length → y.getD (p - lo) 0 = ys.getD p 0 := by
      intro p hp1 hp2
      have := getD_prefix hd (p - lo)
      rw [show lo + (p - lo) = p by omega] at this
      rw [← this, List.flatten_cons, List.getD_eq_getElem?_getD, List.getD_eq_getElem?_getD, List.getElem?_append_left (by omega)]
    have hstore : ∀ st1 : Dec x, DInv x c seq rv ys s saved L lo st1 → ∀ llr, (∀ p, start c st1.cbIdx ≤ p → p < lo → llr p = st1.llr p) →
        DInv x c seq rv ys s saved L (lo + y.length) { st1 with llr := store lo y llr } := by
      intro st1 hi llr hll
      refine ⟨hi.le, hi.wp, hi.len, hi.leng, hi.softD, hi.crcD, hi.data, hi.softU, hi.crcU, hi.saved, ?_⟩
      intro p hp1 hp2
      show store lo y llr p = _
      unfold store
      by_cases hp : lo ≤ p
      · rw [if_pos ⟨hp, hp2⟩, hy p hp hp2]
      · rw [if_neg (fun hx => hp hx.1), hll p hp1 (by omega)]
        exact hi.llr p hp1 (by omega)
    rw [receive, decodeTb_eq h h1 h2 (by omega)]
    rcases hb with ⟨rfl, hlt, -, hi⟩ | ⟨st1, hC, hi, he⟩
    · obtain ⟨st2, a1, a2, a3⟩ := dec_loop h hl _ { st with llr := store lo y st.llr } rfl (hstore st hi st.llr (fun _ _ _ => rfl))
      rw [a1, Res.ok_bind]
      by_cases hC : st2.cbIdx = c.seg.C
      · rw [if_pos hC, Res.ok_bind]
        exact ih _ _ _ hd' (by omega) (Or.inr ⟨st2, hC, a2, rfl⟩)
      · rw [if_neg hC, Res.ok_bind]
        exact ih _ _ _ hd' (by omega) (Or.inl ⟨rfl, Nat.lt_of_le_of_ne a2.le hC, Or.inr (a3.resolve_left hC), a2⟩)
    · have hst : st = (finalCheck x c st1).2 := congrArg Prod.snd he
      have hidx : st.cbIdx = c.seg.C := by rw [hst, final_idx, hC]
      have e2 : decodeLoop x c rv seq (lo + y.length) { st with llr := store lo y st.llr } = .ok { st with llr := store lo y st.llr } := by
        rw [decodeLoop, if_neg]
        intro hx
        have hx := hx.1
        simp only at hx
        omega
      rw [e2, Res.ok_bind, if_pos hidx, Res.ok_bind]
      refine ih _ _ _ hd' (by omega) (Or.inr ⟨{ st1 with llr := store lo y st.llr }, hC, ?_, ?_⟩)
      · refine hstore st1 hi st.llr ?_
        intro p hp1 hp2
        rw [hC, start_total h] at hp1
        omega
      · have e3 : finalCheck x c st = finalCheck x c st1 := by rw [hst]; exact final_idem h st1
        have a := final_llr (c := c) st (store lo y st.llr)
        have b := final_llr (c := c) st1 (store lo y st.llr)
        rw [e3] at a
        exact a.trans b.symm

end Verif.Phy.Fec
