import Verif.Model.Pcc
import Mathlib.Data.List.Basic

/-!
# C66: A PLCF arrives with its flags, and one with up to three bit errors never does -/

namespace Verif.Props.C66
open Verif.Phy.Pcc

/-! ## Specification -/

/-- Octet with which both octets of the checksum are masked -/
def maskByte : Bool → Bool → Byte
  | false, false => 0x00#8
  | true, false => 0x55#8
  | false, true => 0xAA#8
  | true, true => 0xFF#8

/-- PLCF followed by its masked checksum -/
def codeword (a : List Byte) (cl bf : Bool) : List Byte :=
  a ++ [(crc16 a).extractLsb' 8 8 ^^^ maskByte cl bf, (crc16 a).extractLsb' 0 8 ^^^ maskByte cl bf]

/-- All bits of a sequence of octets -/
def bits (l : List Byte) : List Bool := l.flatMap byteBits

/-- Number of bits in which two sequences of octets differ -/
def distance (x y : List Byte) : Nat := ((bits x).zipWith xor (bits y)).count true

/-! ## Encoder and check -/

theorem split16 (x : BitVec 16) : x.extractLsb' 8 8 ++ x.extractLsb' 0 8 = x := by
  have := BitVec.extractLsb'_append_extractLsb'_eq_extractLsb' (x := x) (start₁ := 0) (len₁ := 8) (start₂ := 8)
    (len₂ := 8) rfl
  rw [this]
  apply BitVec.eq_of_getLsbD_eq
  intro i hi
  simp only [BitVec.getLsbD_extractLsb']
  simp; omega

theorem append16_inj {a b c d : Byte} : (a ++ b : BitVec 16) = (c ++ d : BitVec 16) ↔ a = c ∧ b = d := by
  constructor
  · intro h
    have h1 := congrArg (BitVec.extractLsb' 8 8) h
    have h2 := congrArg (BitVec.extractLsb' 0 8) h
    rw [BitVec.extractLsb'_append_eq_left, BitVec.extractLsb'_append_eq_left] at h1
    rw [BitVec.extractLsb'_append_eq_right, BitVec.extractLsb'_append_eq_right] at h2
    exact ⟨h1, h2⟩
  · rintro ⟨rfl, rfl⟩; rfl

theorem mask_eq (cl bf : Bool) : maskOf cl bf = (maskByte cl bf ++ maskByte cl bf : BitVec 16) := by
  cases cl <;> cases bf <;> decide

theorem getD_append_n (a : List Byte) (x y : Byte) : (a ++ [x, y]).getD a.length 0 = x ∧ (a ++ [x, y]).getD (a.length + 1) 0 = y := by
  constructor
  · simp [List.getD_eq_getElem?_getD]
  · simp [List.getD_eq_getElem?_getD]

theorem set_append_n (a : List Byte) (x y x' y' : Byte) :
    ((a ++ [x, y]).set a.length x').set (a.length + 1) y' = a ++ [x', y'] := by
  rw [List.set_append_right _ _ (Nat.le_refl _), Nat.sub_self]
  rw [List.set_append_right _ _ (Nat.le_succ _)]
  simp

theorem codeword_length (a : List Byte) (cl bf : Bool) : (codeword a cl bf).length = a.length + 2 := by
  simp [codeword]

/-- What is handed to the turbo encoder -/
theorem C66_encode (a : List Byte) (type : Nat) (cl bf : Bool) :
    (type = 1 ∨ type = 2 → a.length = nofBytes type → encode a type cl bf = .ok (codeword a cl bf)) ∧
      (type ≠ 1 → type ≠ 2 → encode a type cl bf = .abort) := by
  constructor
  · intro ht ha
    unfold encode
    simp only [ht, decide_true, Res.assert_true, Res.ok_bind]
    rw [if_neg (by omega)]
    have htake : List.take (nofBytes type) a = a := List.take_of_length_le (by omega)
    unfold attach
    rw [htake, htake]
    obtain ⟨g1, g2⟩ := getD_append_n a ((crc16 a).extractLsb' 8 8) ((crc16 a).extractLsb' 0 8)
    unfold load16 store16
    rw [← ha, g1, g2, mask_eq, BitVec.xor_append, BitVec.extractLsb'_append_eq_left, BitVec.extractLsb'_append_eq_right,
      set_append_n]
    rfl
  · intro h1 h2
    simp [encode, h1, h2]

theorem word_split (w : List Byte) (n : Nat) (h : w.length = n + 2) : w = w.take n ++ [w.getD n 0, w.getD (n + 1) 0] := by
  apply List.ext_getElem
  · simp [h]
  · intro i h1 h2
    rcases Nat.lt_or_ge i n with hlt | hge
    · rw [List.getElem_append_left (by simp; omega), List.getElem_take]
    · rw [List.getElem_append_right (by simp; omega)]
      have hl : (w.take n).length = n := by simp; omega
      rcases Nat.lt_or_ge i (n + 1) with h3 | h3
      · have : i = n := by omega
        subst this
        simp [hl, List.getD_eq_getElem?_getD, h1]
      · have : i = n + 1 := by omega
        subst this
        simp [hl, List.getD_eq_getElem?_getD, h1]

/-- The octets of an iteration are accepted exactly if they are the encoding of what is returned. -/
theorem check_iff (w : List Byte) (n : Nat) (h : w.length = n + 2) (cl bf : Bool) :
    check w n = some (cl, bf) ↔ w = codeword (w.take n) cl bf := by
  have hn : (w.take n).length = n := by simp; omega
  have hmem : ∀ cl bf, load16 w n ^^^ maskOf cl bf = load16 (attach w n) n ↔ w = codeword (w.take n) cl bf := by
    intro cl bf
    obtain ⟨g1, g2⟩ := getD_append_n (w.take n) ((crc16 (w.take n)).extractLsb' 8 8) ((crc16 (w.take n)).extractLsb' 0 8)
    rw [hn] at g1 g2
    unfold load16 attach
    rw [g1, g2, mask_eq, BitVec.xor_append, append16_inj]
    have hw := word_split w n h
    have hx : ∀ x m y : Byte, x ^^^ m = y ↔ x = y ^^^ m := by
      intro x m y
      constructor
      · rintro rfl; rw [BitVec.xor_assoc, BitVec.xor_self, BitVec.xor_zero]
      · rintro rfl; rw [BitVec.xor_assoc, BitVec.xor_self, BitVec.xor_zero]
    rw [hx, hx]
    constructor
    · rintro ⟨h1, h2⟩
      unfold codeword
      rw [← h1, ← h2]; exact hw
    · intro hc
      unfold codeword at hc
      have := hc.symm.trans hw
      have hi := List.append_inj_right this rfl
      simp only [List.cons.injEq, and_true] at hi
      exact ⟨hi.2.symm, hi.1.symm⟩
  have hdis : ∀ c b c' b', w = codeword (w.take n) c b → w = codeword (w.take n) c' b' → c = c' ∧ b = b' := by
    intro c b c' b' h1 h2
    have := h1.symm.trans h2
    unfold codeword at this
    have hi := List.append_inj_right this rfl
    simp only [List.cons.injEq, and_true] at hi
    have := hi.1
    rw [BitVec.xor_right_inj] at this
    revert this
    cases c <;> cases b <;> cases c' <;> cases b' <;> decide
  have e1 := hmem false false
  have e2 := hmem true false
  have e3 := hmem false true
  have e4 := hmem true true
  unfold check
  dsimp only
  change (if load16 w n ^^^ maskOf false false = _ then _ else if load16 w n ^^^ maskOf true false = _ then _
    else if load16 w n ^^^ maskOf false true = _ then _ else if load16 w n ^^^ maskOf true true = _ then _ else _) = _ ↔ _
  simp only [e1, e2, e3, e4]
  constructor
  · intro hh
    split at hh
    · cases hh; assumption
    · split at hh
      · cases hh; assumption
      · split at hh
        · cases hh; assumption
        · split at hh
          · cases hh; assumption
          · cases hh
  · intro hc
    split
    · have := hdis _ _ _ _ hc ‹_›; rw [this.1, this.2]
    · split
      · have := hdis _ _ _ _ hc ‹_›; rw [this.1, this.2]
      · split
        · have := hdis _ _ _ _ hc ‹_›; rw [this.1, this.2]
        · split
          · have := hdis _ _ _ _ hc ‹_›; rw [this.1, this.2]
          · exfalso
            cases cl <;> cases bf <;> contradiction

/-! ## Distance of codewords -/

theorem zx (x : BitVec 16) : 0 ^^^ x = x := BitVec.zero_xor
theorem xz (x : BitVec 16) : x ^^^ 0 = x := BitVec.xor_zero

/-- Sum of the vectors selected by the bits -/
def lin : List (BitVec 16) → List Bool → BitVec 16
  | x :: xs, b :: bs => (if b then x else 0) ^^^ lin xs bs
  | _, _ => 0

theorem lin_xor (t : List (BitVec 16)) : ∀ (x y : List Bool), x.length = t.length → y.length = t.length →
    lin t (x.zipWith xor y) = lin t x ^^^ lin t y := by
  induction t with
  | nil => intro x y _ _; simp [lin]
  | cons v t ih =>
    intro x y hx hy
    match x, y, hx, hy with
    | a :: x, b :: y, hx, hy =>
      simp only [List.zipWith_cons_cons, lin]
      rw [ih x y (by simpa using hx) (by simpa using hy)]
      generalize lin t x = p
      generalize lin t y = q
      cases a <;> cases b <;> simp only [Bool.xor_false, Bool.xor_true, Bool.not_true, Bool.not_false, if_true,
        Bool.false_eq_true, if_false, zx]
      · rw [← BitVec.xor_assoc, ← BitVec.xor_assoc, BitVec.xor_comm v p]
      · rw [BitVec.xor_assoc]
      · rw [BitVec.xor_assoc, ← BitVec.xor_assoc p v q, BitVec.xor_comm p v, BitVec.xor_assoc v p q, ← BitVec.xor_assoc v v,
          BitVec.xor_self, BitVec.zero_xor]

theorem step_xor (r s : BitVec 16) (a b : Bool) : crcStep (r ^^^ s) (a ^^ b) = crcStep r a ^^^ crcStep s b := by
  unfold crcStep
  rw [BitVec.msb_xor, BitVec.shiftLeft_xor_distrib]
  generalize r <<< 1 = p
  generalize s <<< 1 = q
  generalize (0x1021#16) = g
  have h1 : p ^^^ q ^^^ g = p ^^^ g ^^^ q := by rw [BitVec.xor_assoc, BitVec.xor_comm q g, BitVec.xor_assoc]
  have h2 : p ^^^ g ^^^ (q ^^^ g) = p ^^^ q := by
    rw [BitVec.xor_comm q g, BitVec.xor_assoc, ← BitVec.xor_assoc g g, BitVec.xor_self, BitVec.zero_xor]
  have h3 : p ^^^ q ^^^ g = p ^^^ (q ^^^ g) := BitVec.xor_assoc ..
  cases r.msb <;> cases s.msb <;> cases a <;> cases b <;> simp [h2] <;> first | exact h1 | exact h3

/-- Register after `k` further zeros -/
def zeros (k : Nat) (r : BitVec 16) : BitVec 16 := (List.replicate k false).foldl crcStep r

theorem fold_xor (l : List Bool) : ∀ r : BitVec 16, l.foldl crcStep r = zeros l.length r ^^^ l.foldl crcStep 0 := by
  have key : ∀ (l : List Bool) (r s : BitVec 16), l.foldl crcStep (r ^^^ s) = zeros l.length r ^^^ l.foldl crcStep s := by
    intro l
    induction l with
    | nil => intro r s; simp [zeros]
    | cons b l ih =>
      intro r s
      rw [List.foldl_cons, List.foldl_cons]
      have := step_xor r s false b
      rw [Bool.false_xor] at this
      rw [this, ih]
      congr 1
  intro r
  have := key l r 0
  rwa [xz] at this

/-- Checksums of the sequences with a single one, for each of `k` positions -/
def table : Nat → List (BitVec 16)
  | 0 => []
  | k + 1 => zeros k (crcStep 0 true) :: table k

theorem table_length (k : Nat) : (table k).length = k := by
  induction k with
  | zero => rfl
  | succ k ih => simp [table, ih]

theorem zeros_zero (k : Nat) : zeros k 0 = 0 := by
  induction k with
  | zero => rfl
  | succ k ih =>
    unfold zeros at ih ⊢
    rw [List.replicate_succ, List.foldl_cons]
    have : crcStep 0 false = 0 := by decide
    rw [this, ih]

theorem crc_lin (l : List Bool) : l.foldl crcStep 0 = lin (table l.length) l := by
  induction l with
  | nil => rfl
  | cons b l ih =>
    rw [List.foldl_cons, fold_xor, ih]
    show _ = (if b then zeros l.length (crcStep 0 true) else 0) ^^^ lin (table l.length) l
    congr 1
    cases b
    · have : crcStep 0 false = 0 := by decide
      simp only [this, zeros_zero, Bool.false_eq_true, if_false]
    · rfl

/-- Bits of the checksum -/
def basis : List (BitVec 16) := (List.range 16).map fun i => 1#16 <<< (15 - i)

theorem byteBits_length (x : Byte) : (byteBits x).length = 8 := by simp [byteBits]

theorem bits_length (l : List Byte) : (bits l).length = 8 * l.length := by
  induction l with
  | nil => rfl
  | cons x l ih =>
    unfold bits at ih ⊢
    rw [List.flatMap_cons, List.length_append, ih, byteBits_length, List.length_cons]
    omega

theorem lin_append (t u : List (BitVec 16)) : ∀ (x y : List Bool), x.length = t.length →
    lin (t ++ u) (x ++ y) = lin t x ^^^ lin u y := by
  induction t with
  | nil => intro x y hx; have : x = [] := by simpa using hx
           subst this; simp [lin]
  | cons v t ih =>
    intro x y hx
    match x, hx with
    | a :: x, hx =>
      simp only [List.cons_append, lin]
      rw [ih x y (by simpa using hx), BitVec.xor_assoc]

theorem hi_lin : ∀ x : Byte, (x ++ (0 : Byte) : BitVec 16) = lin (basis.take 8) (byteBits x) := by decide +kernel
theorem lo_lin : ∀ x : Byte, ((0 : Byte) ++ x : BitVec 16) = lin (basis.drop 8) (byteBits x) := by decide +kernel

theorem val_lin (x y : Byte) : (x ++ y : BitVec 16) = lin basis (byteBits x ++ byteBits y) := by
  have : basis = basis.take 8 ++ basis.drop 8 := (List.take_append_drop 8 basis).symm
  rw [this, lin_append _ _ _ _ (by rw [byteBits_length]; rfl), ← hi_lin, ← lo_lin, BitVec.xor_append]
  simp

/-- Contribution of each bit of a word to the difference of the checksums -/
def weights (n : Nat) : List (BitVec 16) := table (8 * n) ++ basis

theorem weights_length (n : Nat) : (weights n).length = 8 * (n + 2) := by
  unfold weights basis
  rw [List.length_append, table_length, List.length_map, List.length_range]; omega

theorem codeword_lin (a : List Byte) (cl bf : Bool) : lin (weights a.length) (bits (codeword a cl bf)) = maskOf cl bf := by
  unfold codeword bits weights
  rw [List.flatMap_append, lin_append _ _ _ _ (by rw [table_length]; exact bits_length a)]
  have h1 : lin (table (8 * a.length)) (a.flatMap byteBits) = crc16 a := by
    unfold crc16
    rw [crc_lin]
    have := bits_length a
    unfold bits at this
    rw [this]
  rw [h1]
  simp only [List.flatMap_cons, List.flatMap_nil, List.append_nil]
  rw [← val_lin, ← BitVec.xor_append, split16, ← mask_eq, ← BitVec.xor_assoc, BitVec.xor_self, BitVec.zero_xor]

/-- Number of ones, modulo two -/
def odd (x : BitVec 16) : Bool :=
  (List.range 16).foldl (fun s i => match x.getLsbD i with | true => !s | false => s) false

theorem odd_xor (x y : BitVec 16) : odd (x ^^^ y) = (odd x ^^ odd y) := by
  have key : ∀ (l : List Nat) (s r : Bool),
      l.foldl (fun s i => match (x ^^^ y).getLsbD i with | true => !s | false => s) (s ^^ r) =
      (l.foldl (fun s i => match x.getLsbD i with | true => !s | false => s) s ^^
        l.foldl (fun s i => match y.getLsbD i with | true => !s | false => s) r) := by
    intro l
    induction l with
    | nil => intro s r; rfl
    | cons i l ih =>
      intro s r
      rw [List.foldl_cons, List.foldl_cons, List.foldl_cons, ← ih, BitVec.getLsbD_xor]
      congr 1
      cases s <;> cases r <;> cases x.getLsbD i <;> cases y.getLsbD i <;> rfl
  exact key (List.range 16) false false

theorem odd_lin (t : List (BitVec 16)) (ht : ∀ x ∈ t, odd x = true) : ∀ d : List Bool, d.length = t.length →
    odd (lin t d) = decide (d.count true % 2 = 1) := by
  induction t with
  | nil => intro d hd; have : d = [] := by simpa using hd
           subst this; decide
  | cons v t ih =>
    intro d hd
    match d, hd with
    | a :: d, hd =>
      have ih' := ih (fun x hx => ht x (List.mem_cons_of_mem _ hx)) d (by simpa using hd)
      have hv := ht v List.mem_cons_self
      unfold lin
      rw [odd_xor, ih']
      cases a
      · have : odd (0 : BitVec 16) = false := by decide +kernel
        simp only [Bool.false_eq_true, if_false, this, Bool.false_xor]
        rw [List.count_cons_of_ne (by decide)]
      · simp only [if_true, hv, Bool.true_xor, List.count_cons_self]
        rcases Nat.mod_two_eq_zero_or_one (d.count true) with h | h <;> simp [h] <;> omega

theorem lin_count_one (t : List (BitVec 16)) : ∀ d : List Bool, d.length = t.length → d.count true = 1 → lin t d ∈ t := by
  have h0 : ∀ (t : List (BitVec 16)) (d : List Bool), d.count true = 0 → lin t d = 0 := by
    intro t
    induction t with
    | nil => intro d _; simp [lin]
    | cons v t ih =>
      intro d hd
      cases d with
      | nil => simp [lin]
      | cons a d =>
        cases a
        · unfold lin
          rw [ih d (by simpa using hd)]
          simp
        · simp at hd
  induction t with
  | nil => intro d hd hc; have : d = [] := by simpa using hd
           subst this; simp at hc
  | cons v t ih =>
    intro d hd hc
    match d, hd with
    | a :: d, hd =>
      unfold lin
      cases a
      · have := ih d (by simpa using hd) (by simpa using hc)
        simp only [Bool.false_eq_true, if_false, zx]
        exact List.mem_cons_of_mem _ this
      · rw [h0 t d (by simpa using hc)]
        simp

theorem lin_count_two (P : BitVec 16 → Prop) (t : List (BitVec 16)) (ht : t.Pairwise fun x y => P (x ^^^ y)) :
    ∀ d : List Bool, d.length = t.length → d.count true = 2 → P (lin t d) := by
  induction t with
  | nil => intro d hd hc; have : d = [] := by simpa using hd
           subst this; simp at hc
  | cons v t ih =>
    intro d hd hc
    rw [List.pairwise_cons] at ht
    match d, hd with
    | a :: d, hd =>
      unfold lin
      cases a
      · simp only [Bool.false_eq_true, if_false, zx]
        exact ih ht.2 d (by simpa using hd) (by simpa using hc)
      · simp only [if_true]
        exact ht.1 _ (lin_count_one t d (by simpa using hd) (by simpa using hc))

/-- Differences of masks -/
def masks : List (BitVec 16) := [maskNone, maskMimoCl, maskBf, maskMimoClBf]

/-- Values of `weights 10` -/
def weightsVal : List Nat :=
  [58420, 29210, 14605, 38038, 19019, 44341, 56970, 28485, 49074, 24537, 43004, 21502, 10751, 40175, 50791,
   60195, 64897, 63184, 31592, 15796, 7898, 3949, 36774, 18387, 44025, 56812, 28406, 14203, 37805, 49606,
   24803, 47201, 54304, 27152, 13576, 6788, 3394, 1697, 35648, 17824, 8912, 4456, 2228, 1114, 557, 35078,
   17539, 43601, 56632, 28316, 14158, 7079, 34243, 51953, 60776, 30388, 15194, 7597, 34502, 17251, 43425,
   56512, 28256, 14128, 7064, 3532, 1766, 883, 35241, 52420, 26210, 13105, 37256, 18628, 9314, 4657, 33032,
   16516, 8258, 4129, 32768, 16384, 8192, 4096, 2048, 1024, 512, 256, 128, 64, 32, 16, 8, 4, 2, 1]

theorem weights_eq10 : (weights 10).map BitVec.toNat = weightsVal := by decide +kernel
theorem weights_eq5 : (weights 5).map BitVec.toNat = weightsVal.drop 40 := by decide +kernel

/-- `odd` of the value -/
def oddVal (n : Nat) : Bool := (List.range 16).foldl (fun s i => match n.testBit i with | true => !s | false => s) false

theorem vals_odd : weightsVal.all oddVal = true := by decide +kernel

theorem weights_odd : (∀ x ∈ weights 5, odd x = true) ∧ (∀ x ∈ weights 10, odd x = true) := by
  have h := List.all_eq_true.1 vals_odd
  constructor
  · intro x hx
    have : x.toNat ∈ weightsVal.drop 40 := by rw [← weights_eq5]; exact List.mem_map_of_mem hx
    exact h _ (List.mem_of_mem_drop this)
  · intro x hx
    have : x.toNat ∈ weightsVal := by rw [← weights_eq10]; exact List.mem_map_of_mem hx
    exact h _ this

/-- No element differs from `x` by one of the masks. -/
def clear (x : Nat) : List Nat → Bool
  | [] => true
  | y :: l => match Nat.xor x y with
    | z => !(Nat.beq z 0) && !(Nat.beq z 0x5555) && !(Nat.beq z 0xAAAA) && !(Nat.beq z 0xFFFF) && clear x l

/-- No two elements differ by one of the masks. -/
def allClear : List Nat → Bool
  | [] => true
  | x :: l => clear x l && allClear l

theorem clear_iff (x : BitVec 16) (l : List (BitVec 16)) (h : clear x.toNat (l.map BitVec.toNat) = true) :
    ∀ y ∈ l, (x ^^^ y) ∉ masks := by
  induction l with
  | nil => intro y hy; cases hy
  | cons v l ih =>
    simp only [List.map_cons, clear, Bool.and_eq_true, Bool.not_eq_true'] at h
    obtain ⟨⟨⟨⟨h0, h1⟩, h2⟩, h3⟩, h4⟩ := h
    intro y hy
    rcases List.mem_cons.1 hy with rfl | hy
    · have hx : Nat.xor x.toNat y.toNat = (x ^^^ y).toNat := (BitVec.toNat_xor x y).symm
      rw [hx] at h0 h1 h2 h3
      intro hm
      have n0 := Nat.ne_of_beq_eq_false h0
      have n1 := Nat.ne_of_beq_eq_false h1
      have n2 := Nat.ne_of_beq_eq_false h2
      have n3 := Nat.ne_of_beq_eq_false h3
      unfold masks at hm
      simp only [List.mem_cons, List.not_mem_nil, or_false] at hm
      rcases hm with hm | hm | hm | hm <;> rw [hm] at n0 n1 n2 n3
      · exact n0 rfl
      · exact n1 rfl
      · exact n2 rfl
      · exact n3 rfl
    · exact ih h4 y hy

theorem allClear_iff (l : List (BitVec 16)) (h : allClear (l.map BitVec.toNat) = true) :
    l.Pairwise fun x y => (x ^^^ y) ∉ masks := by
  induction l with
  | nil => exact List.Pairwise.nil
  | cons v l ih =>
    simp only [List.map_cons, allClear, Bool.and_eq_true] at h
    exact List.Pairwise.cons (clear_iff v l h.1) (ih h.2)

theorem weights_pairs : (weights 5).Pairwise (fun x y => (x ^^^ y) ∉ masks) ∧
    (weights 10).Pairwise (fun x y => (x ^^^ y) ∉ masks) := by
  constructor
  · apply allClear_iff; rw [weights_eq5]; decide +kernel
  · apply allClear_iff; rw [weights_eq10]; decide +kernel

theorem masks_closed (a b c d : Bool) : maskOf a b ^^^ maskOf c d ∈ masks := by
  cases a <;> cases b <;> cases c <;> cases d <;> decide

theorem masks_even : ∀ x ∈ masks, odd x = false := by
  intro x hx
  unfold masks at hx
  simp only [List.mem_cons, List.not_mem_nil, or_false] at hx
  rcases hx with rfl | rfl | rfl | rfl
  · show oddVal 0 = false; decide +kernel
  · show oddVal 0x5555 = false; decide +kernel
  · show oddVal 0xAAAA = false; decide +kernel
  · show oddVal 0xFFFF = false; decide +kernel

theorem byteBits_inj (x y : Byte) (h : byteBits x = byteBits y) : x = y := by
  apply BitVec.eq_of_getMsbD_eq
  intro i hi
  have := congrArg (fun l : List Bool => l[i]?) h
  simpa [byteBits, hi] using this

theorem bits_inj (x y : List Byte) (hl : x.length = y.length) (h : bits x = bits y) : x = y := by
  induction x generalizing y with
  | nil => exact (List.length_eq_zero_iff.1 hl.symm).symm
  | cons a x ih =>
    match y, hl with
    | b :: y, hl =>
      unfold bits at h
      rw [List.flatMap_cons, List.flatMap_cons] at h
      have h1 := List.append_inj_left h (by rw [byteBits_length, byteBits_length])
      have h2 := List.append_inj_right h (by rw [byteBits_length, byteBits_length])
      rw [byteBits_inj a b h1, ih y (by simpa using hl) h2]

theorem count_zero_eq (x y : List Bool) (hl : x.length = y.length) (h : (x.zipWith xor y).count true = 0) : x = y := by
  induction x generalizing y with
  | nil => exact (List.length_eq_zero_iff.1 hl.symm).symm
  | cons a x ih =>
    match y, hl with
    | b :: y, hl =>
      rw [List.zipWith_cons_cons] at h
      cases a <;> cases b <;> simp at h ⊢ <;> exact ih y (by simpa using hl) (by simpa using h)

theorem distance_self (x : List Byte) : distance x x = 0 := by
  unfold distance
  induction bits x with
  | nil => rfl
  | cons b l ih =>
    rw [List.zipWith_cons_cons, Bool.xor_self, List.count_cons_of_ne (by decide)]
    exact ih

/-- Two different PLCFs of the same type, or the same one with different flags, are encoded into words that differ in an
even number of bits, and in at least four. -/
theorem C66_distance (type : Nat) (ht : type = 1 ∨ type = 2) (a a' : List Byte) (ha : a.length = nofBytes type)
    (ha' : a'.length = nofBytes type) (cl bf cl' bf' : Bool) (hne : ¬ (a = a' ∧ cl = cl' ∧ bf = bf')) :
    distance (codeword a cl bf) (codeword a' cl' bf') % 2 = 0 ∧ 4 ≤ distance (codeword a cl bf) (codeword a' cl' bf') := by
  have hl1 : (bits (codeword a cl bf)).length = (weights (nofBytes type)).length := by
    rw [bits_length, codeword_length, weights_length, ha]
  have hl2 : (bits (codeword a' cl' bf')).length = (weights (nofBytes type)).length := by
    rw [bits_length, codeword_length, weights_length, ha']
  have hlin : lin (weights (nofBytes type)) ((bits (codeword a cl bf)).zipWith xor (bits (codeword a' cl' bf'))) ∈ masks := by
    rw [lin_xor _ _ _ hl1 hl2]
    have h1 := codeword_lin a cl bf
    have h2 := codeword_lin a' cl' bf'
    rw [ha] at h1
    rw [ha'] at h2
    rw [h1, h2]
    exact masks_closed ..
  have hlen : ((bits (codeword a cl bf)).zipWith xor (bits (codeword a' cl' bf'))).length = (weights (nofBytes type)).length := by
    rw [List.length_zipWith, hl1, hl2, Nat.min_self]
  have hodd : ∀ x ∈ weights (nofBytes type), odd x = true := by
    rcases ht with rfl | rfl
    · exact weights_odd.1
    · exact weights_odd.2
  have hpair : (weights (nofBytes type)).Pairwise (fun x y => (x ^^^ y) ∉ masks) := by
    rcases ht with rfl | rfl
    · exact weights_pairs.1
    · exact weights_pairs.2
  have hpar := odd_lin _ hodd _ hlen
  rw [masks_even _ hlin] at hpar
  have hpar' := of_decide_eq_false hpar.symm
  have h2 : distance (codeword a cl bf) (codeword a' cl' bf') ≠ 2 := fun h => lin_count_two (· ∉ masks) _ hpair _ hlen h hlin
  have h0 : distance (codeword a cl bf) (codeword a' cl' bf') ≠ 0 := by
    intro h
    apply hne
    have hb := count_zero_eq _ _ (by rw [hl1, hl2]) h
    have hw := bits_inj _ _ (by rw [codeword_length, codeword_length, ha, ha']) hb
    have h1 := List.append_inj_left hw (by rw [ha, ha'])
    have h3 := List.append_inj_right hw (by rw [ha, ha'])
    rw [h1] at h3
    simp only [List.cons.injEq, and_true] at h3
    have h4 := h3.1
    rw [BitVec.xor_right_inj] at h4
    refine ⟨h1, ?_⟩
    revert h4
    cases cl <;> cases bf <;> cases cl' <;> cases bf' <;> decide
  unfold distance at h0 h2 ⊢
  omega

/-! ## Receiver -/

theorem iterate_spec (n : Nat) (out : Nat → List Byte) (hlen : ∀ i, (out i).length = n + 2) (left : Nat) : ∀ i,
    match iterate n out left i with
    | some (a, cl, bf) => ∃ k, i ≤ k ∧ k < i + left ∧ out k = codeword a cl bf ∧ a.length = n ∧
        ∀ k', i ≤ k' → k' < k → ∀ a' cl' bf', a'.length = n → out k' ≠ codeword a' cl' bf'
    | none => ∀ k, i ≤ k → k < i + left → ∀ a' cl' bf', a'.length = n → out k ≠ codeword a' cl' bf' := by
  have hnone : ∀ i, check (out i) n = none → ∀ a' cl' bf', a'.length = n → out i ≠ codeword a' cl' bf' := by
    intro i hc a' cl' bf' ha' he
    have htake : (out i).take n = a' := by rw [he]; unfold codeword; rw [List.take_append_of_le_length (by omega)]
                                           exact List.take_of_length_le (by omega)
    have := (check_iff (out i) n (hlen i) cl' bf').2 (by rw [htake]; exact he)
    rw [hc] at this
    cases this
  induction left with
  | zero => intro i; simp only [iterate]; intro k h1 h2; omega
  | succ left ih =>
    intro i
    unfold iterate
    cases hc : check (out i) n with
    | some f =>
      obtain ⟨cl, bf⟩ := f
      refine ⟨i, by omega, by omega, (check_iff _ n (hlen i) cl bf).1 hc, by rw [List.length_take, hlen i]; omega, ?_⟩
      intro k' h1 h2; omega
    | none =>
      have := ih (i + 1)
      dsimp only
      cases hi : iterate n out left (i + 1) with
      | some f =>
        obtain ⟨a, cl, bf⟩ := f
        rw [hi] at this
        obtain ⟨k, h1, h2, h3, h4, h5⟩ := this
        refine ⟨k, by omega, by omega, h3, h4, ?_⟩
        intro k' hk1 hk2
        rcases Nat.eq_or_lt_of_le hk1 with rfl | hlt
        · exact hnone _ hc
        · exact h5 k' (by omega) hk2
      | none =>
        rw [hi] at this
        intro k h1 h2
        rcases Nat.eq_or_lt_of_le h1 with rfl | hlt
        · exact hnone _ hc
        · exact this k (by omega) (by omega)

/-- Whatever the turbo decoder delivers: the receiver returns the first word, among those of its five iterations, that is
an encoding of any PLCF of the type tried, with the flags it was encoded with; and nothing if there is no such word. -/
theorem C66_decode (type : Nat) (ht : type = 1 ∨ type = 2) (out : Nat → List Byte)
    (hlen : ∀ i, (out i).length = nofBytes type + 2) :
    ∃ res, decode type out = .ok res ∧
      match res with
      | some (a, cl, bf) => ∃ k < 5, out k = codeword a cl bf ∧ a.length = nofBytes type ∧
          ∀ k' < k, ∀ a' cl' bf', a'.length = nofBytes type → out k' ≠ codeword a' cl' bf'
      | none => ∀ k < 5, ∀ a' cl' bf', a'.length = nofBytes type → out k ≠ codeword a' cl' bf' := by
  refine ⟨iterate (nofBytes type) out maxIterations 0, by simp [decode, ht], ?_⟩
  have h := iterate_spec (nofBytes type) out hlen maxIterations 0
  cases hi : iterate (nofBytes type) out maxIterations 0 with
  | some f =>
    obtain ⟨a, cl, bf⟩ := f
    rw [hi] at h
    obtain ⟨k, _, h2, h3, h4, h5⟩ := h
    exact ⟨k, by simpa [maxIterations] using h2, h3, h4, fun k' hk => h5 k' (by omega) hk⟩
  | none =>
    rw [hi] at h
    intro k hk
    exact h k (by omega) (by simpa [maxIterations] using hk)

/-- A PLCF is received unchanged and with its flags if the turbo decoder corrects all errors in one of its iterations and
if each of its attempts before that differs from what was sent in an odd number of bits or in two. -/
theorem C66_roundtrip (type : Nat) (ht : type = 1 ∨ type = 2) (a : List Byte) (ha : a.length = nofBytes type)
    (cl bf : Bool) (c : List Byte) (henc : encode a type cl bf = .ok c) (out : Nat → List Byte)
    (hlen : ∀ i, (out i).length = nofBytes type + 2) (k : Nat) (hk : k < 5) (hout : out k = c)
    (hbefore : ∀ k' < k, distance (out k') c % 2 = 1 ∨ distance (out k') c = 2) :
    decode type out = .ok (some (a, cl, bf)) := by
  have hc : c = codeword a cl bf := by
    rw [(C66_encode a type cl bf).1 ht ha] at henc
    exact (Res.ok.inj henc).symm
  have hnot : ∀ k' < k, ∀ a' cl' bf', a'.length = nofBytes type → out k' ≠ codeword a' cl' bf' := by
    intro k' hk' a' cl' bf' ha' he
    have hd := hbefore k' hk'
    rw [he, hc] at hd
    by_cases hsame : a' = a ∧ cl' = cl ∧ bf' = bf
    · obtain ⟨rfl, rfl, rfl⟩ := hsame
      have := distance_self (codeword a' cl' bf')
      omega
    · have := C66_distance type ht a' a ha' ha cl' bf' cl bf hsame
      omega
  obtain ⟨res, hr, hs⟩ := C66_decode type ht out hlen
  rw [hr]
  cases res with
  | none => exact absurd (hout.trans hc) (hs k hk a cl bf ha)
  | some f =>
    obtain ⟨a', cl', bf'⟩ := f
    obtain ⟨k', hk', he, ha', hfirst⟩ := hs
    have hkk : k' = k := by
      rcases Nat.lt_trichotomy k' k with h | h | h
      · exact absurd he (hnot k' h a' cl' bf' ha')
      · exact h
      · exact absurd (hout.trans hc) (hfirst k h a cl bf ha)
    subst hkk
    have hw : codeword a' cl' bf' = codeword a cl bf := by rw [← he, hout, hc]
    have hsame : a' = a ∧ cl' = cl ∧ bf' = bf := by
      by_contra hn
      have hd := C66_distance type ht a' a ha' ha cl' bf' cl bf hn
      rw [hw] at hd
      have := distance_self (codeword a cl bf)
      omega
    obtain ⟨rfl, rfl, rfl⟩ := hsame
    rfl

/-- Errors left in the decoded octets, an odd number of them or two, never lead to a PLCF being reported. -/
theorem C66_detect (type : Nat) (ht : type = 1 ∨ type = 2) (a : List Byte) (ha : a.length = nofBytes type)
    (cl bf : Bool) (c : List Byte) (henc : encode a type cl bf = .ok c) (out : Nat → List Byte)
    (hlen : ∀ i, (out i).length = nofBytes type + 2)
    (herr : ∀ k < 5, distance (out k) c % 2 = 1 ∨ distance (out k) c = 2) : decode type out = .ok none := by
  have hc : c = codeword a cl bf := by
    rw [(C66_encode a type cl bf).1 ht ha] at henc
    exact (Res.ok.inj henc).symm
  obtain ⟨res, hr, hs⟩ := C66_decode type ht out hlen
  rw [hr]
  cases res with
  | none => rfl
  | some f =>
    obtain ⟨a', cl', bf'⟩ := f
    obtain ⟨k, hk, he, ha', _⟩ := hs
    have hd := herr k hk
    rw [he, hc] at hd
    by_cases hsame : a' = a ∧ cl' = cl ∧ bf' = bf
    · obtain ⟨rfl, rfl, rfl⟩ := hsame
      have := distance_self (codeword a' cl' bf')
      omega
    · have := C66_distance type ht a' a ha' ha cl' bf' cl bf hsame
      omega

/-- Both types are tried, independently of each other. -/
theorem C66_candidates (out1 out2 : Nat → List Byte) : ∃ c1 c2, decode 1 out1 = .ok c1 ∧ decode 2 out2 = .ok c2 ∧
    candidates out1 out2 = .ok (c1, c2) := by
  refine ⟨iterate (nofBytes 1) out1 maxIterations 0, iterate (nofBytes 2) out2 maxIterations 0, rfl, rfl, rfl⟩

/-- Four errors may turn one PLCF into another: the bound is exact. -/
theorem C66_distance_exact : ∃ a a' : List Byte, a.length = nofBytes 1 ∧ a'.length = nofBytes 1 ∧ a ≠ a' ∧
    distance (codeword a false false) (codeword a' false false) = 4 :=
  ⟨[0, 0, 0, 0, 0], [0, 0, 0, 0, 1], by decide, by decide, by decide, by decide +kernel⟩

/-- A PLCF with the flag of beamforming is received in the third iteration, after words with one, two and three errors
have been rejected. -/
theorem C66_example : (do
    let c ← encode [0x12, 0x34, 0x56, 0x78, 0x9A] 1 false true
    decode 1 fun k => if k = 0 then c.set 0 0x13 else if k = 1 then c.set 6 (c.getD 6 0 ^^^ 0x81) else
      if k = 2 then c.set 3 0x7F else c) = .ok (some ([0x12, 0x34, 0x56, 0x78, 0x9A], false, true)) := by decide +kernel

/-- The checksum is that of the ITU-T polynomial with a register that starts at zero (check value of the catalogues). -/
example : crc16 [0x31, 0x32, 0x33, 0x34, 0x35, 0x36, 0x37, 0x38, 0x39] = 0x31C3#16 := by decide +kernel

end Verif.Props.C66
