import Verif.Spec.SimChannel
import Verif.Lemma.MimoEst
import Mathlib.Data.List.GetD

/-! # Lemmas about the simulated channels -/

namespace Verif.Sim.Wireless

open Spec

section
variable {F : Type} [Field F]

theorem cx_mul_comm (a b : Cx F) : a * b = b * a := by ext <;> simp <;> ring
theorem cx_mul_assoc (a b c : Cx F) : a * b * c = a * (b * c) := by ext <;> simp <;> ring
theorem cx_mul_add (a b c : Cx F) : a * (b + c) = a * b + a * c := by ext <;> simp <;> ring
theorem cx_mul_zero (a : Cx F) : a * 0 = 0 := by ext <;> simp
theorem cx_one_mul (a : Cx F) : (⟨1, 0⟩ : Cx F) * a = a := by ext <;> simp
theorem cx_mul_one (a : Cx F) : a * (⟨1, 0⟩ : Cx F) = a := by ext <;> simp
theorem cx_mul_sum {α : Type} (a : Cx F) (f : α → Cx F) (l : List α) : a * (l.map f).sum = (l.map fun x => a * f x).sum := by
  induction l with
  | nil => simp [cx_mul_zero]
  | cons x l ih => simp [cx_mul_add, ih]

theorem vadd_length (a b : List (Cx F)) (h : a.length = b.length) : (vadd a b).length = a.length := by simp [vadd, h]

theorem vadd_getD (a b : List (Cx F)) (h : a.length = b.length) (k : Nat) : (vadd a b).getD k 0 = a.getD k 0 + b.getD k 0 := by
  unfold vadd
  by_cases hk : k < a.length
  · have hb : k < b.length := h ▸ hk
    simp [List.getD_eq_getElem?_getD, List.getElem?_zipWith, hk, hb]
  · have hb : b.length ≤ k := by omega
    have ha : a.length ≤ k := by omega
    simp [List.getD_eq_getElem?_getD, List.getElem?_zipWith, ha, hb]

theorem vscale_length (c : F) (a : List (Cx F)) : (vscale c a).length = a.length := by simp [vscale]

theorem vscale_getD (c : F) (a : List (Cx F)) (k : Nat) : (vscale c a).getD k 0 = real c (a.getD k 0) := by
  unfold vscale real
  by_cases hk : k < a.length
  · simp [List.getD_eq_getElem?_getD, hk, mul_comm]
  · have ha : a.length ≤ k := by omega
    simp [List.getD_eq_getElem?_getD, ha]; rfl

theorem replicate_getD (n k : Nat) : (List.replicate n (0 : Cx F)).getD k 0 = 0 := by
  by_cases h : k < n
  · simp [List.getD_eq_getElem?_getD, List.getElem?_replicate, h]
  · simp [List.getD_eq_getElem?_getD, List.getElem?_replicate, h]

/-! ## Rotation -/

theorem rotate_length (rotA : Cx F) : ∀ (l : List (Cx F)) (rotB : Cx F), (rotate rotA rotB l).length = l.length
  | [], _ => rfl
  | x :: l, rotB => by simp [rotate, rotate_length rotA l]

theorem cis_zero {cis : F → Cx F} {tp : F} (h : Turn cis tp) : cis 0 = ⟨1, 0⟩ := by
  have e := h.1 tp 0
  rw [add_zero, h.2, cx_one_mul] at e
  exact e.symm

theorem cis_neg_turn {cis : F → Cx F} {tp : F} (h : Turn cis tp) : cis (-tp) = ⟨1, 0⟩ := by
  have e := h.1 tp (-tp)
  rw [add_neg_cancel, h.2, cx_one_mul, cis_zero h] at e
  exact e.symm

theorem cis_nat_turn {cis : F → Cx F} {tp : F} (h : Turn cis tp) (n : Nat) : cis ((n : F) * tp) = ⟨1, 0⟩ := by
  induction n with
  | zero => simp [cis_zero h]
  | succ n ih => rw [Nat.cast_succ, add_mul, one_mul, h.1, ih, h.2, cx_one_mul]

theorem cis_negnat_turn {cis : F → Cx F} {tp : F} (h : Turn cis tp) (n : Nat) : cis (-((n : F) * tp)) = ⟨1, 0⟩ := by
  have e := h.1 ((n : F) * tp) (-((n : F) * tp))
  rw [add_neg_cancel, cis_nat_turn h, cx_one_mul, cis_zero h] at e
  exact e.symm

theorem cis_int_turn {cis : F → Cx F} {tp : F} (h : Turn cis tp) (n : Int) : cis ((n : F) * tp) = ⟨1, 0⟩ := by
  rcases Int.eq_nat_or_neg n with ⟨m, rfl | rfl⟩
  · simpa using cis_nat_turn h m
  · simpa using cis_negnat_turn h m

/-- The time may be reduced modulo the period -/
theorem cis_tmod [CharZero F] {cis : F → Cx F} {tp : F} (h : Turn cis tp) {p : Int} (hp : p ≠ 0) (t : Int) (φ : F) :
    cis (tp / (p : F) * ((t.tmod |p| : Int) : F) + φ) = cis (φ + tp * (t : F) / (p : F)) := by
  have hc : (p : F) ≠ 0 := by exact_mod_cast hp
  obtain ⟨q, hq⟩ : ∃ q : Int, t = t.tmod |p| + p * q := by
    rcases abs_cases p with ⟨e, _⟩ | ⟨e, _⟩
    · exact ⟨t.tdiv p, by rw [e]; exact (Int.tmod_add_mul_tdiv t p).symm⟩
    · refine ⟨-(t.tdiv (-p)), ?_⟩
      have := (Int.tmod_add_mul_tdiv t (-p)).symm
      rw [e]; linarith [this]
  have : φ + tp * (t : F) / (p : F) = (tp / (p : F) * ((t.tmod |p| : Int) : F) + φ) + ((q : Int) : F) * tp := by
    have hq' : (t : F) = ((t.tmod |p| : Int) : F) + (p : F) * (q : F) := by exact_mod_cast hq
    generalize ((t.tmod |p| : Int) : F) = m at *
    rw [hq']
    field_simp
    ring
  rw [this, h.1 _ ((q : F) * tp), cis_int_turn h, cx_mul_one]

theorem rotate_getD {cis : F → Cx F} {tp : F} (h : Turn cis tp) (a : F) : ∀ (l : List (Cx F)) (b : F) (k : Nat),
    (rotate (cis a) (cis b) l).getD k 0 = l.getD k 0 * cis (b + (k : F) * a)
  | [], b, k => by simp [rotate, cx_mul_comm 0, cx_mul_zero]
  | x :: l, b, 0 => by simp [rotate]
  | x :: l, b, k + 1 => by
    rw [rotate, ← h.1]
    simp only [List.getD_cons_succ]
    rw [rotate_getD h a l]
    congr 2
    push_cast; ring

/-! ## One link -/

theorem sineOut_ok [CharZero F] {cis : F → Cx F} {tp : F} (h : Turn cis tp) (t : Int) (w : List (Cx F)) (s : Sine F) (hs : s.period ≠ 0) :
    ∃ r, sineOut cis tp t w s = .ok r ∧ r.length = w.length ∧
      ∀ k, r.getD k 0 = w.getD k 0 * cis (s.phase + tp * ((t : F) + k) / (s.period : F)) := by
  refine ⟨_, by unfold sineOut; rw [if_neg hs], rotate_length _ _ _, fun k => ?_⟩
  rw [rotate_getD h, h.1, cis_tmod h hs, ← h.1]
  congr 2
  have hc : (s.period : F) ≠ 0 := by exact_mod_cast hs
  field_simp
  ring

theorem sinesOut_ok [CharZero F] {cis : F → Cx F} {tp : F} (h : Turn cis tp) (t : Int) (w : List (Cx F)) (ss : List (Sine F))
    (hs : ∀ s ∈ ss, s.period ≠ 0) : ∃ r, sinesOut cis tp t w ss = .ok r ∧ r.length = w.length ∧
      ∀ k, r.getD k 0 = w.getD k 0 * (ss.map fun s => cis (s.phase + tp * ((t : F) + k) / (s.period : F))).sum := by
  have key : ∀ (ss : List (Sine F)) (acc : List (Cx F)), (∀ s ∈ ss, s.period ≠ 0) → acc.length = w.length →
      ∃ r, ss.foldlM (fun acc s => do
        let r ← sineOut cis tp t w s
        .ok (vadd r acc)) acc = .ok r ∧ r.length = w.length ∧
      ∀ k, r.getD k 0 = acc.getD k 0 + w.getD k 0 * (ss.map fun s => cis (s.phase + tp * ((t : F) + k) / (s.period : F))).sum := by
    intro ss
    induction ss with
    | nil => intro acc _ ha; exact ⟨acc, rfl, ha, fun k => by simp [cx_mul_zero]⟩
    | cons s ss ih =>
      intro acc hs ha
      obtain ⟨r, e, hl, hv⟩ := sineOut_ok h t w s (hs s (by simp))
      obtain ⟨r', e', hl', hv'⟩ := ih (vadd r acc) (fun s' m => hs s' (by simp [m])) (by rw [vadd_length _ _ (by omega), hl])
      refine ⟨r', ?_, hl', fun k => ?_⟩
      · rw [List.foldlM_cons, e, Res.ok_bind, Res.ok_bind, e']
      · rw [hv', vadd_getD _ _ (by omega), hv, List.map_cons, List.sum_cons, cx_mul_add, add_comm (_ * _) (acc.getD k 0), add_assoc]
  obtain ⟨r, e, hl, hv⟩ := key ss (List.replicate w.length 0) hs (by simp)
  exact ⟨r, e, hl, fun k => by rw [hv, replicate_getD, zero_add]⟩

theorem real_mul (c : F) (x y : Cx F) : real c (x * y) = x * real c y := by unfold real; ext <;> simp <;> ring

theorem tapOut_ok [CharZero F] {sqrt : F → F} {cis : F → Cx F} {tp : F} (h : Turn cis tp) {spp : Nat} (t : Int) (hist inp out : List (Cx F))
    (hh : hist.length = spp) (hi : inp.length = spp) (ho : out.length = spp) (p : Tap F) (hp : GoodTap spp p) :
    ∃ r, tapOut sqrt cis tp spp t (hist ++ inp) out p = .ok r ∧ r.length = spp ∧
      ∀ k < spp, r.getD k 0 = out.getD k 0 + (hist ++ inp).getD (spp + k - p.delay) 0 * gain sqrt cis tp p ((t : F) + k) := by
  obtain ⟨hd, hs⟩ := hp
  have hwl : (((hist ++ inp).drop (spp - p.delay)).take spp).length = spp := by simp [hh, hi]; omega
  obtain ⟨r, e, hl, hv⟩ := sinesOut_ok h t (((hist ++ inp).drop (spp - p.delay)).take spp) p.sines hs
  refine ⟨vadd (vscale (1 / sqrt (nofSinusoids : F) * sqrt p.power) r) out, ?_, ?_, fun k hk => ?_⟩
  · unfold tapOut
    rw [if_neg (by omega)]
    simp only
    rw [e, Res.ok_bind]
  · rw [vadd_length _ _ (by rw [vscale_length]; omega), vscale_length]; omega
  · rw [vadd_getD _ _ (by rw [vscale_length]; omega), vscale_getD, hv, real_mul, add_comm]
    congr 1
    congr 1
    · rw [List.getD_eq_getElem?_getD, List.getElem?_take, if_pos hk, List.getElem?_drop, List.getD_eq_getElem?_getD]
      congr 2; omega
    · unfold gain nofSinusoids
      rw [one_div, mul_comm, ← div_eq_mul_inv]
      norm_num

theorem taps_ok [CharZero F] {sqrt : F → F} {cis : F → Cx F} {tp : F} (h : Turn cis tp) {spp : Nat} (t : Int) (hist inp : List (Cx F))
    (hh : hist.length = spp) (hi : inp.length = spp) : ∀ (ps : List (Tap F)) (out : List (Cx F)), (∀ p ∈ ps, GoodTap spp p) → out.length = spp →
    ∃ r, ps.foldlM (tapOut sqrt cis tp spp t (hist ++ inp)) out = .ok r ∧ r.length = spp ∧
      ∀ k < spp, r.getD k 0 = out.getD k 0 + response sqrt cis tp ps ((t : F) + k) (fun d => (hist ++ inp).getD (spp + k - d) 0)
  | [], out, _, ho => ⟨out, rfl, ho, fun k _ => by simp [response]⟩
  | p :: ps, out, hp, ho => by
    obtain ⟨r, e, hl, hv⟩ := tapOut_ok (sqrt := sqrt) h t hist inp out hh hi ho p (hp p (by simp))
    obtain ⟨r', e', hl', hv'⟩ := taps_ok h t hist inp hh hi ps r (fun q m => hp q (by simp [m])) hl
    refine ⟨r', by rw [List.foldlM_cons, e, Res.ok_bind, e'], hl', fun k hk => ?_⟩
    rw [hv' k hk, hv k hk, add_assoc]
    simp [response]

/-- The history of one direction -/
def Link.hist (l : Link F) (primary : Bool) : List (Cx F) := if primary then l.hist0 else l.hist1

/-- The link after a use -/
def Link.next (l : Link F) (primary : Bool) (inp : List (Cx F)) : Link F := if primary then { l with hist0 := inp } else { l with hist1 := inp }

theorem buf_getD {spp k : Nat} (hist inp : List (Cx F)) (hh : hist.length = spp) (hk : k < spp) (d : Nat) :
    (hist ++ inp).getD (spp + k - d) 0 = if d ≤ k then inp.getD (k - d) 0 else hist.getD (spp + k - d) 0 := by
  split_ifs with h
  · rw [List.getD_append_right _ _ _ _ (by omega)]
    congr 1; omega
  · rw [List.getD_append _ _ _ _ (by omega)]

theorem pass_ok [CharZero F] {sqrt : F → F} {cis : F → Cx F} {tp : F} (h : Turn cis tp) {spp : Nat} (l : Link F) (inp : List (Cx F)) (primary : Bool)
    (t : Int) (ht : ∀ p ∈ l.taps, GoodTap spp p) (h0 : l.hist0.length = spp) (h1 : l.hist1.length = spp) (hi : inp.length = spp) :
    ∃ r, l.pass sqrt cis tp spp inp primary t = .ok (l.next primary inp, r) ∧ r.length = spp ∧
      ∀ k < spp, r.getD k 0 = response sqrt cis tp l.taps ((t : F) + k) fun d => (l.hist primary ++ inp).getD (spp + k - d) 0 := by
  obtain ⟨r, e, hl, hv⟩ := taps_ok (sqrt := sqrt) h t (l.hist primary) inp (by unfold Link.hist; split_ifs <;> assumption) hi l.taps
    (List.replicate spp 0) ht (by simp)
  refine ⟨r, ?_, hl, fun k hk => by rw [hv k hk, replicate_getD, zero_add]⟩
  unfold Link.pass
  simp only [Link.hist] at e
  simp only [e, Res.ok_bind, Link.next]

/-! ## A history of uses -/

theorem flatten_length {n : Nat} : ∀ (P : List (List (Cx F))), (∀ l ∈ P, l.length = n) → P.flatten.length = n * P.length
  | [], _ => by simp
  | l :: P, h => by
    rw [List.flatten_cons, List.length_append, flatten_length P (fun x m => h x (by simp [m])), h l (by simp), List.length_cons]; ring

theorem stream_buf {spp : Nat} (P S : List (List (Cx F))) (inp : List (Cx F)) (hP : ∀ l ∈ P, l.length = spp) (hi : inp.length = spp) {k d : Nat}
    (hk : k < spp) (hd : d ≤ spp) :
    stream (P ++ inp :: S) ((spp * P.length + k : Nat) - d : Int) = (P.getLastD (List.replicate spp 0) ++ inp).getD (spp + k - d) 0 := by
  have hlast : (P.getLastD (List.replicate spp 0)).length = spp := by
    rcases List.eq_nil_or_concat P with rfl | ⟨P', h, rfl⟩
    · simp
    · simp; exact hP h (by simp)
  rw [buf_getD _ _ hlast hk]
  have hfl := flatten_length P hP
  unfold stream
  split_ifs with h1 h2 h2
  · have : d ≤ spp * P.length + k := by omega
    omega
  · rcases List.eq_nil_or_concat P with rfl | ⟨P', h, rfl⟩
    · rw [List.getLastD_nil, replicate_getD]
    · simp only [List.concat_eq_append, List.length_append, List.length_singleton, Nat.mul_succ] at h1
      push_cast at h1
      have : (0 : Int) ≤ (spp : Int) * P'.length := by positivity
      omega
  · have e : ((spp * P.length + k : Nat) - d : Int).toNat = spp * P.length + (k - d) := by omega
    rw [e, List.flatten_append, List.flatten_cons, List.getD_append_right _ _ _ _ (by omega), List.getD_append _ _ _ _ (by omega)]
    congr 1; omega
  · rcases List.eq_nil_or_concat P with rfl | ⟨P', h, rfl⟩
    · simp at h1; omega
    · have hh : h.length = spp := hP h (by simp)
      have hfl' := flatten_length P' fun l m => hP l (by simp [m])
      simp only [List.concat_eq_append, List.length_append, List.length_singleton, Nat.mul_succ] at *
      have e : ((spp * P'.length + spp + k : Nat) - d : Int).toNat = spp * P'.length + (spp + k - d) := by omega
      rw [e, List.append_assoc, List.flatten_append, List.getD_append_right _ _ _ _ (by omega)]
      simp only [List.singleton_append, List.flatten_cons]
      rw [List.getD_append _ _ _ _ (by omega)]
      simp only [List.getLastD_concat]
      congr 1; omega

theorem sent_cons (u : Use F) (us : List (Use F)) (b : Bool) : sent (u :: us) b = if u.primary = b then u.inp :: sent us b else sent us b := by
  unfold sent
  by_cases h : u.primary = b
  · simp [h]
  · rw [if_neg h, List.filter_cons_of_neg (by simpa using h)]

theorem response_congr {sqrt : F → F} {cis : F → Cx F} {tp : F} {taps : List (Tap F)} {t : F} {x y : Nat → Cx F}
    (h : ∀ p ∈ taps, x p.delay = y p.delay) : response sqrt cis tp taps t x = response sqrt cis tp taps t y := by
  unfold response
  congr 1
  apply List.map_congr_left
  intro p m
  rw [h p m]

theorem outputs_ok [CharZero F] {sqrt : F → F} {cis : F → Cx F} {tp : F} (h : Turn cis tp) {spp : Nat} : ∀ (us : List (Use F)) (l : Link F)
    (P : Bool → List (List (Cx F))), (∀ p ∈ l.taps, GoodTap spp p) → (∀ b, ∀ x ∈ P b, x.length = spp) →
    (∀ b, l.hist b = (P b).getLastD (List.replicate spp 0)) → (∀ u ∈ us, u.inp.length = spp) →
    ∃ outs, outputs sqrt cis tp spp l us = .ok outs ∧ outs.length = us.length ∧
      ∀ (i : Nat) (u : Use F), us[i]? = some u → (outs.getD i []).length = spp ∧ ∀ k < spp, (outs.getD i []).getD k 0 =
        response sqrt cis tp l.taps ((u.t : F) + k) fun d =>
          stream (P u.primary ++ sent us u.primary) ((spp * ((P u.primary).length + (sent (us.take i) u.primary).length) + k : Nat) - d : Int)
  | [], l, P, _, _, _, _ => ⟨[], rfl, rfl, by simp⟩
  | u :: us, l, P, ht, hP, hh, hu => by
    have hlen : ∀ b, (l.hist b).length = spp := by
      intro b
      rw [hh b]
      rcases List.eq_nil_or_concat (P b) with e | ⟨P', x, e⟩
      · rw [e]; simp
      · rw [e]; simp; exact hP b x (by rw [e]; simp)
    have hi : u.inp.length = spp := hu u (by simp)
    obtain ⟨r, e, hl, hv⟩ := pass_ok (sqrt := sqrt) h l u.inp u.primary u.t ht (by simpa [Link.hist] using hlen true)
      (by simpa [Link.hist] using hlen false) hi
    obtain ⟨outs, eo, hol, hov⟩ := outputs_ok h us (l.next u.primary u.inp) (fun b => if u.primary = b then P b ++ [u.inp] else P b)
      (by unfold Link.next; split_ifs <;> exact ht)
      (by
        intro b x hx
        split_ifs at hx with hb
        · rcases List.mem_append.mp hx with m | m
          · exact hP b x m
          · rw [List.mem_singleton] at m; rw [m, hi]
        · exact hP b x hx)
      (by
        intro b
        split_ifs with hb
        · subst hb
          rw [List.getLastD_concat]
          unfold Link.next Link.hist
          cases u.primary <;> simp
        · rw [← hh b]
          unfold Link.next Link.hist
          revert hb
          cases u.primary <;> cases b <;> simp)
      fun u' m => hu u' (by simp [m])
    have htaps : (l.next u.primary u.inp).taps = l.taps := by unfold Link.next; split_ifs <;> rfl
    refine ⟨r :: outs, ?_, by simp [hol], ?_⟩
    · rw [outputs, e, Res.ok_bind, eo, Res.ok_bind]
    · intro i v hi'
      cases i with
      | zero =>
        simp only [List.getElem?_cons_zero, Option.some.injEq] at hi'
        subst hi'
        refine ⟨hl, fun k hk => ?_⟩
        rw [List.getD_cons_zero, hv k hk]
        apply response_congr
        intro p hp
        rw [sent_cons, if_pos rfl, hh]
        have := stream_buf (P u.primary) (sent us u.primary) u.inp (hP u.primary) hi hk (ht p hp).1
        rw [← this]
        simp [sent]
      | succ i =>
        simp only [List.getElem?_cons_succ] at hi'
        obtain ⟨hl', hv'⟩ := hov i v hi'
        refine ⟨by simpa using hl', fun k hk => ?_⟩
        rw [List.getD_cons_succ, hv' k hk, htaps]
        congr 1
        funext d
        rw [List.take_succ_cons, sent_cons, sent_cons]
        by_cases hb : u.primary = v.primary
        · simp only [if_pos hb, List.append_assoc, List.singleton_append, List.length_append, List.length_cons, List.length_nil]
          congr 3
          ring
        · simp only [if_neg hb]

/-! ## Superposition -/

/-- The channel after one pair was used -/
def stepC (primary : Bool) (c : Chan F) (idx : Nat) (y : List (Cx F)) : Chan F :=
  match c with
  | .doubly links => .doubly (links.set idx ((links.getD idx ⟨[], [], []⟩).next primary y))
  | c => c

theorem atU_getD {α : Type} {l : List α} {i : Nat} (d : α) (h : i < l.length) : atU l i = .ok (l.getD i d) := by
  simp [atU, h]

theorem fits_step {spp n idx : Nat} {c : Chan F} (hc : Fits spp n c) (primary : Bool) {y : List (Cx F)} (hy : y.length = spp) (hi : idx < n) :
    Fits spp n (stepC primary c idx y) := by
  cases c with
  | awgn => exact hc
  | flat z => exact hc
  | doubly links =>
    obtain ⟨h1, h2⟩ := hc
    refine ⟨by simp [h1], fun l hl => ?_⟩
    rcases List.mem_or_eq_of_mem_set hl with m | rfl
    · exact h2 l m
    · have hm : links.getD idx ⟨[], [], []⟩ ∈ links := by
        rw [List.getD_eq_getElem _ _ (by omega)]; exact List.getElem_mem _
      have := h2 _ hm
      unfold Link.next
      split_ifs
      · exact ⟨this.1, hy, this.2.2⟩
      · exact ⟨this.1, this.2.1, hy⟩

theorem small_ok [CharZero F] {sqrt : F → F} {cis : F → Cx F} {tp : F} (h : Turn cis tp) {spp n idx : Nat} {c : Chan F} (hc : Fits spp n c) (hi : idx < n)
    (primary : Bool) (t : Int) (y : List (Cx F)) (hy : y.length = spp) :
    ∃ r, c.small sqrt cis tp spp idx primary t y = .ok (stepC primary c idx y, r) ∧ r.length = spp ∧
      ∀ k < spp, r.getD k 0 = pairOut sqrt cis tp spp c idx primary t (fun k => y.getD k 0) k := by
  cases c with
  | awgn => exact ⟨y, rfl, hy, fun k _ => rfl⟩
  | flat z =>
    have hz : idx < z.length := by rw [hc]; exact hi
    refine ⟨y.map fun x => x * z.getD idx 0, ?_, by simp [hy], fun k hk => ?_⟩
    · unfold Chan.small
      simp only
      rw [atU_getD 0 hz, Res.ok_bind]; rfl
    · rw [List.getD_eq_getElem _ _ (by simpa [hy] using hk)]
      simp [pairOut, hy ▸ hk]
  | doubly links =>
    obtain ⟨h1, h2⟩ := hc
    have hz : idx < links.length := by omega
    have hm : links.getD idx ⟨[], [], []⟩ ∈ links := by
      rw [List.getD_eq_getElem _ _ hz]; exact List.getElem_mem _
    obtain ⟨g1, g2, g3⟩ := h2 _ hm
    obtain ⟨r, e, hl, hv⟩ := pass_ok (sqrt := sqrt) h (links.getD idx ⟨[], [], []⟩) y primary t g1 g2 g3 hy
    refine ⟨r, ?_, hl, fun k hk => ?_⟩
    · unfold Chan.small
      simp only
      rw [atU_getD ⟨[], [], []⟩ hz, Res.ok_bind, e, Res.ok_bind]; rfl
    · rw [hv k hk]
      unfold pairOut
      simp only
      apply response_congr
      intro p hp
      rw [buf_getD _ _ (by unfold Link.hist; split_ifs <;> assumption) hk]
      rfl

theorem at2_set {rx : List (List (Cx F))} {b : Nat} (hb : b < rx.length) (v : List (Cx F)) (b' k : Nat) :
    at2 (rx.set b v) b' k = if b' = b then v.getD k 0 else at2 rx b' k := by
  unfold at2
  split_ifs with h
  · subst h; simp [List.getD_eq_getElem?_getD, hb]
  · simp [List.getD_eq_getElem?_getD, List.getElem?_set, Ne.symm h]

theorem frame_get {n spp b : Nat} {x : List (List (Cx F))} (h : Frame n spp x) (hb : b < n) : (x.getD b []).length = spp := by
  rw [List.getD_eq_getElem _ _ (by rw [h.1]; exact hb)]
  exact h.2 _ (List.getElem_mem _)

theorem pairOut_step {sqrt : F → F} {cis : F → Cx F} {tp : F} {spp idx idx' : Nat} (hne : idx' ≠ idx) (c : Chan F) (primary primary' : Bool) (t : Int)
    (y : List (Cx F)) (y' : Nat → Cx F) (k : Nat) :
    pairOut sqrt cis tp spp (stepC primary c idx y) idx' primary' t y' k = pairOut sqrt cis tp spp c idx' primary' t y' k := by
  cases c with
  | awgn => rfl
  | flat z => rfl
  | doubly links =>
    have : (links.set idx ((links.getD idx ⟨[], [], []⟩).next primary y)).getD idx' ⟨[], [], []⟩ = links.getD idx' ⟨[], [], []⟩ := by
      simp [List.getD_eq_getElem?_getD, List.getElem?_set, Ne.symm hne]
    unfold stepC pairOut
    simp only
    rw [this]

/-- Samples of a pair after large scale fading -/
def pairIn (g : Nat → Nat → F) (x : List (List (Cx F))) (p : Nat × Nat) : List (Cx F) := vscale (g p.1 p.2) (x.getD p.1 [])

theorem superFold_ok [CharZero F] {sqrt : F → F} {cis : F → Cx F} {tp : F} (h : Turn cis tp) {spp nTx nRx : Nat} (primary : Bool) (t : Int)
    (g : Nat → Nat → F) (x : List (List (Cx F))) (hx : Frame nTx spp x) : ∀ (ps : List (Nat × Nat)) (c : Chan F) (rx : List (List (Cx F))),
    Fits spp (nTx * nRx) c → Frame nRx spp rx → (∀ p ∈ ps, p.1 < nTx ∧ p.2 < nRx) → (ps.map fun p => p.1 * nRx + p.2).Nodup →
    ∃ rx', ps.foldlM (superStep sqrt cis tp spp nRx primary t g x) (c, rx) =
        .ok (ps.foldl (fun c p => stepC primary c (p.1 * nRx + p.2) (pairIn g x p)) c, rx') ∧ Frame nRx spp rx' ∧
      ∀ b k, k < spp → at2 rx' b k = at2 rx b k + ((ps.filter fun p => p.2 = b).map fun p =>
        pairOut sqrt cis tp spp c (p.1 * nRx + p.2) primary t (fun k => (pairIn g x p).getD k 0) k).sum
  | [], c, rx, _, hr, _, _ => ⟨rx, rfl, hr, fun b k _ => by simp⟩
  | p :: ps, c, rx, hc, hr, hp, hn => by
    obtain ⟨ha, hb⟩ := hp p (by simp)
    have hidx : p.1 * nRx + p.2 < nTx * nRx := by nlinarith
    have hy : (pairIn g x p).length = spp := by unfold pairIn; rw [vscale_length, frame_get hx ha]
    obtain ⟨r, e, hl, hv⟩ := small_ok (sqrt := sqrt) h hc hidx primary t _ hy
    have hbl : p.2 < rx.length := by rw [hr.1]; exact hb
    have hold := frame_get hr hb
    simp only [List.map_cons, List.nodup_cons] at hn
    have hr' : Frame nRx spp (rx.set p.2 (vadd r (rx.getD p.2 []))) := by
      refine ⟨by simp [hr.1], fun l m => ?_⟩
      rcases List.mem_or_eq_of_mem_set m with m | rfl
      · exact hr.2 l m
      · rw [vadd_length _ _ (by omega), hl]
    obtain ⟨rx', e', hf, hs⟩ := superFold_ok h primary t g x hx ps _ _ (fits_step hc primary hy hidx) hr' (fun q m => hp q (by simp [m])) hn.2
    refine ⟨rx', ?_, hf, fun b k hk => ?_⟩
    · rw [List.foldlM_cons]
      conv_lhs => unfold superStep
      simp only
      rw [atU_getD [] (by rw [hx.1]; exact ha), Res.ok_bind]
      unfold pairIn at e
      rw [e, Res.ok_bind, atU_getD [] hbl, Res.ok_bind, Res.ok_bind]
      exact e'
    · rw [hs b k hk, at2_set hbl]
      have hcongr : ((ps.filter fun p => p.2 = b).map fun q => pairOut sqrt cis tp spp (stepC primary c (p.1 * nRx + p.2) (pairIn g x p))
          (q.1 * nRx + q.2) primary t (fun k => (pairIn g x q).getD k 0) k) =
          (ps.filter fun p => p.2 = b).map fun q => pairOut sqrt cis tp spp c (q.1 * nRx + q.2) primary t (fun k => (pairIn g x q).getD k 0) k := by
        apply List.map_congr_left
        intro q hq
        apply pairOut_step
        intro e
        apply hn.1
        rw [← e]
        exact List.mem_map.mpr ⟨q, (List.mem_filter.mp hq).1, rfl⟩
      rw [hcongr]
      by_cases hbb : p.2 = b
      · rw [if_pos hbb.symm, List.filter_cons_of_pos (by simpa using hbb), List.map_cons, List.sum_cons, vadd_getD _ _ (by omega), hv k hk]
        subst hbb
        unfold at2
        rw [add_comm (pairOut _ _ _ _ _ _ _ _ _ _), add_assoc]
      · rw [if_neg (Ne.symm hbb), List.filter_cons_of_neg (by simpa using hbb)]

theorem mem_pairs {nTx nRx : Nat} {p : Nat × Nat} : p ∈ antennaPairs nTx nRx ↔ p.1 < nTx ∧ p.2 < nRx := by
  unfold antennaPairs
  simp only [List.mem_flatMap, List.mem_map, List.mem_range]
  constructor
  · rintro ⟨a, ha, b, hb, rfl⟩; exact ⟨ha, hb⟩
  · rintro ⟨ha, hb⟩; exact ⟨p.1, ha, p.2, hb, rfl⟩

theorem pairs_idx (nTx nRx : Nat) : (antennaPairs nTx nRx).map (fun p => p.1 * nRx + p.2) = List.range (nTx * nRx) := by
  induction nTx with
  | zero => simp [antennaPairs]
  | succ n ih =>
    unfold antennaPairs at *
    rw [List.range_succ (n := n), List.flatMap_append, List.map_append, ih, Nat.succ_mul, List.range_add]
    simp

theorem pairs_filter (nTx nRx b : Nat) (hb : b < nRx) : (antennaPairs nTx nRx).filter (fun p => p.2 = b) = (List.range nTx).map fun a => (a, b) := by
  have one : ∀ (a n : Nat), ((List.range n).map fun c => (a, c)).filter (fun p => p.2 = b) = if b < n then [(a, b)] else [] := by
    intro a n
    induction n with
    | zero => simp
    | succ n ih =>
      rw [List.range_succ (n := n), List.map_append, List.filter_append, ih]
      by_cases h : n = b
      · subst h; simp
      · by_cases h' : b < n
        · simp [h, h', Nat.lt_succ_of_lt h']
        · have : ¬ b < n + 1 := by omega
          simp [h, h', this]
  induction nTx with
  | zero => simp [antennaPairs]
  | succ n ih =>
    unfold antennaPairs at *
    rw [List.range_succ (n := n), List.flatMap_append, List.filter_append, ih, List.map_append]
    simp only [List.flatMap_cons, List.flatMap_nil, List.append_nil]
    rw [one, if_pos hb]
    rfl

theorem foldl_step_doubly (primary : Bool) (y : Nat × Nat → List (Cx F)) (nRx : Nat) : ∀ (ps : List (Nat × Nat)) (links : List (Link F)),
    ps.foldl (fun c p => stepC primary c (p.1 * nRx + p.2) (y p)) (.doubly links) =
      .doubly (ps.foldl (fun ls p => ls.set (p.1 * nRx + p.2) ((ls.getD (p.1 * nRx + p.2) ⟨[], [], []⟩).next primary (y p))) links)
  | [], _ => rfl
  | p :: ps, links => by
    rw [List.foldl_cons, List.foldl_cons]
    exact foldl_step_doubly primary y nRx ps _

theorem foldl_set_length (primary : Bool) (y : Nat × Nat → List (Cx F)) (nRx : Nat) : ∀ (ps : List (Nat × Nat)) (links : List (Link F)),
    (ps.foldl (fun ls p => ls.set (p.1 * nRx + p.2) ((ls.getD (p.1 * nRx + p.2) ⟨[], [], []⟩).next primary (y p))) links).length = links.length
  | [], _ => rfl
  | p :: ps, links => by
    rw [List.foldl_cons, foldl_set_length primary y nRx ps]; simp

theorem foldl_set_get (primary : Bool) (y : Nat × Nat → List (Cx F)) (nRx : Nat) : ∀ (ps : List (Nat × Nat)) (links : List (Link F)),
    (ps.map fun p => p.1 * nRx + p.2).Nodup → ∀ p, p.1 * nRx + p.2 < links.length →
    (p ∈ ps → (ps.foldl (fun ls p => ls.set (p.1 * nRx + p.2) ((ls.getD (p.1 * nRx + p.2) ⟨[], [], []⟩).next primary (y p))) links).getD
      (p.1 * nRx + p.2) ⟨[], [], []⟩ = (links.getD (p.1 * nRx + p.2) ⟨[], [], []⟩).next primary (y p)) ∧
    (p.1 * nRx + p.2 ∉ ps.map (fun p => p.1 * nRx + p.2) →
      (ps.foldl (fun ls p => ls.set (p.1 * nRx + p.2) ((ls.getD (p.1 * nRx + p.2) ⟨[], [], []⟩).next primary (y p))) links).getD
      (p.1 * nRx + p.2) ⟨[], [], []⟩ = links.getD (p.1 * nRx + p.2) ⟨[], [], []⟩)
  | [], _, _, _, _ => ⟨by simp, fun _ => rfl⟩
  | q :: ps, links, hn, p, hp => by
    simp only [List.map_cons, List.nodup_cons] at hn
    have ih := foldl_set_get primary y nRx ps (links.set (q.1 * nRx + q.2) ((links.getD (q.1 * nRx + q.2) ⟨[], [], []⟩).next primary (y q))) hn.2 p
      (by simpa using hp)
    have hset : q.1 * nRx + q.2 ≠ p.1 * nRx + p.2 → (links.set (q.1 * nRx + q.2)
        ((links.getD (q.1 * nRx + q.2) ⟨[], [], []⟩).next primary (y q))).getD (p.1 * nRx + p.2) ⟨[], [], []⟩ =
        links.getD (p.1 * nRx + p.2) ⟨[], [], []⟩ := by
      intro hne
      simp [List.getD_eq_getElem?_getD, List.getElem?_set, hne]
    rw [List.foldl_cons]
    constructor
    · intro m
      rcases List.mem_cons.mp m with rfl | m
      · rw [ih.2 hn.1]
        simp [List.getD_eq_getElem?_getD, hp]
      · rw [ih.1 m, hset]
        intro e
        apply hn.1
        rw [e]
        exact List.mem_map.mpr ⟨p, m, rfl⟩
    · intro m
      simp only [List.map_cons, List.mem_cons, not_or] at m
      rw [ih.2 m.2, hset (Ne.symm m.1)]

theorem foldl_pairNext {spp nTx nRx : Nat} (primary : Bool) (y : Nat × Nat → List (Cx F)) (c : Chan F) (hc : Fits spp (nTx * nRx) c) :
    (antennaPairs nTx nRx).foldl (fun c p => stepC primary c (p.1 * nRx + p.2) (y p)) c =
      pairNext c (fun idx => y (idx / nRx, idx % nRx)) primary := by
  have const : ∀ (c : Chan F), (∀ idx y, stepC primary c idx y = c) → ∀ ps : List (Nat × Nat),
      ps.foldl (fun c p => stepC primary c (p.1 * nRx + p.2) (y p)) c = c := by
    intro c hcc ps
    induction ps with
    | nil => rfl
    | cons p ps ih => rw [List.foldl_cons, hcc, ih]
  cases c with
  | awgn => exact const _ (fun _ _ => rfl) _
  | flat z => exact const _ (fun _ _ => rfl) _
  | doubly links =>
    rw [foldl_step_doubly]
    unfold pairNext
    simp only
    congr 1
    apply List.ext_getElem
    · rw [foldl_set_length]; simp
    · intro i h1 h2
      rw [foldl_set_length] at h1
      have hi : i < nTx * nRx := hc.1 ▸ h1
      have hR : 0 < nRx := by rcases Nat.eq_zero_or_pos nRx with e | e; · rw [e] at hi; simp at hi
                              · exact e
      have hq : i / nRx < nTx := by rw [Nat.div_lt_iff_lt_mul hR]; exact hi
      have hm : i % nRx < nRx := Nat.mod_lt _ hR
      have hidx : i / nRx * nRx + i % nRx = i := Nat.div_add_mod' i nRx
      have := (foldl_set_get primary y nRx (antennaPairs nTx nRx) links (by rw [pairs_idx]; exact List.nodup_range) (i / nRx, i % nRx)
        (by simp only [hidx]; exact h1)).1 (mem_pairs.mpr ⟨hq, hm⟩)
      simp only [hidx] at this
      rw [← List.getD_eq_getElem _ ⟨[], [], []⟩, this, List.getElem_mapIdx, List.getD_eq_getElem _ _ h1]
      rfl

theorem superimpose_ok [CharZero F] {sqrt : F → F} {cis : F → Cx F} {tp : F} (h : Turn cis tp) {spp idTx idRx nTx nRx : Nat} (t : Int)
    (g : Nat → Nat → F) (x : List (List (Cx F))) (hx : Frame nTx spp x) (ids : Nat × Nat) (hids : ids = (idTx, idRx) ∨ ids = (idRx, idTx)) (c : Chan F)
    (rx : List (List (Cx F))) (hc : Fits spp (nTx * nRx) c) (hr : Frame nRx spp rx) :
    ∃ rx', superimpose sqrt cis tp spp idTx idRx nTx nRx t g x ids c rx =
        .ok (pairNext c (fun idx => pairIn g x (idx / nRx, idx % nRx)) (decide (idTx < idRx)), rx') ∧ Frame nRx spp rx' ∧
      ∀ b < nRx, ∀ k < spp, at2 rx' b k = at2 rx b k + ((List.range nTx).map fun a =>
        pairOut sqrt cis tp spp c (a * nRx + b) (decide (idTx < idRx)) t (fun k => real (g a b) (at2 x a k)) k).sum := by
  obtain ⟨rx', e, hf, hs⟩ := superFold_ok (sqrt := sqrt) h (nRx := nRx) (decide (idTx < idRx)) t g x hx (antennaPairs nTx nRx) c rx hc hr (fun p m => mem_pairs.mp m)
    (by rw [pairs_idx]; exact List.nodup_range)
  rw [foldl_pairNext _ (pairIn g x) c hc] at e
  refine ⟨rx', ?_, hf, fun b hb k hk => ?_⟩
  · unfold superimpose
    have : ((decide (idTx = ids.1) && decide (idRx = ids.2)) || (decide (idTx = ids.2) && decide (idRx = ids.1))) = true := by
      rcases hids with rfl | rfl <;> simp
    rw [this, Res.assert_true, Res.ok_bind, e]
  · rw [hs b k hk, pairs_filter _ _ _ hb, List.map_map]
    congr 3
    funext a
    simp only [Function.comp_apply, pairIn, at2]
    congr 1
    funext k
    rw [vscale_getD]

/-! ## All channels of a device -/

theorem sppZero_ok {n spp off len : Nat} (rx : List (List (Cx F))) (hr : Frame n spp rx) (h0 : len ≠ 0) (hl : off + len ≤ spp) :
    ∃ rx', sppZero spp off len rx = .ok rx' ∧ Frame n spp rx' ∧
      ∀ b k, k < spp → at2 rx' b k = if off ≤ k ∧ k < off + len then 0 else at2 rx b k := by
  refine ⟨rx.map fun l => l.take off ++ List.replicate len 0 ++ l.drop (off + len), ?_, ⟨by simp [hr.1], ?_⟩, fun b k hk => ?_⟩
  · unfold sppZero
    rw [decide_eq_true h0, decide_eq_true hl]; rfl
  · intro l hl'
    obtain ⟨m, hm, rfl⟩ := List.mem_map.mp hl'
    have := hr.2 m hm
    simp [this]; omega
  · unfold at2
    by_cases hb : b < n
    · have hb' : b < rx.length := by rw [hr.1]; exact hb
      have hlen := frame_get hr hb
      have e : (rx.map fun l => l.take off ++ List.replicate len 0 ++ l.drop (off + len)).getD b [] =
          (rx.getD b []).take off ++ List.replicate len 0 ++ (rx.getD b []).drop (off + len) := by
        simp [List.getD_eq_getElem?_getD, hb']
      rw [e]
      generalize rx.getD b [] = l at hlen
      have hto : (l.take off).length = off := by simp [hlen]; omega
      have hto2 : (l.take off ++ List.replicate len (0 : Cx F)).length = off + len := by rw [List.length_append, hto]; simp
      split_ifs with h
      · rw [List.getD_append _ _ _ _ (by omega), List.getD_append_right _ _ _ _ (by omega), replicate_getD]
      · by_cases hk' : k < off
        · rw [List.getD_append _ _ _ _ (by omega), List.getD_append _ _ _ _ (by omega)]
          simp [List.getD_eq_getElem?_getD, List.getElem?_take, hk']
        · rw [List.getD_append_right _ _ _ _ (by omega), hto2]
          rw [List.getD_eq_getElem?_getD, List.getElem?_drop, List.getD_eq_getElem?_getD]
          congr 2; omega
    · have hb' : rx.length ≤ b := by rw [hr.1]; omega
      have e1 : (rx.map fun l => l.take off ++ List.replicate len 0 ++ l.drop (off + len)).getD b [] = [] := by
        simp [List.getD_eq_getElem?_getD, hb']
      have e2 : rx.getD b [] = [] := by simp [List.getD_eq_getElem?_getD, hb']
      rw [e1, e2]; simp

theorem executeInter_ok [CharZero F] {sqrt : F → F} {cis : F → Cx F} {tp : F} (h : Turn cis tp) {spp d nRx : Nat} (t : Int) (g : Nat → Nat → Nat → F)
    (tx : Nat → Tx F) (hx : ∀ i, Frame (tx i).nAnt spp (tx i).x) : ∀ (cs : List (Nat × Chan F)) (rx : List (List (Cx F))),
    (∀ c ∈ cs, Fits spp ((tx c.1).nAnt * nRx) c.2) → Frame nRx spp rx →
    ∃ rx', executeInter sqrt cis tp spp d nRx t g tx cs rx = .ok (cs.map fun c => (c.1,
        pairNext c.2 (fun idx => pairIn (g c.1) (tx c.1).x (idx / nRx, idx % nRx)) (decide (c.1 < d))), rx') ∧ Frame nRx spp rx' ∧
      ∀ b < nRx, ∀ k < spp, at2 rx' b k = at2 rx b k + (cs.map fun c => ((List.range (tx c.1).nAnt).map fun a =>
        pairOut sqrt cis tp spp c.2 (a * nRx + b) (decide (c.1 < d)) t (fun k => real (g c.1 a b) (at2 (tx c.1).x a k)) k).sum).sum
  | [], rx, _, hr => ⟨rx, rfl, hr, fun b _ k _ => by simp⟩
  | c :: cs, rx, hc, hr => by
    obtain ⟨r1, e1, f1, v1⟩ := superimpose_ok (sqrt := sqrt) h (idTx := c.1) (idRx := d) t (g c.1) (tx c.1).x (hx c.1) (min c.1 d, max c.1 d)
      (by rcases Nat.le_total c.1 d with e | e
          · left; rw [min_eq_left e, max_eq_right e]
          · right; rw [min_eq_right e, max_eq_left e]) c.2 rx (hc c (by simp)) hr
    obtain ⟨r2, e2, f2, v2⟩ := executeInter_ok h t g tx hx cs r1 (fun c' m => hc c' (by simp [m])) f1
    refine ⟨r2, ?_, f2, fun b hb k hk => ?_⟩
    · rw [executeInter, e1, Res.ok_bind, e2, Res.ok_bind]; rfl
    · rw [v2 b hb k hk, v1 b hb k hk, List.map_cons, List.sum_cons, add_assoc]

/-! ## Power delay profile -/

theorem addTap_sum (l : List (Nat × F)) (x : Nat × F) (n : Nat) :
    (((addTap l x).filter fun y => y.1 = n).map (·.2)).sum = ((l.filter fun y => y.1 = n).map (·.2)).sum + if x.1 = n then x.2 else 0 := by
  induction l with
  | nil => by_cases h : x.1 = n <;> simp [addTap, h]
  | cons y l ih =>
    unfold addTap
    split_ifs with h1 h2 h2
    · simp [h1, h2]; ring
    · simp [h1, h2]
    · by_cases hy : y.1 = n
      · omega
      · rw [List.filter_cons_of_neg (by simpa using hy), List.filter_cons_of_neg (by simpa using hy), ih, if_pos h2]
    · by_cases hy : y.1 = n
      · rw [List.filter_cons_of_pos (by simpa using hy), List.filter_cons_of_pos (by simpa using hy), List.map_cons, List.map_cons, List.sum_cons,
          List.sum_cons, ih, if_neg h2, add_assoc]
      · rw [List.filter_cons_of_neg (by simpa using hy), List.filter_cons_of_neg (by simpa using hy), ih, if_neg h2]

theorem addTap_total (l : List (Nat × F)) (x : Nat × F) : ((addTap l x).map (·.2)).sum = (l.map (·.2)).sum + x.2 := by
  induction l with
  | nil => simp [addTap]
  | cons y l ih =>
    unfold addTap
    split_ifs with h1
    · simp; ring
    · simp [ih]; ring

theorem addTap_delays (l : List (Nat × F)) (x : Nat × F) (hs : (l.map (·.1)).Pairwise (· < ·)) (hx : ∀ y ∈ l, y.1 ≤ x.1) :
    (addTap l x).map (·.1) = if x.1 ∈ l.map (·.1) then l.map (·.1) else l.map (·.1) ++ [x.1] := by
  induction l with
  | nil => simp [addTap]
  | cons y l ih =>
    simp only [List.map_cons, List.pairwise_cons] at hs
    unfold addTap
    split_ifs with h1 h2 h2
    · simp
    · simp [h1] at h2
    · simp only [List.map_cons, List.mem_cons] at h2
      rw [List.map_cons, ih hs.2 fun z m => hx z (by simp [m]), if_pos (h2.resolve_left (Ne.symm h1))]; rfl
    · simp only [List.map_cons, List.mem_cons, not_or] at h2
      rw [List.map_cons, ih hs.2 fun z m => hx z (by simp [m]), if_neg h2.2]; rfl

end

section
variable {F : Type} [Field F] [LinearOrder F] [IsStrictOrderedRing F]

theorem fold_taps : ∀ (xs : List (Nat × F)) (l : List (Nat × F)), (∀ y ∈ l, ∀ x ∈ xs, y.1 ≤ x.1) → (xs.map (·.1)).Pairwise (· ≤ ·) →
    (l.map (·.1)).Pairwise (· < ·) → (∀ y ∈ l, 0 < y.2) → (∀ x ∈ xs, 0 < x.2) →
    ((xs.foldl addTap l).map (·.1)).Pairwise (· < ·) ∧ (∀ y ∈ xs.foldl addTap l, 0 < y.2) ∧
    (∀ n, (((xs.foldl addTap l).filter fun y => y.1 = n).map (·.2)).sum =
      ((l.filter fun y => y.1 = n).map (·.2)).sum + ((xs.filter fun y => y.1 = n).map (·.2)).sum) ∧
    ((xs.foldl addTap l).map (·.2)).sum = (l.map (·.2)).sum + (xs.map (·.2)).sum ∧
    (∀ n, n ∈ (xs.foldl addTap l).map (·.1) ↔ n ∈ l.map (·.1) ∨ n ∈ xs.map (·.1))
  | [], l, _, _, hs, hp, _ => ⟨hs, hp, fun n => by simp, by simp, by simp⟩
  | x :: xs, l, hle, hxs, hs, hp, hpx => by
    simp only [List.map_cons, List.pairwise_cons] at hxs
    have hd := addTap_delays l x hs fun y m => hle y m x (by simp)
    have hmem : ∀ n, n ∈ (addTap l x).map (·.1) ↔ n ∈ l.map (·.1) ∨ n = x.1 := by
      intro n
      rw [hd]
      split_ifs with h
      · constructor
        · exact Or.inl
        · rintro (h' | rfl)
          · exact h'
          · exact h
      · rw [List.mem_append, List.mem_singleton]
    have hpos : ∀ (l : List (Nat × F)), (∀ y ∈ l, 0 < y.2) → ∀ y ∈ addTap l x, 0 < y.2 := by
      intro l
      induction l with
      | nil => intro _ y hy; rw [addTap, List.mem_singleton] at hy; rw [hy]; exact hpx x (by simp)
      | cons z l ih =>
        intro hz y hy
        unfold addTap at hy
        split_ifs at hy with h1
        · rcases List.mem_cons.mp hy with rfl | m
          · exact add_pos (hz z (by simp)) (hpx x (by simp))
          · exact hz y (by simp [m])
        · rcases List.mem_cons.mp hy with rfl | m
          · exact hz y (by simp)
          · exact ih (fun w mw => hz w (by simp [mw])) y m
    obtain ⟨a1, a2, a3, a4, a5⟩ := fold_taps xs (addTap l x)
      (by
        intro y hy z hz
        have : y.1 ∈ (addTap l x).map (·.1) := List.mem_map.mpr ⟨y, hy, rfl⟩
        rcases (hmem _).mp this with m | e
        · obtain ⟨w, hw, ew⟩ := List.mem_map.mp m
          rw [← ew]; exact hle w hw z (by simp [hz])
        · rw [e]; exact hxs.1 _ (List.mem_map.mpr ⟨z, hz, rfl⟩))
      hxs.2
      (by
        rw [hd]
        split_ifs with h
        · exact hs
        · rw [List.pairwise_append]
          refine ⟨hs, by simp, ?_⟩
          intro u hu v hv
          rw [List.mem_singleton] at hv
          subst hv
          obtain ⟨w, hw, rfl⟩ := List.mem_map.mp hu
          have := hle w hw x (by simp)
          rcases Nat.lt_or_eq_of_le this with c | c
          · exact c
          · exact absurd (c ▸ hu) h)
      (hpos l hp) fun z m => hpx z (by simp [m])
    rw [List.foldl_cons]
    refine ⟨a1, a2, fun n => ?_, ?_, fun n => ?_⟩
    · rw [a3, addTap_sum, add_assoc]
      congr 1
      by_cases h : x.1 = n
      · rw [if_pos h, List.filter_cons_of_pos (by simpa using h), List.map_cons, List.sum_cons]
      · rw [if_neg h, zero_add, List.filter_cons_of_neg (by simpa using h)]
    · rw [a4, addTap_total, List.map_cons, List.sum_cons, add_assoc]
    · rw [a5, hmem, List.map_cons, List.mem_cons]; tauto

end
end Verif.Sim.Wireless
