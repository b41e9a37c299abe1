import Verif.Model.SimTx

/-!
# C63: a simulated device transmits every packet at its time

What the TX thread hands to the virtual space, put end to end, is a signal on the time axis beginning at time `T`. Every packet set as
transmitted must be in it from its `tx_time_64` on, and there must be nothing else. -/

namespace Verif.SimTx

variable {α : Type}

/-- The samples handed over so far, one after the other; the first one belongs to time `T` -/
def signal (s : Tx α) : List α := s.out.flatMap Out.spp

/-- Packets set as transmitted and the one being sent -/
def begun (s : Tx α) : List (Pkt α) :=
  s.done ++ match s.mode with
    | .send p _ _ => [p]
    | _ => []

/-- What two consecutive packets must meet for the thread to send them right: the second is not longer than the first, or the first
ends at the boundary of an spp, or the second starts in the spp in which the first ends. -/
def GapOk (spp : Nat) (T : Int) (p q : Pkt α) : Prop :=
  q.len ≤ p.len ∨ (p.time + p.len - T) % (spp : Int) = 0 ∨ q.time < T + spp * ((p.time + p.len - T) / (spp : Int) + 1)

def ModeInv (spp : Nat) (T now : Int) (todo : List (Pkt α)) : Mode α → Prop
  | .idle => True
  | .zeros p k => todo.head? = some p ∧ spp < p.len ∧ T ≤ p.time ∧ now + (k * spp : Nat) ≤ p.time ∧ p.time < now + (k * spp : Nat) + spp
  | .send p cnt off => todo.head? = some p ∧ spp < p.len ∧ T ≤ p.time ∧ p.time + cnt = now + off ∧ cnt < p.len ∧ off < spp ∧
      (cnt = 0 ∨ off = 0)

structure Inv [Zero α] (spp : Nat) (T : Int) (ps : List (Pkt α)) (s : Tx α) : Prop where
  split : ps = s.done ++ s.todo
  now : s.now = T + (s.out.length * spp : Nat)
  size : ∀ o ∈ s.out, o.spp.length = spp
  done : ∀ p ∈ s.done, spp < p.len ∧ T ≤ p.time ∧ p.time + p.len ≤ s.now
  mode : ModeInv spp T s.now s.todo s.mode
  sent : ∀ p ∈ begun s, ∀ k < p.len, ∀ j : Nat, T + j = p.time + k → j < s.out.length * spp → (signal s)[j]? = some (p.sample k)
  zero : ∀ j < s.out.length * spp, (∀ p ∈ begun s, T + j < p.time ∨ p.time + p.len ≤ T + j) → (signal s)[j]? = some 0

theorem flat_length (spp : Nat) (l : List (Out α)) (h : ∀ o ∈ l, o.spp.length = spp) :
    (l.flatMap Out.spp).length = l.length * spp := by
  induction l with
  | nil => simp
  | cons a l ih =>
    simp only [List.mem_cons, forall_eq_or_imp] at h
    simp only [List.flatMap_cons, List.length_append, List.length_cons, ih h.2, h.1, Nat.succ_mul]
    omega

/-- Reading the signal after one more spp -/
theorem flat_snoc (spp : Nat) (l : List (Out α)) (h : ∀ o ∈ l, o.spp.length = spp) (o : Out α) (j : Nat) :
    ((l ++ [o]).flatMap Out.spp)[j]? =
      if j < l.length * spp then (l.flatMap Out.spp)[j]? else o.spp[j - l.length * spp]? := by
  have := flat_length spp l h
  simp only [List.flatMap_append, List.flatMap_cons, List.flatMap_nil, List.append_nil]
  split
  · rw [List.getElem?_append_left (by omega)]
  · rw [List.getElem?_append_right (by omega), this]

theorem inv_zero [Zero α] {spp : Nat} {T : Int} {ps : List (Pkt α)} {s : Tx α} (h : Inv spp T ps s) (md : Mode α)
    (hb : begun { s with mode := md } = begun s) (hbt : ∀ p ∈ begun s, p ∈ s.done)
    (hm : ModeInv spp T (s.now + spp) s.todo md) :
    Inv spp T ps { s with now := s.now + spp, mode := md, out := s.out ++ [zeroOut spp] } := by
  have hb' : begun { s with now := s.now + spp, mode := md, out := s.out ++ [zeroOut spp] } = begun s := hb
  have hn := h.now
  constructor
  · exact h.split
  · simp only [List.length_append, List.length_singleton, Nat.add_mul, Nat.one_mul]; omega
  · intro o ho
    simp only [List.mem_append, List.mem_singleton] at ho
    rcases ho with ho | rfl
    · exact h.size o ho
    · simp [zeroOut]
  · intro p hp
    have := h.done p hp
    simp only
    omega
  · exact hm
  · intro p hp k hk j hj hlt
    rw [hb'] at hp
    have hd := h.done p (hbt p hp)
    have hjj : j < s.out.length * spp := by omega
    have := h.sent p hp k hk j hj hjj
    simp only [signal] at this ⊢
    rw [flat_snoc spp _ h.size, if_pos hjj, this]
  · intro j hj hz
    rw [hb'] at hz
    simp only [signal]
    rw [flat_snoc spp _ h.size]
    split
    · rename_i hjj; exact h.zero j hjj hz
    · simp only [List.length_append, List.length_singleton, Nat.add_mul, Nat.one_mul] at hj
      simp only [zeroOut, List.getElem?_replicate]
      rw [if_pos (by omega)]

theorem put_in (mem : Nat → α) (off n : Nat) (src : Nat → α) (k : Nat) (h1 : off ≤ k) (h2 : k < off + n) :
    put mem off n src k = src (k - off) := by simp [put, h1, h2]

theorem put_out (mem : Nat → α) (off n : Nat) (src : Nat → α) (k : Nat) (h : k < off ∨ off + n ≤ k) :
    put mem off n src k = mem k := by
  simp only [put]; rw [if_neg (by omega)]

/-- The spp written by one run of the inner loop -/
theorem iter_spec [Zero α] {spp : Nat} {now : Int} {p : Pkt α} {cnt off : Nat} {next : Option (Pkt α)} {it : Iter α}
    (h : iter spp now p cnt off next = .ok it) (hc : cnt < p.len) (ho : off < spp) :
    ∃ m f, m = min (p.len - cnt) (spp - off) ∧ it.out.spp = (List.range spp).map f ∧ it.out.spp.length = spp ∧
      (it.over = true ↔ cnt + m = p.len) ∧
      ((it.cur = p ∧ it.cnt = cnt + m ∧ f = put (fun _ => 0) off m (fun k => p.sample (cnt + k)) ∧ it.out.idx = off ∧ it.out.len = m) ∨
      (∃ q, next = some q ∧ it.cur = q ∧ cnt + m = p.len ∧ off + m < spp ∧ spp < q.len ∧ now + (off + m : Nat) ≤ q.time ∧
        ((now + spp ≤ q.time ∧ it.cnt = cnt + m ∧ f = put (fun _ => 0) off m (fun k => p.sample (cnt + k)) ∧ it.out.idx = off ∧ it.out.len = m) ∨
         (q.time < now + spp ∧ it.cnt = spp - (q.time - now).toNat ∧ it.out.idx = 0 ∧ it.out.len = spp ∧
          f = put (put (fun _ => 0) off m (fun k => p.sample (cnt + k))) (q.time - now).toNat (spp - (q.time - now).toNat) q.sample)))) := by
  unfold iter at h
  simp only at h
  refine ⟨min (p.len - cnt) (spp - off), ?_⟩
  generalize min (p.len - cnt) (spp - off) = m at h
  have fin : ∀ c : Iter α, c = ⟨p, cnt + m, decide (cnt + m = p.len), ⟨off, m, (List.range spp).map
      (put (fun _ => 0) off m (fun k => p.sample (cnt + k)))⟩⟩ → Res.ok c = .ok it → ∃ f, m = m ∧ it.out.spp = (List.range spp).map f ∧ it.out.spp.length = spp ∧
      (it.over = true ↔ cnt + m = p.len) ∧ it.cur = p ∧ it.cnt = cnt + m ∧ f = put (fun _ => 0) off m (fun k => p.sample (cnt + k)) ∧
        it.out.idx = off ∧ it.out.len = m := by
    rintro c rfl h
    cases h
    exact ⟨_, rfl, rfl, by simp, by simp, rfl, rfl, rfl, rfl, rfl⟩
  by_cases h1 : cnt + m = p.len
  · rw [if_pos h1] at h
    by_cases h2 : off + m < spp
    · rw [if_pos h2] at h
      cases next with
      | none => obtain ⟨f, a, b, c, d, e⟩ := fin _ rfl h; exact ⟨f, a, b, c, d, Or.inl e⟩
      | some q =>
        simp only [Res.bind_eq_ok, Res.assert_eq_ok, decide_eq_true_eq, exists_and_left, exists_const] at h
        obtain ⟨h3, h4, h5⟩ := h
        by_cases h6 : q.time < now + spp
        · rw [if_pos h6] at h5
          simp only [Res.bind_eq_ok, Res.assert_eq_ok, decide_eq_true_eq, exists_and_left, exists_const] at h5
          obtain ⟨h7, h8⟩ := h5
          cases h8
          exact ⟨_, rfl, rfl, by simp, by simp [h1], Or.inr ⟨q, rfl, rfl, h1, h2, h3, h4, Or.inr ⟨h6, rfl, rfl, rfl, rfl⟩⟩⟩
        · rw [if_neg h6] at h5
          cases h5
          exact ⟨_, rfl, rfl, by simp, by simp [h1], Or.inr ⟨q, rfl, rfl, h1, h2, h3, h4, Or.inl ⟨by omega, rfl, rfl, rfl, rfl⟩⟩⟩
    · rw [if_neg h2] at h
      obtain ⟨f, a, b, c, d, e⟩ := fin _ rfl h; exact ⟨f, a, b, c, d, Or.inl e⟩
  · rw [if_neg h1] at h
    obtain ⟨f, a, b, c, d, e⟩ := fin _ rfl h; exact ⟨f, a, b, c, d, Or.inl e⟩

/-- One more spp with the samples of `p` in it and, from `off2` on, those of the packets `qs` -/
theorem inv_send [Zero α] {spp : Nat} {T : Int} {ps : List (Pkt α)} {s : Tx α} (h : Inv spp T ps s) {p : Pkt α} {cnt off : Nat}
    (hm : s.mode = .send p cnt off) {m : Nat} (hmm : m = min (p.len - cnt) (spp - off)) {f : Nat → α} {s' : Tx α} {o : Out α}
    (ho : s'.out = s.out ++ [o]) (hf : o.spp = (List.range spp).map f) (hn : s'.now = s.now + spp)
    (hsp : ps = s'.done ++ s'.todo) (hd : ∀ d ∈ s'.done, d ∈ s.done ∨ d = p ∧ cnt + m = p.len)
    (hmi : ModeInv spp T (s.now + spp) s'.todo s'.mode) (qs : List (Pkt α)) (off2 : Nat)
    (hb : ∀ b, b ∈ begun s' ↔ b ∈ s.done ∨ b = p ∨ b ∈ qs)
    (hq : ∀ q ∈ qs, q.time = s.now + off2 ∧ spp < q.len ∧ off + m ≤ off2 ∧ off2 < spp)
    (hfp : ∀ k, off ≤ k → k < off + m → f k = p.sample (cnt + k - off))
    (hfq : ∀ q ∈ qs, ∀ k, off2 ≤ k → k < spp → f k = q.sample (k - off2))
    (hfz : ∀ k < spp, (k < off ∨ off + m ≤ k) → (qs = [] ∨ k < off2) → f k = 0) : Inv spp T ps s' := by
  have hmode := h.mode
  rw [hm] at hmode
  obtain ⟨hh, hlen, hT, htime, hcnt, hoff, hco⟩ := hmode
  have hnow := h.now
  have hbp : begun s = s.done ++ [p] := by simp [begun, hm]
  have hlen' : s'.out.length * spp = s.out.length * spp + spp := by
    rw [ho]; simp [Nat.add_mul]
  have hlook : ∀ j, (signal s')[j]? = if j < s.out.length * spp then (signal s)[j]? else o.spp[j - s.out.length * spp]? := by
    intro j; simp only [signal]; rw [ho, flat_snoc spp _ h.size]
  have hnew : ∀ r < spp, (signal s')[s.out.length * spp + r]? = some (f r) := by
    intro r hr
    rw [hlook, if_neg (by omega), hf, Nat.add_sub_cancel_left, List.getElem?_map, List.getElem?_range hr]
    rfl
  constructor
  · exact hsp
  · rw [hn, hlen']; omega
  · intro x hx
    rw [ho] at hx
    simp only [List.mem_append, List.mem_singleton] at hx
    rcases hx with hx | rfl
    · exact h.size x hx
    · rw [hf]; simp
  · intro d hdd
    rw [hn]
    rcases hd d hdd with hdd | ⟨rfl, he⟩
    · have := h.done d hdd; omega
    · refine ⟨hlen, hT, ?_⟩; omega
  · rw [hn]; exact hmi
  · intro b hbb k hk j hj hlt
    rw [hb] at hbb
    by_cases hjj : j < s.out.length * spp
    · rcases hbb with hbb | rfl | hbb
      · rw [hlook, if_pos hjj]; exact h.sent b (by rw [hbp]; simp [hbb]) k hk j hj hjj
      · rw [hlook, if_pos hjj]; exact h.sent b (by rw [hbp]; simp) k hk j hj hjj
      · have := hq b hbb; omega
    · obtain ⟨r, rfl⟩ := Nat.exists_eq_add_of_le (Nat.le_of_not_lt hjj)
      have hr : r < spp := by omega
      rw [hnew r hr]
      rcases hbb with hbb | rfl | hbb
      · have := h.done b hbb; omega
      · rw [hfp r (by omega) (by omega)]
        congr 2
        omega
      · have := hq b hbb
        rw [hfq b hbb r (by omega) hr]
        congr 2
        omega
  · intro j hj hz
    by_cases hjj : j < s.out.length * spp
    · rw [hlook, if_pos hjj]
      refine h.zero j hjj fun b hbb => hz b ?_
      rw [hbp] at hbb
      simp only [List.mem_append, List.mem_singleton] at hbb
      rw [hb]; rcases hbb with hbb | hbb <;> simp [hbb]
    · obtain ⟨r, rfl⟩ := Nat.exists_eq_add_of_le (Nat.le_of_not_lt hjj)
      have hr : r < spp := by omega
      rw [hnew r hr, hfz r hr]
      · have := hz p (by rw [hb]; simp)
        omega
      · cases qs with
        | nil => exact Or.inl rfl
        | cons q l =>
          have h1 := hz q (by rw [hb]; simp)
          have h2 := hq q (by simp)
          right; omega

theorem inv_step [Zero α] {spp : Nat} {T : Int} {ps : List (Pkt α)} (hspp : 0 < spp)
    (hg : ∀ a p q b, ps = a ++ p :: q :: b → GapOk spp T p q) {s s' : Tx α} (h : Inv spp T ps s) (st : Step spp s s') :
    Inv spp T ps s' := by
  have hnow := h.now
  cases st with
  | idle hm =>
    have := inv_zero h .idle (by simp [begun, hm]) (by simp [begun, hm]) trivial
    rw [← hm] at this
    exact this
  | found p rest md hm ht e =>
    simp only [found, Res.bind_eq_ok, Res.assert_eq_ok, decide_eq_true_eq, exists_and_left, exists_const, Res.ok.injEq] at e
    obtain ⟨h1, h2, rfl⟩ := e
    have hb : begun { s with mode := .zeros p ((p.time - s.now) / (spp : Int)).toNat } = begun s := by simp [begun, hm]
    refine ⟨h.split, h.now, h.size, h.done, ?_, by rw [hb]; exact h.sent, by rw [hb]; exact h.zero⟩
    have hnn : 0 ≤ (p.time - s.now) / (spp : Int) := Int.ediv_nonneg (by omega) (by omega)
    have e1 : (((p.time - s.now) / (spp : Int)).toNat : Int) = (p.time - s.now) / (spp : Int) := Int.toNat_of_nonneg hnn
    have e2 := Int.mul_ediv_add_emod (p.time - s.now) spp
    have e3 := Int.emod_nonneg (p.time - s.now) (show (spp : Int) ≠ 0 by omega)
    have e4 := Int.emod_lt_of_pos (p.time - s.now) (show (0 : Int) < spp by omega)
    have e5 : ((((p.time - s.now) / (spp : Int)).toNat * spp : Nat) : Int) = spp * ((p.time - s.now) / (spp : Int)) := by
      rw [Int.natCast_mul, e1, Int.mul_comm]
    simp only [ModeInv]
    refine ⟨by rw [ht]; rfl, h1, by omega, ?_, ?_⟩ <;> omega
  | zero p k hm =>
    have hmode := h.mode
    rw [hm] at hmode
    obtain ⟨a, b, c, d, e⟩ := hmode
    refine inv_zero h (.zeros p k) (by simp [begun, hm]) (by simp [begun, hm]) ⟨a, b, c, ?_, ?_⟩ <;>
      (rw [Nat.succ_mul] at d e; omega)
  | start p md hm e =>
    have hmode := h.mode
    rw [hm] at hmode
    obtain ⟨a, b, c, d, f⟩ := hmode
    simp only [start, Res.bind_eq_ok, Res.assert_eq_ok, decide_eq_true_eq, exists_and_left, exists_const, Res.ok.injEq] at e
    obtain ⟨e1, rfl⟩ := e
    have hb : begun { s with mode := .send p 0 (p.time - s.now).toNat } = s.done ++ [p] := by simp [begun]
    have hb' : begun s = s.done := by simp [begun, hm]
    simp only [Nat.zero_mul, Int.natCast_zero, Int.add_zero] at d f
    refine ⟨h.split, h.now, h.size, h.done, ⟨a, b, c, by simp only; omega, by omega, by omega, Or.inl rfl⟩, ?_, ?_⟩
    · rw [hb]
      intro x hx k hk j hj hlt
      simp only [List.mem_append, List.mem_singleton] at hx
      rcases hx with hx | rfl
      · exact h.sent x (by rw [hb']; exact hx) k hk j hj hlt
      · simp only at hlt; omega
    · rw [hb]
      intro j hj hz
      exact h.zero j hj fun x hx => hz x (by rw [hb'] at hx; simp [hx])
  | send p cnt off avail it hm e =>
    have hmode := h.mode
    rw [hm] at hmode
    obtain ⟨hh, hlen, hT, htime, hcnt, hoff, hco⟩ := hmode
    have htodo : s.todo = p :: s.todo.tail := by
      cases hs : s.todo with
      | nil => rw [hs] at hh; cases hh
      | cons x l => rw [hs] at hh; cases hh; rfl
    obtain ⟨m, f, hmm, hspe, -, hover, alt⟩ := iter_spec e hcnt hoff
    have mpos : 0 < m := by omega
    have hfp0 : ∀ k, off ≤ k → k < off + m → put (fun _ => (0 : α)) off m (fun k => p.sample (cnt + k)) k = p.sample (cnt + k - off) := by
      intro k h1 h2
      rw [put_in _ _ _ _ _ h1 h2]
      congr 1; omega
    have hsp1 : ps = (s.done ++ [p]) ++ s.todo.tail := by
      rw [List.append_assoc, List.singleton_append, ← htodo]; exact h.split
    rcases alt with ⟨hcur, hc, hf, -, -⟩ | ⟨q, hq, hcur, hend, hlt, hql, hqt, alt⟩
    · by_cases hend : cnt + m = p.len
      · have ho : it.over = true := hover.2 hend
        refine inv_send h hm hmm (o := it.out) (f := f) rfl hspe rfl ?_ ?_ ?_ [] 0 ?_ (by simp) ?_ (by simp) ?_
        · simpa [ho] using hsp1
        · intro d hd
          simp only [ho, if_true, List.mem_append, List.mem_singleton] at hd
          rcases hd with hd | rfl
          · exact Or.inl hd
          · exact Or.inr ⟨rfl, hend⟩
        · simp only [hc, hcur, hend, Nat.lt_irrefl, if_false]; trivial
        · intro b; simp [begun, hc, hcur, hend, ho]
        · intro k h1 h2; rw [hf]; exact hfp0 k h1 h2
        · intro k _ h1 _; rw [hf, put_out _ _ _ _ _ h1]
      · have ho : it.over = false := by
          cases hx : it.over with
          | false => rfl
          | true => exact absurd (hover.1 hx) hend
        have hl : it.cnt < it.cur.len := by rw [hc, hcur]; omega
        refine inv_send h hm hmm (o := it.out) (f := f) rfl hspe rfl ?_ ?_ ?_ [] 0 ?_ (by simp) ?_ (by simp) ?_
        · simpa [ho] using h.split
        · intro d hd
          simp only [ho, Bool.false_eq_true, if_false] at hd
          exact Or.inl hd
        · simp only [hl, if_true, ho, Bool.false_eq_true, if_false]
          rw [hcur, hc]
          exact ⟨hh, hlen, hT, by omega, by omega, hspp, Or.inr rfl⟩
        · intro b
          simp only [begun, hl, if_true, ho]
          simp [hcur]
        · intro k h1 h2; rw [hf]; exact hfp0 k h1 h2
        · intro k _ h1 _; rw [hf, put_out _ _ _ _ _ h1]
    · have ho : it.over = true := hover.2 hend
      obtain ⟨rest, hrest⟩ : ∃ rest, s.todo.tail = q :: rest := by
        cases avail with
        | false => simp at hq
        | true =>
          simp only [if_true] at hq
          cases hs : s.todo.tail with
          | nil => rw [hs] at hq; cases hq
          | cons x l => rw [hs] at hq; cases hq; exact ⟨l, rfl⟩
      rcases alt with ⟨hlate, hc, hf, -, -⟩ | ⟨hin, hc, -, -, hf⟩
      · -- the next packet starts later
        have hgap : q.len ≤ p.len := by
          have hps : ps = s.done ++ p :: q :: rest := by rw [← hrest, ← htodo]; exact h.split
          have hE : p.time + p.len - T = (spp : Int) * s.out.length + ((off + m : Nat) : Int) := by
            rw [Int.mul_comm, ← Int.natCast_mul]; omega
          rcases hg _ p q _ hps with g | g | g
          · exact g
          · rw [hE, Int.mul_add_emod_self_left, Int.emod_eq_of_lt (by omega) (by omega)] at g
            omega
          · rw [hE, Int.mul_add_ediv_left _ _ (show (spp : Int) ≠ 0 by omega), Int.ediv_eq_zero_of_lt (by omega) (by omega)] at g
            rw [Int.add_zero, Int.mul_add, Int.mul_one, Int.mul_comm, ← Int.natCast_mul] at g
            omega
        have hl : ¬ it.cnt < it.cur.len := by rw [hc, hcur]; omega
        refine inv_send h hm hmm (o := it.out) (f := f) rfl hspe rfl ?_ ?_ ?_ [] 0 ?_ (by simp) ?_ (by simp) ?_
        · simpa [ho] using hsp1
        · intro d hd
          simp only [ho, if_true, List.mem_append, List.mem_singleton] at hd
          rcases hd with hd | rfl
          · exact Or.inl hd
          · exact Or.inr ⟨rfl, hend⟩
        · simp only [hl, if_false]; trivial
        · intro b
          simp [begun, hl, ho]
        · intro k h1 h2; rw [hf]; exact hfp0 k h1 h2
        · intro k _ h1 _; rw [hf, put_out _ _ _ _ _ h1]
      · -- the next packet starts in this spp
        have hlt2 : it.cnt < q.len := by rw [hc]; omega
        refine inv_send h hm hmm (o := it.out) (f := f) rfl hspe rfl ?_ ?_ ?_ [q] (q.time - s.now).toNat ?_ ?_ ?_ ?_ ?_
        · simpa [ho] using hsp1
        · intro d hd
          simp only [ho, if_true, List.mem_append, List.mem_singleton] at hd
          rcases hd with hd | rfl
          · exact Or.inl hd
          · exact Or.inr ⟨rfl, hend⟩
        · simp only [hcur, hlt2, if_true, ho]
          refine ⟨by rw [hrest]; rfl, hql, by omega, ?_, hlt2, hspp, Or.inr rfl⟩
          rw [hc]; omega
        · intro b
          simp [begun, hcur, hlt2, ho, or_assoc]
        · intro x hx
          simp only [List.mem_singleton] at hx
          subst hx
          refine ⟨by omega, hql, by omega, by omega⟩
        · intro k h1 h2; rw [hf, put_out _ _ _ _ _ (by omega)]; exact hfp0 k h1 h2
        · intro x hx k h1 h2
          simp only [List.mem_singleton] at hx
          subst hx
          rw [hf, put_in _ _ _ _ _ h1 (by omega)]
        · intro k _ h1 h2
          rw [hf, put_out _ _ _ _ _ (by simp at h2; omega), put_out _ _ _ _ _ h1]

theorem inv_reach [Zero α] {spp : Nat} {T : Int} {ps : List (Pkt α)} (hspp : 0 < spp)
    (hg : ∀ a p q b, ps = a ++ p :: q :: b → GapOk spp T p q) {s : Tx α} (r : Reach spp T ps s) : Inv spp T ps s := by
  induction r with
  | init => exact ⟨rfl, by simp, by simp, by simp, trivial, by simp [begun], by simp⟩
  | step _ st ih => exact inv_step hspp hg ih st

/-- Every packet set as transmitted, and every one being sent, is in the signal from its time on: sample `k` of the packet at time
`tx_time_64 + k`, each of them once the signal has got that far. Packets which are transmitted were completely transmitted and in the
order expected. Partial: the condition on consecutive packets is needed, see `C63_gap_finding`. -/
theorem C63_sent_partial [Zero α] {spp : Nat} {T : Int} {ps : List (Pkt α)} (hspp : 0 < spp)
    (hg : ∀ a p q b, ps = a ++ p :: q :: b → GapOk spp T p q) {s : Tx α} (r : Reach spp T ps s) :
    (∀ p ∈ begun s, ∀ k < p.len, ∀ j < (signal s).length, T + (j : Int) = p.time + k → (signal s)[j]? = some (p.sample k)) ∧
    (∀ p ∈ s.done, T ≤ p.time ∧ p.time + p.len ≤ T + (signal s).length) ∧ s.done <+: ps ∧
    s.now = T + (signal s).length := by
  have h := inv_reach hspp hg r
  have hl : (signal s).length = s.out.length * spp := flat_length spp _ h.size
  rw [hl]
  refine ⟨fun p hp k hk j hj e => h.sent p hp k hk j e hj, fun p hp => ?_, ⟨_, h.split.symm⟩, h.now⟩
  have h1 := h.done p hp
  have h2 := h.now
  omega

/-- Where no packet is, the signal is zero. -/
theorem C63_silence_partial [Zero α] {spp : Nat} {T : Int} {ps : List (Pkt α)} (hspp : 0 < spp)
    (hg : ∀ a p q b, ps = a ++ p :: q :: b → GapOk spp T p q) {s : Tx α} (r : Reach spp T ps s) {j : Nat}
    (hj : j < (signal s).length) (hz : ∀ p ∈ begun s, ¬ (p.time ≤ T + j ∧ T + j < p.time + p.len)) : (signal s)[j]? = some 0 := by
  have h := inv_reach hspp hg r
  have hl : (signal s).length = s.out.length * spp := flat_length spp _ h.size
  exact h.zero j (by omega) fun p hp => by have := hz p hp; omega

/-- No two packets which were begun overlap. -/
theorem C63_disjoint_partial [Zero α] {spp : Nat} {T : Int} {ps : List (Pkt α)} (hspp : 0 < spp)
    (hg : ∀ a p q b, ps = a ++ p :: q :: b → GapOk spp T p q) {s : Tx α} (r : Reach spp T ps s) {p : Pkt α} (hp : p ∈ s.done)
    {q : Pkt α} {cnt off : Nat} (hq : s.mode = .send q cnt off) (hc : cnt = 0) : p.time + p.len ≤ q.time := by
  have h := inv_reach hspp hg r
  have h1 := h.done p hp
  have h2 := h.mode
  rw [hq] at h2
  obtain ⟨-, -, -, h3, -⟩ := h2
  omega

/-- The thread itself never fails: an assert can fail only when a packet is found which is not longer than an spp or whose time has
passed already. In particular packets of the required length whose predecessors end in time are always sent. -/
theorem C63_asserts_partial [Zero α] {spp : Nat} {T : Int} {ps : List (Pkt α)} (hspp : 0 < spp)
    (hg : ∀ a p q b, ps = a ++ p :: q :: b → GapOk spp T p q) {s : Tx α} (r : Reach spp T ps s) :
    (∀ p, s.mode = .zeros p 0 → (start spp s.now p).isOk) ∧
    (∀ p cnt off, s.mode = .send p cnt off → (iter spp s.now p cnt off none).isOk ∧
      ∀ q, (iter spp s.now p cnt off (some q)).isOk ∨
        iter spp s.now p cnt off (some q) = .abort ∧ (q.len ≤ spp ∨ q.time < p.time + p.len)) ∧
    (∀ p : Pkt α, (found spp s.now p).isOk ∨ found spp s.now p = .abort ∧ (p.len ≤ spp ∨ p.time < s.now)) := by
  have h := inv_reach hspp hg r
  have hmode := h.mode
  refine ⟨fun p hm => ?_, fun p cnt off hm => ?_, fun p => ?_⟩
  · rw [hm] at hmode
    obtain ⟨a, b, c, d, f⟩ := hmode
    simp only [Nat.zero_mul, Int.natCast_zero, Int.add_zero] at d f
    simp only [start]
    rw [show decide ((p.time - s.now).toNat < spp) = true from decide_eq_true (by omega)]
    rfl
  · rw [hm] at hmode
    obtain ⟨hh, hlen, hT, htime, hcnt, hoff, hco⟩ := hmode
    constructor
    · simp only [iter]; split <;> [split; skip] <;> rfl
    · intro q
      simp only [iter]
      split
      · split
        · rename_i he hl
          by_cases h1 : spp < q.len
          · by_cases h2 : s.now + ((off + min (p.len - cnt) (spp - off) : Nat) : Int) ≤ q.time
            · left
              simp only [h1, h2, decide_true, Res.assert_true, Res.ok_bind]
              split
              · rename_i h3
                rw [show decide ((q.time - s.now).toNat < spp) = true from decide_eq_true (by omega)]
                rfl
              · rfl
            · right
              simp only [h1, h2, decide_true, decide_false, Res.assert_true, Res.ok_bind, Res.assert_false, Res.abort_bind, true_and]
              right; omega
          · right
            simp only [h1, decide_false, Res.assert_false, Res.abort_bind, true_and]
            left; omega
        · left; rfl
      · left; rfl
  · simp only [found]
    by_cases h1 : spp < p.len
    · by_cases h2 : s.now ≤ p.time
      · left; simp [h1, h2, Res.isOk]
      · right; simp [h1, h2]; omega
    · right; simp [h1]; omega

/-- The range announced with an spp (`tx_idx`, `tx_length`), in which the device itself does not receive, covers all samples sent;
for all packets whatsoever. -/
theorem C63_announced [Zero α] {spp : Nat} {T : Int} {ps : List (Pkt α)} {s : Tx α} (hspp : 0 < spp) (r : Reach spp T ps s)
    {o : Out α} (ho : o ∈ s.out) {j : Nat} (hj : j < spp) (hr : (j : Int) < o.idx ∨ o.idx + o.len ≤ j) : o.spp[j]? = some 0 := by
  have key : ∀ {s : Tx α}, Reach spp T ps s → (∀ o ∈ s.out, ∀ j < spp, (j : Int) < o.idx ∨ o.idx + o.len ≤ j → o.spp[j]? = some 0) ∧
      (∀ p cnt off, s.mode = .send p cnt off → cnt < p.len ∧ off < spp) ∧ (∀ p k, s.mode = .zeros p k → 0 < p.len) := by
    intro s r
    have hz : ∀ j < spp, (zeroOut spp : Out α).spp[j]? = some 0 := by
      intro j hj; simp [zeroOut, hj]
    induction r with
    | init => simp
    | step _ st ih =>
      cases st with
      | idle hm =>
        refine ⟨fun o ho => ?_, fun p cnt off e => (by rw [hm] at e; cases e), fun p k e => (by rw [hm] at e; cases e)⟩
        simp only [List.mem_append, List.mem_singleton] at ho
        rcases ho with ho | rfl
        · exact ih.1 o ho
        · exact fun j hj _ => hz j hj
      | found p rest md hm ht e =>
        refine ⟨ih.1, fun p' cnt off e' => ?_, fun p' k e' => ?_⟩ <;>
        simp only [found, Res.bind_eq_ok, Res.assert_eq_ok, decide_eq_true_eq, exists_and_left, exists_const, Res.ok.injEq] at e
        · obtain ⟨-, -, rfl⟩ := e
          cases e'
        · obtain ⟨h1, -, rfl⟩ := e
          cases e'; omega
      | zero p k hm =>
        refine ⟨fun o ho => ?_, fun p cnt off e => (by cases e), fun p' k' e => (by cases e; exact ih.2.2 p _ hm)⟩
        simp only [List.mem_append, List.mem_singleton] at ho
        rcases ho with ho | rfl
        · exact ih.1 o ho
        · exact fun j hj _ => hz j hj
      | start p md hm e =>
        simp only [start, Res.bind_eq_ok, Res.assert_eq_ok, decide_eq_true_eq, exists_and_left, exists_const, Res.ok.injEq] at e
        obtain ⟨e1, rfl⟩ := e
        refine ⟨ih.1, fun p' cnt off e' => ?_, fun p' k e' => by cases e'⟩
        cases e'
        exact ⟨ih.2.2 p 0 hm, e1⟩
      | send p cnt off avail it hm e =>
        obtain ⟨hcnt, hoff⟩ := ih.2.1 p cnt off hm
        obtain ⟨m, f, hmm, hspe, -, hover, alt⟩ := iter_spec e hcnt hoff
        refine ⟨fun o ho j hj hr => ?_, fun p' cnt' off' e' => ?_, fun p' k e' => ?_⟩
        · simp only [List.mem_append, List.mem_singleton] at ho
          rcases ho with ho | rfl
          · exact ih.1 o ho j hj hr
          · rw [hspe, List.getElem?_map, List.getElem?_range hj, Option.map_some]
            rcases alt with ⟨-, -, hf, h1, h2⟩ | ⟨q, -, -, -, -, -, -, ⟨-, -, hf, h1, h2⟩ | ⟨-, -, h1, h2, -⟩⟩
            · rw [hf, put_out _ _ _ _ _ (by omega)]
            · rw [hf, put_out _ _ _ _ _ (by omega)]
            · omega
        · simp only at e'
          split at e'
          · rename_i hl; cases e'; exact ⟨hl, hspp⟩
          · cases e'
        · simp only at e'
          split at e' <;> cases e'
  exact (key r).1 o ho j hj hr

/-- The range announced is either that of an spp without any packet, (-1, -1), all samples of which are zero, or it is not empty and lies
in the spp. -/
theorem C63_announced_range [Zero α] {spp : Nat} {T : Int} {ps : List (Pkt α)} {s : Tx α} (hspp : 0 < spp) (r : Reach spp T ps s)
    {o : Out α} (ho : o ∈ s.out) :
    (o.idx = -1 ∧ o.len = -1 ∧ o.spp = List.replicate spp 0) ∨ (0 ≤ o.idx ∧ 0 < o.len ∧ o.idx + o.len ≤ spp) := by
  have key : ∀ {s : Tx α}, Reach spp T ps s →
      (∀ o ∈ s.out, (o.idx = -1 ∧ o.len = -1 ∧ o.spp = List.replicate spp 0) ∨ (0 ≤ o.idx ∧ 0 < o.len ∧ o.idx + o.len ≤ spp)) ∧
      (∀ p cnt off, s.mode = .send p cnt off → cnt < p.len ∧ off < spp) ∧ (∀ p k, s.mode = .zeros p k → 0 < p.len) := by
    intro s r
    induction r with
    | init => simp
    | step _ st ih =>
      cases st with
      | idle hm =>
        refine ⟨fun o ho => ?_, fun p cnt off e => (by rw [hm] at e; cases e), fun p k e => (by rw [hm] at e; cases e)⟩
        simp only [List.mem_append, List.mem_singleton] at ho
        rcases ho with ho | rfl
        · exact ih.1 o ho
        · exact Or.inl ⟨rfl, rfl, rfl⟩
      | found p rest md hm ht e =>
        refine ⟨ih.1, fun p' cnt off e' => ?_, fun p' k e' => ?_⟩ <;>
        simp only [found, Res.bind_eq_ok, Res.assert_eq_ok, decide_eq_true_eq, exists_and_left, exists_const, Res.ok.injEq] at e
        · obtain ⟨-, -, rfl⟩ := e
          cases e'
        · obtain ⟨h1, -, rfl⟩ := e
          cases e'; omega
      | zero p k hm =>
        refine ⟨fun o ho => ?_, fun p cnt off e => (by cases e), fun p' k' e => (by cases e; exact ih.2.2 p _ hm)⟩
        simp only [List.mem_append, List.mem_singleton] at ho
        rcases ho with ho | rfl
        · exact ih.1 o ho
        · exact Or.inl ⟨rfl, rfl, rfl⟩
      | start p md hm e =>
        simp only [start, Res.bind_eq_ok, Res.assert_eq_ok, decide_eq_true_eq, exists_and_left, exists_const, Res.ok.injEq] at e
        obtain ⟨e1, rfl⟩ := e
        refine ⟨ih.1, fun p' cnt off e' => ?_, fun p' k e' => by cases e'⟩
        cases e'
        exact ⟨ih.2.2 p 0 hm, e1⟩
      | send p cnt off avail it hm e =>
        obtain ⟨hcnt, hoff⟩ := ih.2.1 p cnt off hm
        obtain ⟨m, f, hmm, hspe, -, hover, alt⟩ := iter_spec e hcnt hoff
        refine ⟨fun o ho => ?_, fun p' cnt' off' e' => ?_, fun p' k e' => ?_⟩
        · simp only [List.mem_append, List.mem_singleton] at ho
          rcases ho with ho | rfl
          · exact ih.1 o ho
          · right
            rcases alt with ⟨-, -, hf, h1, h2⟩ | ⟨q, -, -, -, -, -, -, ⟨-, -, hf, h1, h2⟩ | ⟨-, -, h1, h2, -⟩⟩ <;>
              rw [h1, h2] <;> omega
        · simp only at e'
          split at e'
          · rename_i hl; cases e'; exact ⟨hl, hspp⟩
          · cases e'
        · simp only at e'
          split at e' <;> cases e'
  exact (key r).1 o ho

/-- Everything may be found at once: two packets, the second starts in the spp in which the first ends. -/
example : ∃ s : Tx Nat, Reach 2 10 [⟨11, 4, (· + 1)⟩, ⟨16, 3, (· + 5)⟩] s ∧ s.todo = [] ∧ signal s = [0, 1, 2, 3, 4, 0, 5, 6, 7, 0] := by
  refine ⟨_, .step (.step (.step (.step (.step (.step (.step (.step (.step .init
    (.found _ ⟨11, 4, (· + 1)⟩ _ _ rfl rfl rfl)) (.start _ _ _ rfl rfl))
    (.send _ _ _ _ true _ rfl rfl)) (.send _ _ _ _ true _ rfl rfl)) (.send _ _ _ _ true _ rfl rfl))
    (.found _ _ _ _ rfl rfl rfl)) (.start _ _ _ rfl rfl)) (.send _ _ _ _ true _ rfl rfl)) (.send _ _ _ _ true _ rfl rfl), rfl, rfl⟩

/-- The packet following a shorter one is lost. The first one has 3 samples and ends in the middle of an spp; the second one has 4 and
starts two spp later. Both are in the pool in time. The second is set as transmitted, but of its samples only the last one is sent, five
samples before the packet was due. In hw_simulator.cpp:500-503 `tx_length_samples` becomes that of the second packet while
`tx_length_samples_cnt` keeps the length of the first, so the inner loop goes on at sample 3 of the second. -/
theorem C63_gap_finding : ∃ s : Tx Nat, Reach 2 0 [⟨0, 3, (· + 1)⟩, ⟨6, 4, (· + 4)⟩] s ∧ s.todo = [] ∧ s.mode = .idle ∧ s.now = 12 ∧
    signal s = [1, 2, 3, 0, 7, 0, 0, 0, 0, 0, 0, 0] := by
  refine ⟨_, .step (.step (.step (.step (.step (.step (.step (.step .init
    (.found _ ⟨0, 3, (· + 1)⟩ _ _ rfl rfl rfl)) (.start _ _ _ rfl rfl))
    (.send _ _ _ _ true _ rfl rfl)) (.send _ _ _ _ true _ rfl rfl)) (.send _ _ _ _ true _ rfl rfl))
    (.idle _ rfl)) (.idle _ rfl)) (.idle _ rfl), rfl, rfl, rfl, rfl⟩

end Verif.SimTx
