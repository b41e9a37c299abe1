import Verif.Spec.LinkAdapt
import Verif.Props.C02_Plcf
import Verif.Props.C71_Codebook
import Mathlib.Tactic.NormNum
import Mathlib.Tactic.IntervalCases

/-!
# C72: packets are adapted to the last report of the peer that is not too old -/

namespace Verif.Link

open Spec Feedback

/-! ## MCS for an SNR -/

theorem req_mono : ∀ i < 12, ∀ k < 12, i ≤ k → snrRequired.getD i 0 ≤ snrRequired.getD k 0 := by decide +kernel

theorem req_needs : ∀ i < 12, snrRequired.getD i 0 = needs i := by decide +kernel

theorem highestLoop_spec (p : Option ℚ) (mx : Nat) (hx : mx < 12) : ∀ (fuel i ret : Nat), i = ret + 1 → ret + fuel = mx →
    (ret ≤ highestLoop p fuel i ret ∧ highestLoop p fuel i ret ≤ mx) ∧
    (highestLoop p fuel i ret = ret ∨ ∃ q, p = some q ∧ snrRequired.getD (highestLoop p fuel i ret) 0 ≤ q) ∧
    ∀ k, highestLoop p fuel i ret < k → k ≤ mx → ∀ q, p = some q → q < snrRequired.getD k 0
  | 0, i, ret, _, h => by
    unfold highestLoop
    exact ⟨⟨le_rfl, by omega⟩, .inl rfl, fun k hk hk' => by omega⟩
  | fuel + 1, i, ret, hi, h => by
    unfold highestLoop
    by_cases hc : fle (snrRequired.getD i 0) p = true
    · rw [if_pos hc]
      have ih := highestLoop_spec p mx hx fuel (i + 1) i rfl (by omega)
      obtain ⟨⟨a, b⟩, c, d⟩ := ih
      refine ⟨⟨by omega, b⟩, .inr ?_, d⟩
      rcases c with c | c
      · rw [c]
        cases p with
        | none => simp [fle] at hc
        | some q => exact ⟨q, rfl, by simpa [fle] using hc⟩
      · exact c
    · rw [if_neg hc]
      refine ⟨⟨le_rfl, by omega⟩, .inl rfl, fun k hk hk' q hq => ?_⟩
      subst hq
      have : q < snrRequired.getD i 0 := by simpa [fle] using hc
      exact lt_of_lt_of_le this (req_mono i (by omega) k (by omega) (by omega))

/-- The MCS reported is the highest that the SNR measured, less the offset, allows, within the limits of the device. -/
theorem C72_highest {mn mx : Nat} {l : Cqi} (h : Cqi.make mn mx = .ok l) (p : Option ℚ) :
    l = ⟨mn, mx⟩ ∧ mx ≤ 11 ∧ Highest l p (l.highest p) ∧ ∀ m, Highest l p m → m = l.highest p := by
  simp only [Cqi.make, Res.bind_eq_ok, Res.assert_eq_ok, decide_eq_true_eq, exists_and_left, exists_const, Res.ok.injEq] at h
  obtain ⟨h1, h2, rfl⟩ := h
  have h2' : mx < 12 := h2
  have H : Highest ⟨mn, mx⟩ p (Cqi.highest ⟨mn, mx⟩ p) := by
    obtain ⟨a, b, c⟩ := highestLoop_spec p mx h2' (mx - mn) (mn + 1) mn rfl (by omega)
    refine ⟨a, ?_, fun k h1 h3 q hq => ?_⟩
    · rcases b with b | ⟨q, hq, b⟩
      · exact .inl b
      · rw [req_needs _ (by omega)] at b
        exact .inr ⟨q, hq, b⟩
    · have h3' : k ≤ mx := h3
      rw [← req_needs k (by omega)]
      exact c k h1 h3 q hq
  refine ⟨rfl, by omega, H, fun m hm => ?_⟩
  obtain ⟨⟨a1, a2⟩, b, c⟩ := hm
  obtain ⟨⟨a1', a2'⟩, b', c'⟩ := H
  rcases Nat.lt_trichotomy m (Cqi.highest ⟨mn, mx⟩ p) with g | g | g
  · rcases b' with b' | ⟨q, hq, b'⟩
    · simp only at a1 b'; omega
    · exact absurd (c _ g a2' q hq) (not_lt.mpr b')
  · exact g
  · rcases b with b | ⟨q, hq, b⟩
    · simp only at a1' b; omega
    · exact absurd (c' _ g a2 q hq) (not_lt.mpr b)

/-- Limits that are not ordered, or an MCS beyond 11, abort. -/
theorem C72_limits (mn mx : Nat) : (∃ l, Cqi.make mn mx = .ok l) ↔ mn ≤ mx ∧ mx ≤ 11 := by
  unfold Cqi.make
  by_cases h1 : mn ≤ mx
  · by_cases h2 : mx < snrRequired.length
    · have : mx < 12 := h2
      simp [h1, h2]; omega
    · have : ¬ mx < 12 := h2
      simp [h1, h2]; omega
  · simp [h1]

/-! ## Histories -/

/-- What the state of an expiring value is after a value was set last -/
def toExp : Option (Nat × Int) → Exp
  | some (x, t) => ⟨x, t⟩
  | none => .init

theorem get_toExp (v : Option (Nat × Int)) {latest : Int} (h : -1152921504606846976 < latest) (fb : Nat) :
    (toExp v).get latest fb = fresh v latest fb := by
  cases v with
  | none =>
    have : ¬ latest ≤ -1152921504606846976 := by omega
    simp [toExp, fresh, Exp.get, Exp.isValid, Exp.init, this]
  | some v => obtain ⟨x, t⟩ := v; by_cases hc : latest ≤ t <;> simp [toExp, fresh, Exp.get, Exp.isValid, hc]

theorem last_append (f : Event → Option (Nat × Int)) (h : List Event) (e : Event) :
    last f (h ++ [e]) = (f e).or (last f h) := by
  unfold last
  rw [List.filterMap_append]
  cases he : f e with
  | none => simp [he]
  | some v => simp [he]

theorem run_append (l : Cqi) (mimo : Bool) (rate : Nat) : ∀ (h : List Event) (s : Contact × Pool) (e : Event),
    run l mimo rate s (h ++ [e]) = (do
      let r ← run l mimo rate s h
      let q ← step l mimo rate r.1 e
      .ok (q.1, r.2 ++ q.2.toList))
  | [], s, e => by
    simp only [List.nil_append, run, Res.ok_bind]
    cases step l mimo rate s e <;> simp
  | x :: h, s, e => by
    simp only [List.cons_append, run]
    cases hx : step l mimo rate s x with
    | ok r =>
      simp only [Res.ok_bind]
      rw [run_append l mimo rate h r.1 e]
      cases run l mimo rate r.1 h with
      | ok q =>
        simp only [Res.ok_bind]
        cases step l mimo rate q.1 e <;> simp
      | abort => simp
      | ub => simp
    | abort => simp
    | ub => simp

/-- The state of a contact after a history in which `k` packets were sent -/
structure Inv (l : Cqi) (plan : List Nat) (h : List Event) (k : Nat) (c : Contact) : Prop where
  fbMcs : c.csi.fbMcs = toExp (last suggested h)
  phyMcs : c.csi.phyMcs = toExp (last (measured l) h)
  phyCb : c.csi.phyCb = toExp (last recommended h)
  cb : c.csi.cb = toExp (last own h)
  eqPlan : c.plan = plan
  idx : c.idx = k % plan.length

theorem sendOk {l : Cqi} {mimo : Bool} {rate n : Nat} (hn : Sp3.Duration.samples rate .ms001 50 = .ok n) {plan : List Nat} (hp : plan ≠ [])
    {h : List Event} {k : Nat} {c : Contact} (i : Inv l plan h k c) {tx : Int} (ht : Regular n (.send tx true true)) (pool : Pool) (harq written : Bool) :
    ∃ c' pool' o, txUnicast l mimo rate tx harq written pool c = .ok (c', pool', o) ∧ c'.csi = c.csi ∧ c'.plan = plan ∧
      c'.idx = (k + (if harq && written then 1 else 0)) % plan.length ∧
      o = if harq && written then some ⟨l.clamp (fresh (last suggested h) (tx - n) l.min), plan.getD (k % plan.length) 0,
          pool', if mimo then fresh (last own h) (tx - n) 0 else 0⟩ else none := by
  obtain ⟨h1, h2⟩ := ht
  have hl : 0 < plan.length := List.length_pos_of_ne_nil hp
  have hidx : c.idx < c.plan.length := by rw [i.idx, i.eqPlan]; exact Nat.mod_lt _ hl
  have hi : Sp3.Duration.i64 (tx - n) = .ok (tx - n) := by
    unfold Sp3.Duration.i64
    rw [if_pos (by omega)]
  have hf : c.format = .ok (plan.getD (k % plan.length) 0) := by
    unfold Contact.format
    rw [Phy.Codebook.atA_ok hidx]
    simp only [i.idx, i.eqPlan]
    rw [List.getD_eq_getElem?_getD, List.getElem?_eq_getElem (Nat.mod_lt _ hl)]; rfl
  have hnx : c.next = .ok { c with idx := (k + 1) % plan.length } := by
    unfold Contact.next
    rw [if_neg (by rw [i.eqPlan]; omega), i.idx, i.eqPlan, Nat.mod_add_mod]
  have g1 := get_toExp (last suggested h) h1 l.min
  have g2 := get_toExp (last own h) h1 0
  unfold txUnicast
  rw [hn, Res.ok_bind, hi, Res.ok_bind]
  cases harq
  · exact ⟨c, pool, none, rfl, rfl, i.eqPlan, by simpa using i.idx, rfl⟩
  · rw [hf]
    cases written
    · exact ⟨c, _, none, rfl, rfl, i.eqPlan, by simpa using i.idx, rfl⟩
    · simp only [Res.ok_bind, Bool.not_true, Bool.false_eq_true, if_false, hnx]
      refine ⟨_, _, _, rfl, rfl, i.eqPlan, rfl, ?_⟩
      simp only [Bool.and_self, if_true, i.fbMcs, i.cb, g1, g2]

theorem reach (l : Cqi) (mimo : Bool) {rate n : Nat} (hn : Sp3.Duration.samples rate .ms001 50 = .ok n) {plan : List Nat} (hp : plan ≠ [])
    (pool : Pool) (h : List Event) (hr : ∀ e ∈ h, Regular n e) :
    ∃ c pool' ps, run l mimo rate (.init plan, pool) h = .ok ((c, pool'), ps) ∧ Inv l plan h ps.length c := by
  induction h using List.reverseRecOn with
  | nil => exact ⟨_, _, [], rfl, ⟨rfl, rfl, rfl, rfl, rfl, by simp [Contact.init]⟩⟩
  | append_singleton h e ih =>
    obtain ⟨c, pl, ps, er, i⟩ := ih fun x hx => hr x (by simp [hx])
    have he := hr e (by simp)
    rw [run_append, er, Res.ok_bind]
    cases e with
    | plcf fmt q t =>
      have hf : fmt ≤ 6 := he
      simp only [step]
      interval_cases fmt
      all_goals
        simp only [Csi.fromFeedback, Res.ok_bind]
        refine ⟨_, _, _, rfl, ⟨?_, ?_, ?_, ?_, ?_, ?_⟩⟩
        all_goals simp [last_append, suggested, measured, recommended, own, toExp, i.fbMcs, i.phyMcs, i.phyCb, i.cb, i.eqPlan, i.idx]
    | snr p t =>
      refine ⟨_, _, _, rfl, ⟨?_, ?_, ?_, ?_, ?_, ?_⟩⟩
      all_goals simp [last_append, suggested, measured, recommended, own, toExp, i.fbMcs, i.phyMcs, i.phyCb, i.cb, i.eqPlan, i.idx, Csi.fromMcs]
    | report a b t =>
      refine ⟨_, _, _, rfl, ⟨?_, ?_, ?_, ?_, ?_, ?_⟩⟩
      all_goals simp [last_append, suggested, measured, recommended, own, toExp, i.fbMcs, i.phyMcs, i.phyCb, i.cb, i.eqPlan, i.idx, Csi.fromReport]
    | send tx harq written =>
      obtain ⟨c', pl', o, e1, e2, e3, e4, e5⟩ := sendOk (mimo := mimo) hn hp i he pl harq written
      simp only [step, e1, Res.ok_bind]
      refine ⟨c', pl', _, rfl, ⟨?_, ?_, ?_, ?_, e3, ?_⟩⟩
      all_goals try simp [last_append, suggested, measured, recommended, own, e2, i.fbMcs, i.phyMcs, i.phyCb, i.cb]
      rw [e4, e5]
      cases harq <;> cases written <;> rfl
    | other q =>
      refine ⟨_, _, _, rfl, ⟨?_, ?_, ?_, ?_, ?_, ?_⟩⟩
      all_goals simp [last_append, suggested, measured, recommended, own, i.fbMcs, i.phyMcs, i.phyCb, i.cb, i.eqPlan, i.idx]

/-- Whatever happened to a contact before, nothing aborts, and the next packet is sent with
* the MCS the peer suggested last, if not more than 50 ms before the transmission, and otherwise the lowest allowed, within the limits;
* the next feedback format of the plan, one step per packet sent;
* as feedback the MCS of the last packet received (format 4) or the codebook index recommended last (format 5), if not older than 50 ms. -/
theorem C72_history {l : Cqi} {mn mx : Nat} (hl : Cqi.make mn mx = .ok l) (mimo : Bool) {rate n : Nat}
    (hn : Sp3.Duration.samples rate .ms001 50 = .ok n) {plan : List Nat} (hp : plan ≠ []) (pool : Pool) (h : List Event)
    (hr : ∀ e ∈ h, Regular n e) {tx : Int} (ht : Regular n (.send tx true true)) :
    ∃ s ps s' pkt, run l mimo rate (.init plan, pool) h = .ok (s, ps) ∧ step l mimo rate s (.send tx true true) = .ok (s', some pkt) ∧
      pkt.mcs = l.clamp (fresh (last suggested h) (tx - n) l.min) ∧ (mn ≤ pkt.mcs ∧ pkt.mcs ≤ mx) ∧
      pkt.fmt = plan.getD (ps.length % plan.length) 0 ∧
      (pkt.fmt = 4 → pkt.pool.f4.mcs = fresh (last (measured l) h) (tx - n) l.min) ∧
      (pkt.fmt = 5 → pkt.pool.f5.codebook = fresh (last recommended h) (tx - n) 0) ∧
      pkt.cb = if mimo then fresh (last own h) (tx - n) 0 else 0 := by
  obtain ⟨c, pl, ps, er, i⟩ := reach l mimo hn hp pool h hr
  obtain ⟨c', pl', o, e1, e2, e3, e4, e5⟩ := sendOk (mimo := mimo) hn hp i ht pl true true
  simp only [Bool.and_self, if_true] at e5
  subst e5
  have hs : ∀ pkt, txUnicast l mimo rate tx true true pl c = .ok (c', pl', some pkt) →
      step l mimo rate (c, pl) (.send tx true true) = .ok ((c', pl'), some pkt) := fun pkt e => by
    simp only [step, e, Res.ok_bind]
  replace hs := hs _ e1
  have hpool : pl' = feedbackPool l c.csi (tx - n) (plan.getD (ps.length % plan.length) 0) pl := by
    obtain ⟨h1, h2⟩ := ht
    have hlen : 0 < plan.length := List.length_pos_of_ne_nil hp
    have hi : Sp3.Duration.i64 (tx - n) = .ok (tx - n) := by
      unfold Sp3.Duration.i64
      rw [if_pos (by omega)]
    have hf : c.format = .ok (plan.getD (ps.length % plan.length) 0) := by
      have hidx : c.idx < c.plan.length := by rw [i.idx, i.eqPlan]; exact Nat.mod_lt _ hlen
      unfold Contact.format
      rw [Phy.Codebook.atA_ok hidx]
      simp only [i.idx, i.eqPlan]
      rw [List.getD_eq_getElem?_getD, List.getElem?_eq_getElem (Nat.mod_lt _ hlen)]; rfl
    unfold txUnicast at e1
    rw [hn, Res.ok_bind, hi, Res.ok_bind, hf] at e1
    simp only [Res.ok_bind, Bool.not_true, Bool.false_eq_true, if_false, Res.bind_eq_ok, Res.ok.injEq, Prod.mk.injEq, Option.some.injEq] at e1
    obtain ⟨_, _, _, e, _⟩ := e1
    exact e.symm
  obtain ⟨rfl, -, -⟩ := C72_highest hl none
  have hlim := (C72_limits mn mx).mp ⟨_, hl⟩
  refine ⟨(c, pl), ps, _, _, er, hs, rfl, ?_, rfl, ?_, ?_, rfl⟩
  · unfold Cqi.clamp
    simp only
    split
    · omega
    · split <;> omega
  · intro hf
    simp only at hf
    simp only [hpool, hf, feedbackPool, i.phyMcs]
    exact get_toExp _ ht.1 _
  · intro hf
    simp only at hf
    simp only [hpool, hf, feedbackPool, i.phyCb]
    exact get_toExp _ ht.1 _

/-! ## Feedback info can be packed -/

theorem poolAfter {l : Cqi} {mimo : Bool} {rate : Nat} {s s' : Contact × Pool} {tx : Int} {harq written : Bool} {o : Option Packet}
    (e : step l mimo rate s (.send tx harq written) = .ok (s', o)) :
    (∃ exp fmt, s'.2 = feedbackPool l s.1.csi exp fmt s.2 ∧ s'.1.csi = s.1.csi ∧ ∀ pkt, o = some pkt → pkt.pool = s'.2 ∧ pkt.fmt = fmt) ∨
      s' = s ∧ o = none := by
  simp only [step, txUnicast, Res.bind_eq_ok, Res.ok.injEq, Prod.mk.injEq] at e
  obtain ⟨r, ⟨n, hn, exp, he, e⟩, e1, e2⟩ := e
  cases harq
  · simp only [Bool.not_false, if_true, Res.ok.injEq] at e
    subst e
    right
    exact ⟨e1.symm, e2.symm⟩
  · simp only [Bool.not_true, Bool.false_eq_true, if_false, Res.bind_eq_ok] at e
    obtain ⟨fmt, hf, e⟩ := e
    left
    cases written
    · simp only [Bool.not_false, if_true, Res.ok.injEq] at e
      subst e
      subst e1
      exact ⟨exp, fmt, rfl, rfl, fun pkt h => by simp [← e2] at h⟩
    · simp only [Bool.not_true, Bool.false_eq_true, if_false, Res.bind_eq_ok, Res.ok.injEq] at e
      obtain ⟨c', hc, e⟩ := e
      subst e
      subst e1
      have : c'.csi = s.1.csi := by
        unfold Contact.next at hc
        split at hc
        · simp at hc
        · simp only [Res.ok.injEq] at hc; rw [← hc]
      exact ⟨exp, fmt, rfl, this, fun pkt h => by simp only [← e2, Option.some.injEq] at h; subst h; exact ⟨rfl, rfl⟩⟩

theorem highest_le {mn mx : Nat} {l : Cqi} (h : Cqi.make mn mx = .ok l) (p : Option ℚ) : l.highest p ≤ 11 := by
  obtain ⟨rfl, hx, ⟨⟨-, b⟩, -⟩, -⟩ := C72_highest h p
  simp only at b
  omega

theorem feedbackPool_ok {mn mx : Nat} {l : Cqi} (h : Cqi.make mn mx = .ok l) {c : Csi} (h1 : c.phyMcs.val ≤ 11) (h2 : c.phyCb.val ≤ 63)
    (exp : Int) (fmt : Nat) {q : Pool} (hq : Packable q) : Packable (feedbackPool l c exp fmt q) := by
  obtain ⟨⟨a, b⟩, d⟩ := hq
  have hl : l.min ≤ 11 := by
    obtain ⟨rfl, hx, -⟩ := C72_highest h none
    have := (C72_limits mn mx).mp ⟨_, h⟩
    simp only
    omega
  unfold feedbackPool
  split
  · refine ⟨⟨a, ?_⟩, d⟩
    simp only [Exp.get]
    split <;> assumption
  · refine ⟨⟨a, b⟩, d.1, d.2.1, d.2.2.1, ?_⟩
    simp only [Exp.get]
    split
    · assumption
    · omega
  · exact ⟨⟨a, b⟩, d⟩

theorem reachPool {mn mx : Nat} {l : Cqi} (hl : Cqi.make mn mx = .ok l) (mimo : Bool) {rate n : Nat} {plan : List Nat}
    {pool : Pool} (hq : Packable pool) (h : List Event) (hr : ∀ e ∈ h, Regular n e) :
    ∀ s ps, run l mimo rate (.init plan, pool) h = .ok (s, ps) →
      Packable s.2 ∧ s.1.csi.phyMcs.val ≤ 11 ∧ s.1.csi.phyCb.val ≤ 63 ∧ ∀ pkt ∈ ps, Packable pkt.pool := by
  induction h using List.reverseRecOn with
  | nil =>
    intro s ps e
    simp only [run, Res.ok.injEq, Prod.mk.injEq] at e
    obtain ⟨rfl, rfl⟩ := e
    exact ⟨hq, by simp [Contact.init, Csi.init, Exp.init], by simp [Contact.init, Csi.init, Exp.init], by simp⟩
  | append_singleton h e ih =>
    intro s ps er
    rw [run_append] at er
    simp only [Res.bind_eq_ok, Res.ok.injEq, Prod.mk.injEq] at er
    obtain ⟨r, e1, q, e2, rfl, rfl⟩ := er
    obtain ⟨i1, i2, i3, i4⟩ := ih (fun x hx => hr x (by simp [hx])) r.1 r.2 e1
    have he := hr e (by simp)
    cases e with
    | plcf fmt q t =>
      have hf : fmt ≤ 6 := he
      simp only [step] at e2
      interval_cases fmt
      all_goals
        simp only [Csi.fromFeedback, Res.ok_bind, Res.ok.injEq] at e2
        subst e2
        exact ⟨i1, i2, i3, by simpa using i4⟩
    | snr p t =>
      simp only [step, Res.ok.injEq] at e2
      subst e2
      exact ⟨i1, highest_le hl p, i3, by simpa using i4⟩
    | report a b t =>
      simp only [step, Res.ok.injEq] at e2
      subst e2
      exact ⟨i1, i2, he.1, by simpa using i4⟩
    | send tx harq written =>
      rcases poolAfter (s' := q.1) (o := q.2) e2 with ⟨exp, fmt, g1, g2, g3⟩ | ⟨g1, g2⟩
      · have hp := feedbackPool_ok hl i2 i3 exp fmt i1
        rw [← g1] at hp
        refine ⟨hp, by rw [g2]; exact i2, by rw [g2]; exact i3, fun pkt hm => ?_⟩
        rcases List.mem_append.mp hm with hm | hm
        · exact i4 pkt hm
        · rw [(g3 pkt (by simpa using hm)).1]; exact hp
      · rw [g1, g2]
        exact ⟨i1, i2, i3, by simpa using i4⟩
    | other q' =>
      simp only [step, Res.ok.injEq] at e2
      subst e2
      exact ⟨he, i2, i3, by simpa using i4⟩

/-- The feedback info of every packet sent in a history can be packed, whatever the format. -/
theorem C72_pack {mn mx : Nat} {l : Cqi} (hl : Cqi.make mn mx = .ok l) (mimo : Bool) {rate n : Nat} {plan : List Nat}
    (hp : plan ≠ []) (hpl : ∀ f ∈ plan, f = 4 ∨ f = 5) (hn : Sp3.Duration.samples rate .ms001 50 = .ok n)
    {pool : Pool} (hq : Packable pool) (h : List Event) (hr : ∀ e ∈ h, Regular n e) :
    ∃ s ps, run l mimo rate (.init plan, pool) h = .ok (s, ps) ∧ ∀ pkt ∈ ps, InRange pkt.pool pkt.fmt := by
  obtain ⟨c, pl, ps, er, -⟩ := reach l mimo hn hp pool h hr
  refine ⟨_, _, er, ?_⟩
  obtain ⟨-, -, -, i4⟩ := reachPool hl mimo hq h hr _ _ er
  have hf : ∀ (h : List Event) (hr : ∀ e ∈ h, Regular n e) s ps, run l mimo rate (.init plan, pool) h = .ok (s, ps) → ∀ pkt ∈ ps, pkt.fmt ∈ plan := by
    intro h
    induction h using List.reverseRecOn with
    | nil =>
      intro _ s ps e
      simp only [run, Res.ok.injEq, Prod.mk.injEq] at e
      simp [← e.2]
    | append_singleton h e ih =>
      intro hr s ps er
      rw [run_append] at er
      simp only [Res.bind_eq_ok, Res.ok.injEq, Prod.mk.injEq] at er
      obtain ⟨r, e1, q, e2, rfl, rfl⟩ := er
      intro pkt hm
      rcases List.mem_append.mp hm with hm | hm
      · exact ih (fun x hx => hr x (by simp [hx])) _ _ e1 pkt hm
      · have hm' : q.2 = some pkt := by simpa using hm
        obtain ⟨c, pl, ps', er', i⟩ := reach l mimo hn hp pool h fun x hx => hr x (by simp [hx])
        rw [e1, Res.ok.injEq] at er'
        have hr1 : r.1 = (c, pl) := by rw [er']
        have he := hr e (by simp)
        cases e with
        | send tx harq written =>
          obtain ⟨c', pl', o, e1', -, -, -, e5⟩ := sendOk (mimo := mimo) hn hp i he pl harq written
          rw [hr1] at e2
          simp only [step, e1', Res.ok_bind, Res.ok.injEq] at e2
          rw [← e2] at hm'
          simp only [e5] at hm'
          split at hm'
          · simp only [Option.some.injEq] at hm'
            rw [← hm']
            have hlt := Nat.mod_lt ps'.length (List.length_pos_of_ne_nil hp)
            simp only
            rw [List.getD_eq_getElem?_getD, List.getElem?_eq_getElem hlt]
            exact List.getElem_mem hlt
          · simp at hm'
        | plcf fmt q t =>
          simp only [step, Res.bind_eq_ok, Res.ok.injEq] at e2
          obtain ⟨_, _, e2⟩ := e2
          simp [← e2] at hm'
        | snr p t => simp only [step, Res.ok.injEq] at e2; simp [← e2] at hm'
        | report a b t => simp only [step, Res.ok.injEq] at e2; simp [← e2] at hm'
        | other q' => simp only [step, Res.ok.injEq] at e2; simp [← e2] at hm'
  intro pkt hm
  obtain ⟨a, b⟩ := i4 pkt hm
  rcases hpl _ (hf h hr _ _ er pkt hm) with e | e
  · rw [e]; exact a
  · rw [e]; exact b

/-! ## Two devices -/

/-- The MCS of a packet is the highest that the SNR measured at the other device allows: device A measures `p` at time `ta` and sends a packet
with feedback format 4 at `tx` not more than 50 ms later; if device B receives its PLCF and sends at most 50 ms after that, then with the MCS A
found for `p`, within the limits of B. Times are those of each device, what happens before and in between is arbitrary. -/
theorem C72_two_devices {lA lB : Cqi} {mnA mxA mnB mxB : Nat} (hA : Cqi.make mnA mxA = .ok lA) (hB : Cqi.make mnB mxB = .ok lB) (mA mB : Bool)
    {rateA nA rateB nB : Nat} (hnA : Sp3.Duration.samples rateA .ms001 50 = .ok nA) (hnB : Sp3.Duration.samples rateB .ms001 50 = .ok nB)
    {planA planB : List Nat} (hpA : planA ≠ []) (hpB : planB ≠ []) (poolA poolB : Pool)
    {hist mid : List Event} {p : Option ℚ} {ta : Int} (hrA : ∀ e ∈ hist ++ .snr p ta :: mid, Regular nA e) (hmid : ∀ e ∈ mid, measured lA e = none)
    {tx : Int} (ht : Regular nA (.send tx true true)) (hfa : tx - nA ≤ ta)
    {sA sA' : Contact × Pool} {psA : List Packet} {pkt : Packet}
    (eA : run lA mA rateA (.init planA, poolA) (hist ++ .snr p ta :: mid) = .ok (sA, psA))
    (eA' : step lA mA rateA sA (.send tx true true) = .ok (sA', some pkt)) (hfmt : pkt.fmt = 4)
    {f : Plcf.P21} (hf : Plcf.Ok21 f) (hff : f.fmt = pkt.fmt) (hfp : f.pool = pkt.pool) :
    ∃ bytes, f.pack = .ok bytes ∧ ∀ old rest, ∃ r, Plcf.P21.unpack old (bytes ++ rest) = .ok (r, true) ∧
      ∀ (hist' mid' : List Event) (tb : Int), (∀ e ∈ hist' ++ .plcf r.fmt r.pool tb :: mid', Regular nB e) → (∀ e ∈ mid', suggested e = none) →
      ∀ (txB : Int), Regular nB (.send txB true true) → txB - nB ≤ tb →
      ∃ sB psB sB' pktB, run lB mB rateB (.init planB, poolB) (hist' ++ .plcf r.fmt r.pool tb :: mid') = .ok (sB, psB) ∧
        step lB mB rateB sB (.send txB true true) = .ok (sB', some pktB) ∧
        pktB.mcs = lB.clamp (lA.highest p) ∧ (lA = lB → Highest lB p pktB.mcs) := by
  have hlast : ∀ (g : Event → Option (Nat × Int)) (a : List Event) (e : Event) (b : List Event) v, g e = some v → (∀ x ∈ b, g x = none) →
      last g (a ++ e :: b) = some v := by
    intro g a e b v he hb
    have : b.filterMap g = [] := List.filterMap_eq_nil_iff.mpr hb
    simp [last, he, this]
  obtain ⟨s0, ps0, s0', pkt0, r0, r1, -, -, -, hm, -⟩ := C72_history hA mA hnA hpA poolA _ hrA ht
  rw [eA, Res.ok.injEq, Prod.mk.injEq] at r0
  obtain ⟨rfl, rfl⟩ := r0
  rw [eA', Res.ok.injEq, Prod.mk.injEq, Option.some.injEq] at r1
  obtain ⟨-, rfl⟩ := r1
  have hmcs := hm hfmt
  rw [hlast _ hist _ mid _ rfl hmid] at hmcs
  simp only [fresh, if_pos hfa] at hmcs
  obtain ⟨bytes, e1, -, -, -, e2⟩ := Plcf.C02_p21_roundtrip f hf
  refine ⟨bytes, e1, fun old rest => ?_⟩
  obtain ⟨r, e3, q, e4, rfl⟩ := e2 old rest
  refine ⟨_, e3, fun hist' mid' tb hrB hmid' txB htB hfb => ?_⟩
  rw [hff, hfmt] at e4
  have e4' : q = { old.pool with f4 := f.pool.f4 } := e4
  obtain ⟨sB, psB, sB', pktB, g1, g2, g3, -⟩ := C72_history hB mB hnB hpB poolB _ hrB htB
  refine ⟨sB, psB, sB', pktB, g1, g2, ?_⟩
  have hs : suggested (.plcf f.fmt q tb) = some (lA.highest p, tb) := by
    rw [hff, hfmt]
    simp only [suggested, e4', hfp, hmcs]
  simp only at g3
  rw [hlast _ hist' _ mid' _ hs hmid'] at g3
  simp only [fresh, if_pos hfb] at g3
  refine ⟨g3, fun hAB => ?_⟩
  subst hAB
  obtain ⟨-, -, hH, -⟩ := C72_highest hA p
  rw [g3]
  have : lA.clamp (lA.highest p) = lA.highest p := by
    obtain ⟨⟨a, b⟩, -⟩ := hH
    unfold Cqi.clamp
    rw [if_neg (by omega), if_neg (by omega)]
  rw [this]
  exact hH

/-! ## Codebook index -/

/-- As compiled by default, the codebook index of every packet is 0, which is accepted in every transmission mode. -/
theorem C72_codebook {l : Cqi} {rate : Nat} {s s' : Contact × Pool} {tx : Int} {harq written : Bool} {pkt : Packet}
    (e : step l false rate s (.send tx harq written) = .ok (s', some pkt)) : pkt.cb = 0 := by
  simp only [step, txUnicast, Res.bind_eq_ok, Res.ok.injEq, Prod.mk.injEq] at e
  obtain ⟨r, ⟨n, hn, exp, he, e⟩, e1, e2⟩ := e
  cases harq
  · simp only [Bool.not_false, if_true, Res.ok.injEq] at e
    subst e
    simp at e2
  · simp only [Bool.not_true, Bool.false_eq_true, if_false, Res.bind_eq_ok] at e
    obtain ⟨fmt, hf, e⟩ := e
    cases written
    · simp only [Bool.not_false, if_true, Res.ok.injEq] at e
      subst e
      simp at e2
    · simp only [Bool.not_true, Bool.false_eq_true, if_false, Res.bind_eq_ok, Res.ok.injEq] at e
      obtain ⟨c', hc, e⟩ := e
      subst e
      simp only [Option.some.injEq] at e2
      rw [← e2]

/-- Compiled with `TFW_P2P_MIMO`, a valid PLCF with the codebook index 63 determines the index of the next packet, which then aborts in every
transmission mode: nothing limits the index to the matrices there are. -/
theorem C72_codebook_finding {l : Cqi} {mn mx : Nat} (hl : Cqi.make mn mx = .ok l) {rate n : Nat}
    (hn : Sp3.Duration.samples rate .ms001 50 = .ok n) {plan : List Nat} (hp : plan ≠ []) (pool q : Pool) (hq : q.f5.codebook = 63)
    (h : List Event) (hr : ∀ e ∈ h, Regular n e) {t tx : Int} (ht : Regular n (.send tx true true)) (hf : tx - n ≤ t) :
    ∃ s ps s' pkt, run l true rate (.init plan, pool) (h ++ [.plcf 5 q t]) = .ok (s, ps) ∧
      step l true rate s (.send tx true true) = .ok (s', some pkt) ∧ pkt.cb = 63 ∧
      ∀ (F : Type) [Field F] [LinearOrder F] [IsStrictOrderedRing F] (sqrt : F → F), Phy.Codebook.Spec.Exact sqrt →
        ∀ m tm, Sp3.getTm m = .ok tm → ∀ opt dac occ,
          Phy.Codebook.txScale sqrt opt (decide (0 < pkt.cb)) dac occ tm.nTs tm.nTx pkt.cb = .abort := by
  obtain ⟨s, ps, s', pkt, e1, e2, -, -, -, -, -, e3⟩ := C72_history hl true hn hp pool (h ++ [.plcf 5 q t])
    (fun e he => by
      rcases List.mem_append.mp he with he | he
      · exact hr e he
      · simp only [List.mem_singleton] at he
        subst he
        show (5 : Nat) ≤ 6
        omega) ht
  rw [last_append] at e3
  simp only [own, Option.some_or, fresh, if_pos hf, hq, if_true] at e3
  refine ⟨s, ps, s', pkt, e1, e2, e3, ?_⟩
  intro F _ _ _ sqrt hs m tm htm opt dac occ
  have := Phy.Codebook.C71_accepted hs htm pkt.cb occ opt dac
  obtain ⟨mx', hmx, -, hcb⟩ := Phy.Codebook.C71_matrices (F := F) htm
  have hle : mx' < 63 := by
    have hp := Phy.Codebook.modes htm
    have tab : ∀ p ∈ Phy.Codebook.pairs, (Phy.Codebook.rowI p.1 p.2).length < 63 := by decide +kernel
    have h1 := tab _ hp
    have h2 := (Phy.Codebook.indexMax_eq _ hp).1
    rw [hmx, Res.ok.injEq] at h2
    simp only at h1 h2
    omega
  have hab := (hcb pkt.cb).2 (by omega)
  cases hx : Phy.Codebook.txScale sqrt opt (decide (0 < pkt.cb)) dac occ tm.nTs tm.nTx pkt.cb with
  | abort => rfl
  | ub => exact absurd hx this.2
  | ok r =>
    obtain ⟨W, hW⟩ := this.1.mp ⟨r, hx⟩
    rw [hab] at hW
    simp at hW

/-! ## Cases -/

/-- Feedback info at start, steady_rd.cpp:298-306 -/
def pool0 : Pool := ⟨⟨0, .ack, 0, 0⟩, ⟨0, .single, 0, 0⟩, ⟨0, .ack, 0, .ack, 0⟩, ⟨0, 4⟩, ⟨0, .ack, .single, 0⟩, ⟨0, 0, 0, 0⟩⟩

/-- Limits 4 and 9, 1.92 MS/s: nothing known, then 50 ms after a suggestion of MCS 11, then one sample later -/
theorem C72_history_example : ∃ s ps,
    run ⟨4, 9⟩ false 1920000 (.init [4, 5], pool0)
      [.send 0 true true, .snr (some 16) 100, .plcf 4 { pool0 with f4 := ⟨0, 11⟩ } 200, .send 96200 true true, .send 96201 true false,
        .send 96100 true true, .send 96201 true true] = .ok (s, ps) ∧
      ps.map (fun p => (p.mcs, p.fmt, p.pool.f4.mcs, p.cb)) = [(4, 4, 4, 0), (9, 5, 4, 0), (9, 4, 6, 0), (4, 5, 6, 0)] ∧
      Packable pool0 ∧ Sp3.Duration.samples 1920000 .ms001 50 = .ok 96000 ∧ (∃ l, Cqi.make 4 9 = .ok l) := by
  refine ⟨_, _, rfl, ?_, ?_, ?_, ?_⟩
  · decide +kernel
  · refine ⟨⟨?_, ?_⟩, ?_, ?_, ?_, ?_⟩ <;> decide
  · decide +kernel
  · exact ⟨_, rfl⟩

/-- PLCF of a packet with the feedback info `q` -/
def plcf0 (q : Pool) : Plcf.P21 := ⟨⟨1, 0, 3⟩, 7, 100, 0, 4, 200, 1, 0, 4, q⟩

/-- 16 dB measured at A is MCS 6, B sends with it. -/
theorem C72_two_devices_example : ∃ bytes r, (plcf0 { pool0 with f4 := ⟨0, 6⟩ }).pack = .ok bytes ∧
    Plcf.P21.unpack (plcf0 pool0) bytes = .ok (r, true) ∧ ∃ sB psB sB' pktB,
      run ⟨4, 9⟩ false 1920000 (.init [4], pool0) ([] ++ .plcf r.fmt r.pool 5000 :: []) = .ok (sB, psB) ∧
      step ⟨4, 9⟩ false 1920000 sB (.send 9000 true true) = .ok (sB', some pktB) ∧ pktB.mcs = 6 := by
  have hd : Sp3.Duration.samples 1920000 .ms001 50 = .ok 96000 := by decide +kernel
  have hok : Plcf.Ok21 (plcf0 { pool0 with f4 := ⟨0, 6⟩ }) := by
    refine ⟨?_, ?_⟩
    · unfold Plcf.Hdr21 Plcf.BaseOk; decide
    · show (0 : Nat) ≤ 255 ∧ (6 : Nat) ≤ 11; omega
  obtain ⟨bytes, hb, h⟩ := C72_two_devices (lA := ⟨4, 9⟩) (lB := ⟨4, 9⟩) (mnA := 4) (mxA := 9) (mnB := 4) (mxB := 9) rfl rfl false false hd hd
    (planA := [4]) (planB := [4]) (by simp) (by simp) pool0 pool0 (hist := []) (mid := []) (p := some 16) (ta := 100)
    (by simp [Regular]) (by simp) (tx := 500) ⟨by omega, by omega⟩ (by omega)
    (sA := (⟨⟨.init, .init, ⟨6, 100⟩, .init, .init, .init⟩, [4], 0⟩, pool0)) (psA := [])
    (sA' := (⟨⟨.init, .init, ⟨6, 100⟩, .init, .init, .init⟩, [4], 0⟩, { pool0 with f4 := ⟨0, 6⟩ }))
    (pkt := ⟨4, 4, { pool0 with f4 := ⟨0, 6⟩ }, 0⟩) (by decide +kernel) (by decide +kernel) rfl hok rfl rfl
  obtain ⟨r, hr, hB⟩ := h (plcf0 pool0) []
  rw [List.append_nil] at hr
  have hf : r.fmt ≤ 6 := by
    have := Plcf.C02_p21_roundtrip _ hok
    obtain ⟨bytes', e1, -, -, -, e2⟩ := this
    rw [hb, Res.ok.injEq] at e1
    subst e1
    obtain ⟨r', e3, q, -, e4⟩ := e2 (plcf0 pool0) []
    rw [List.append_nil, hr, Res.ok.injEq, Prod.mk.injEq] at e3
    rw [e3.1, e4]
    show (4 : Nat) ≤ 6
    omega
  obtain ⟨sB, psB, sB', pktB, g1, g2, g3, -⟩ := hB [] [] 5000 (by simpa [Regular] using hf) (by simp) 9000 ⟨by omega, by omega⟩ (by omega)
  refine ⟨bytes, r, hb, hr, sB, psB, sB', pktB, g1, g2, g3.trans ?_⟩
  decide +kernel

end Verif.Link
