import Verif.Spec.Rtt
import Verif.Lemma.Rtt
import Verif.Model.PacketSizes
import Mathlib.Data.List.Forall2

set_option linter.unusedSimpArgs false

/-!
# C78: the measurement of the round-trip time
-/

namespace Verif.Upper.Rtt

open Verif.App

/-- What holds in every state. -/
structure Inv (c : Cfg) (s : Sys) : Prop where
  ring1 : ∃ l, Ring (s.q 1) l
  ring0 : ∃ ds l, s.got 0 = ds ++ l ∧ Ring (s.q 0) l ∧ (c.ft = true → List.Forall₂ (Carries c) s.sent ds)
  early : s.boot ≠ .done → s.permeable = false ∧ s.jobs = [] ∧ (∀ a b, s.srv ≠ .enqueuing a b) ∧ (c.ft = true → s.sent = [])
  late : s.boot = .done → s.permeable = true
  stage : s.fw.stage.length = stageLen
  zeros : c.ft = true → s.fw.stage.drop 16 = List.replicate 1984 0
  orders : ∀ i (h : i < s.sent.length), s.sent[i].order = i
  order : s.fw.order = s.sent.length
  apart : s.sent.Pairwise (fun (a b : Tx) => a.time + (c.nSamples : Int) ≤ b.time)
  earliest : ∀ t ∈ s.sent, t.time + c.nSamples ≤ s.fw.earliest
  count : s.fw.rxCnt = s.since.length
  least : s.fw.rttMin = s.since.foldl min (-undefinedEarly)
  most : s.fw.rttMax = s.since.foldl max undefinedEarly
  conns : ∀ j ∈ s.jobs, j.1 < 2
  srv1 : ∀ a b, s.srv = .written a b ∨ s.srv = .enqueuing a b → a < 2

theorem Inv.rings {c : Cfg} {s : Sys} (h : Inv c s) : ∀ i, i < 2 → ∃ l, Ring (s.q i) l := by
  intro i hi
  obtain ⟨ds, l, -, h0, -⟩ := h.ring0
  match i, hi with
  | 0, _ => exact ⟨l, h0⟩
  | 1, _ => exact h.ring1

theorem inv_init (c : Cfg) (junk : Nat → Nat → List Nat) (clk first : Int) : Inv c (Sys.init junk clk first) := by
  refine ⟨⟨[], ring_init _⟩, ⟨[], [], rfl, ring_init _, fun _ => .nil⟩, fun _ => ⟨rfl, rfl, fun _ _ => Srv.noConfusion, fun _ => rfl⟩,
    nofun, by simp [Sys.init, Fw.init], fun _ => ?_, ?_, rfl, .nil, ?_, rfl, rfl, rfl, ?_, ?_⟩
  · show (List.replicate 2000 0).drop 16 = _
    rw [List.drop_replicate]
  · intro i h; exact absurd h (Nat.not_lt_zero _)
  · intro t h; cases h
  · intro j h; cases h
  · intro a b h; rcases h with h | h <;> cases h

theorem orders_snoc {l : List Tx} {t : Tx} (h : ∀ i (h : i < l.length), l[i].order = i) (ht : t.order = l.length) :
    ∀ i (h : i < (l ++ [t]).length), (l ++ [t])[i].order = i := by
  intro i hi
  by_cases hl : i < l.length
  · rw [List.getElem_append_left hl]; exact h i hl
  · have : i = l.length := by simp at hi; omega
    subst this
    simp [ht]

theorem apart_snoc {n : Nat} {l : List Tx} {t : Tx} {e : Int} (h : l.Pairwise (fun (a b : Tx) => a.time + (n : Int) ≤ b.time))
    (he : ∀ t ∈ l, t.time + n ≤ e) (ht : e ≤ t.time) : (l ++ [t]).Pairwise (fun (a b : Tx) => a.time + (n : Int) ≤ b.time) := by
  rw [List.pairwise_append]
  refine ⟨h, by simp, ?_⟩
  intro a ha b hb
  rw [List.mem_singleton] at hb
  subst hb
  exact le_trans (he a ha) ht

theorem carries_fill {c : Cfg} {d buf : List Nat} {o : Nat} {t : Int} {a : Option Adj} (h1 : d.length ≤ c.nTb)
    (h2 : c.nTb ≤ buf.length) : Carries c ⟨(d ++ buf.drop d.length).take c.nTb, o, t, a⟩ d := by
  constructor
  · show d <+: (d ++ buf.drop d.length).take c.nTb
    rw [List.take_append, List.take_of_length_le h1]
    exact List.prefix_append _ _
  · show ((d ++ buf.drop d.length).take c.nTb).length = c.nTb
    simp; omega

theorem inv_step {c : Cfg} {s s' : Sys} {e : Ev} (h : Inv c s) (hs : step c s e = .ok s') : Inv c s' := by
  obtain ⟨ds, l, hg, h0, hc⟩ := h.ring0
  cases e with
  | recv conn d =>
    obtain ⟨s1, e1, h1⟩ := recv_cases (s := s) (conn := conn) (d := d) h.rings
    rw [step, e1] at hs; cases hs
    rcases h1 with rfl | ⟨l', q', hi, hcn, hd, hr, hl, hr', rfl⟩
    · exact h
    · refine { h with ring1 := ?_, ring0 := ?_, early := ?_, srv1 := ?_ }
      · by_cases h1 : conn = 1
        · subst h1; exact ⟨_, by show Ring (Function.update s.q 1 q' 1) _; rw [Function.update_self]; exact hr'⟩
        · show ∃ l, Ring (Function.update s.q conn q' 1) l
          rw [Function.update_of_ne (Ne.symm h1)]; exact h.ring1
      · by_cases h1 : conn = 0
        · subst h1
          refine ⟨ds, l' ++ [d.take maxByte], ?_, ?_, hc⟩
          · have : l = l' := by
              have a := h0.holds; have b := hr.holds
              have hlen : l.length = l'.length := by rw [← a.used_eq, ← b.used_eq]
              refine List.ext_getElem hlen fun i h1 h2 => ?_
              rw [← a.mem i h1, ← b.mem i h2, ← a.lvl i h1, ← b.lvl i h2]
            have e2 : Function.update s.got 0 (s.got 0 ++ [d.take maxByte]) 0 = ds ++ (l' ++ [d.take maxByte]) := by
              rw [Function.update_self, hg, List.append_assoc, this]
            exact e2
          · show Ring (Function.update s.q 0 q' 0) _
            rw [Function.update_self]; exact hr'
        · refine ⟨ds, l, ?_, ?_, hc⟩
          · show Function.update s.got conn _ 0 = _
            rw [Function.update_of_ne (Ne.symm h1), hg]
          · show Ring (Function.update s.q conn q' 0) _
            rw [Function.update_of_ne (Ne.symm h1)]; exact h0
      · intro hb
        obtain ⟨a1, a2, -, a4⟩ := h.early hb
        exact ⟨a1, a2, fun _ _ => Srv.noConfusion, a4⟩
      · rintro a b (hh | hh) <;> cases hh
        exact hcn
  | announce el =>
    rw [step] at hs; cases hs
    unfold announceStep
    cases hv : s.srv with
    | idle | enqueuing => exact h
    | written a b =>
      dsimp only
      refine { h with early := ?_, srv1 := ?_ }
      · intro hb
        obtain ⟨a1, a2, a3, a4⟩ := h.early hb
        refine ⟨a1, a2, fun x y => ?_, a4⟩
        show (if _ then (if s.permeable = true then _ else _) else _) ≠ _
        rw [a1]; split <;> simp
      · intro x y hh
        have := h.srv1 a b (Or.inl hv)
        dsimp only at hh
        split at hh <;> [split at hh; skip] <;> rcases hh with hh | hh <;> cases hh
        exact this
  | enqueue =>
    rw [step] at hs; cases hs
    unfold enqueueStep
    cases hv : s.srv with
    | idle | written => exact h
    | enqueuing a b =>
      dsimp only
      refine { h with early := ?_, conns := ?_, srv1 := ?_ }
      · intro hb
        obtain ⟨-, -, a3, -⟩ := h.early hb
        exact absurd hv (a3 a b)
      · intro j hj
        rcases List.mem_append.1 hj with hj | hj
        · exact h.conns j hj
        · rw [List.mem_singleton] at hj; subst hj; exact h.srv1 a b (Or.inr hv)
      · rintro x y (hh | hh) <;> cases hh
  | boot =>
    rw [step] at hs; cases hs
    unfold bootStep
    cases hv : s.boot with
    | done => exact h
    | permeable =>
      dsimp only
      exact { h with early := fun hb => absurd rfl hb, late := fun _ => rfl }
    | clear0 =>
      obtain ⟨a1, a2, a3, a4⟩ := h.early (by rw [hv]; simp)
      dsimp only
      refine { h with ring1 := ?_, ring0 := ⟨[], [], ?_, ?_, fun hf => ?_⟩, early := fun _ => ⟨a1, a2, a3, a4⟩, late := nofun }
      · show ∃ l, Ring (Function.update s.q 0 (s.q 0).clear 1) l
        rw [Function.update_of_ne (by omega)]; exact h.ring1
      · show Function.update s.got 0 [] 0 = []
        rw [Function.update_self]
      · show Ring (Function.update s.q 0 _ 0) []
        rw [Function.update_self]; exact h0.clear
      · show List.Forall₂ _ s.sent []
        rw [a4 hf]; exact .nil
    | clear1 =>
      obtain ⟨a1, a2, a3, a4⟩ := h.early (by rw [hv]; simp)
      dsimp only
      refine { h with ring1 := ?_, ring0 := ⟨ds, l, ?_, ?_, hc⟩, early := fun _ => ⟨a1, a2, a3, a4⟩, late := nofun }
      · obtain ⟨l1, hl1⟩ := h.ring1
        show ∃ l, Ring (Function.update s.q 1 (s.q 1).clear 1) l
        rw [Function.update_self]; exact ⟨_, hl1.clear⟩
      · show Function.update s.got 1 [] 0 = _
        rw [Function.update_of_ne (by omega)]; exact hg
      · show Ring (Function.update s.q 1 (s.q 1).clear 0) l
        rw [Function.update_of_ne (by omega)]; exact h0
  | work clk hp now =>
    rcases work_cases h0 hs with ⟨-, rfl⟩ | ⟨conn, n, js, hj, hh⟩
    · exact h
    · have hconns : ∀ j ∈ js, j.1 < 2 := fun j hm => h.conns j (by rw [hj]; exact List.mem_cons_of_mem _ hm)
      have hdone : s.boot = .done := by
        by_contra hb
        rw [(h.early hb).2.1] at hj; cases hj
      rcases hh with ⟨-, rfl⟩ | ⟨-, -, rfl⟩ | ⟨-, -, -, rfl⟩ | ⟨hf, -, buf, d, t, q', rfl, hb, rfl, hd, hq', rfl⟩
      · exact { h with early := fun hb => absurd hdone hb, conns := hconns }
      · obtain ⟨l1, hl1⟩ := h.ring1
        refine { h with
          ring1 := ⟨l1.tail, ?_⟩, ring0 := ⟨ds, l, hg, ?_, hc⟩, early := fun hb => absurd hdone hb, conns := hconns,
          count := rfl, least := rfl, most := rfl }
        · show Ring (Function.update s.q 1 (s.q 1).read.1 1) _
          rw [Function.update_self]; exact hl1.read_any
        · show Ring (Function.update s.q 1 (s.q 1).read.1 0) _
          rw [Function.update_of_ne (by omega)]; exact h0
      · exact { h with early := fun hb => absurd hdone hb, conns := hconns }
      · refine { h with
          ring1 := ?_, ring0 := ⟨ds ++ [d], t, ?_, ?_, fun _ => ?_⟩, early := fun hb => absurd hdone hb, conns := hconns,
          orders := orders_snoc h.orders h.order, order := ?_, apart := apart_snoc h.apart h.earliest (le_max_left _ _),
          earliest := ?_ }
        · show ∃ l, Ring (Function.update s.q 0 q' 1) l
          rw [Function.update_of_ne (by omega)]; exact h.ring1
        · rw [hg]; simp
        · show Ring (Function.update s.q 0 q' 0) _
          rw [Function.update_self]; exact hq'
        · exact List.rel_append (R := Carries c) (hc hf) (.cons (carries_fill hd hb) .nil)
        · show s.fw.order + 1 = (s.sent ++ [_]).length
          simp [h.order]
        · intro x hx
          show x.time + c.nSamples ≤ max s.fw.earliest (now + c.turnaround) + c.nSamples
          rcases List.mem_append.1 hx with hx | hx
          · have := h.earliest x hx; have := le_max_left s.fw.earliest (now + c.turnaround); omega
          · rw [List.mem_singleton] at hx; subst hx; exact le_refl _
  | pdc mem cnt crc clk hp now adj =>
    rcases pdc_cases h.stage hs with ⟨hf, hm, hcnt, rfl⟩ | ⟨hf, hm, hcnt, t, a, -, hh⟩
    · refine { h with stage := ?_, zeros := fun _ => ?_, count := ?_, least := ?_, most := ?_ }
      · have := h.stage
        show (mem.take 8 ++ le8 _ ++ s.fw.stage.drop 16).length = _
        simp only [verLen, stageLen] at *
        simp [le8_length]; omega
      · show (mem.take 8 ++ le8 _ ++ s.fw.stage.drop 16).drop 16 = _
        rw [List.drop_left' (by simp only [verLen] at hm; simp [le8_length]; omega)]
        exact h.zeros hf
      · show s.fw.rxCnt + 1 = _
        simp [h.count]
      · show min s.fw.rttMin _ = _
        simp [h.least]
      · show max s.fw.rttMax _ = _
        simp [h.most]
    · have hl : (mem.take cnt ++ s.fw.stage.drop cnt).length = stageLen := by
        have := h.stage
        simp; omega
      have hnf : ¬ c.ft = true := by simp [hf]
      rcases hh with ⟨-, rfl⟩ | ⟨buf, -, hb, htb, rfl⟩
      · exact { h with stage := hl, zeros := fun hx => absurd hx hnf }
      · refine { h with
          ring0 := ⟨ds, l, hg, h0, fun hx => absurd hx hnf⟩
          early := fun hb => ?_
          stage := hl, zeros := fun hx => absurd hx hnf
          orders := orders_snoc h.orders h.order, order := ?_, apart := apart_snoc h.apart h.earliest (le_max_left _ _),
          earliest := ?_ }
        · obtain ⟨a1, a2, a3, -⟩ := h.early hb
          exact ⟨a1, a2, a3, fun hx => absurd hx hnf⟩
        · show s.fw.order + 1 = (s.sent ++ [_]).length
          simp [h.order]
        · intro x hx
          show x.time + c.nSamples ≤ max s.fw.earliest (now + c.turnaround) + c.nSamples
          rcases List.mem_append.1 hx with hx | hx
          · have := h.earliest x hx; have := le_max_left s.fw.earliest (now + c.turnaround); omega
          · rw [List.mem_singleton] at hx; subst hx; exact le_refl _

theorem inv_run {c : Cfg} : ∀ (es : List Ev) {s s' : Sys}, Inv c s → run c s es = .ok s' → Inv c s' := by
  intro es
  induction es with
  | nil => intro s s' h e; cases e; exact h
  | cons a es ih =>
    intro s s' h e
    rw [run] at e
    obtain ⟨s1, e1, e2⟩ := Res.bind_eq_ok.1 e
    exact ih (inv_step h e1) e2

theorem run_append {c : Cfg} : ∀ (a b : List Ev) (s : Sys), run c s (a ++ b) = (run c s a).bind fun s => run c s b := by
  intro a
  induction a with
  | nil => intro b s; rfl
  | cons e a ih =>
    intro b s
    rw [List.cons_append, run, run]
    cases step c s e with
    | ok x => exact ih b x
    | abort => rfl
    | ub => rfl

/-! ## Transmission -/

/-- Whatever the schedule: the fixed device sends the datagrams that were accepted since the start, in their order, each
at most once and unchanged, one per packet; the others are still in the queue. -/
theorem C78_order (c : Cfg) (hf : c.ft = true) (junk : Nat → Nat → List Nat) (clk first : Int) (es : List Ev) (s : Sys)
    (h : run c (Sys.init junk clk first) es = .ok s) :
    ∃ ds, ds <+: s.got 0 ∧ List.Forall₂ (Carries c) s.sent ds ∧ s.sent.length + queued s = (s.got 0).length := by
  obtain ⟨ds, l, hg, h0, hc⟩ := (inv_run es (inv_init c junk clk first) h).ring0
  refine ⟨ds, ⟨l, hg.symm⟩, hc hf, ?_⟩
  rw [hg, queued, h0.used, (hc hf).length_eq, List.length_append]

/-- Both devices: packets are numbered from zero in the order of transmission, and each one begins after the end of the
one before. -/
theorem C78_times (c : Cfg) (junk : Nat → Nat → List Nat) (clk first : Int) (es : List Ev) (s : Sys)
    (h : run c (Sys.init junk clk first) es = .ok s) :
    (∀ i (h : i < s.sent.length), s.sent[i].order = i) ∧
      ∀ i (h : i + 1 < s.sent.length), s.sent[i].time + c.nSamples ≤ s.sent[i + 1].time := by
  have hi := inv_run es (inv_init c junk clk first) h
  exact ⟨hi.orders, fun i hh => List.pairwise_iff_getElem.1 hi.apart i (i + 1) (by omega) hh (by omega)⟩

/-- An event that sends a packet at receive time `now`. -/
def Ev.now : Ev → Option Int
  | .work _ _ now => some now
  | .pdc _ _ _ _ _ now _ => some now
  | _ => none

/-- One event sends at most one packet, and this one not before the time needed between reception and transmission has
passed. -/
theorem C78_not_late (c : Cfg) (junk : Nat → Nat → List Nat) (clk first : Int) (es : List Ev) (s s' : Sys) (e : Ev)
    (h : run c (Sys.init junk clk first) es = .ok s) (he : step c s e = .ok s') :
    s'.sent = s.sent ∨ ∃ t now, s'.sent = s.sent ++ [t] ∧ e.now = some now ∧ now + c.turnaround ≤ t.time := by
  have hi := inv_run es (inv_init c junk clk first) h
  obtain ⟨ds, l, hg, h0, hc⟩ := hi.ring0
  cases e with
  | recv conn d =>
    obtain ⟨s1, e1, h1⟩ := recv_cases (s := s) (conn := conn) (d := d) hi.rings
    rw [step, e1] at he; cases he
    rcases h1 with rfl | ⟨l', q', -, -, -, -, -, -, rfl⟩ <;> exact Or.inl rfl
  | announce el =>
    rw [step] at he; cases he
    unfold announceStep; cases s.srv <;> exact Or.inl rfl
  | enqueue =>
    rw [step] at he; cases he
    unfold enqueueStep; cases s.srv <;> exact Or.inl rfl
  | boot =>
    rw [step] at he; cases he
    unfold bootStep; cases s.boot <;> exact Or.inl rfl
  | work clk hp now =>
    rcases work_cases h0 he with ⟨-, rfl⟩ | ⟨conn, n, js, hj, hh⟩
    · exact Or.inl rfl
    · rcases hh with ⟨-, rfl⟩ | ⟨-, -, rfl⟩ | ⟨-, -, -, rfl⟩ | ⟨hf, -, buf, d, t, q', rfl, hb, rfl, hd, hq', rfl⟩
      · exact Or.inl rfl
      · exact Or.inl rfl
      · exact Or.inl rfl
      · exact Or.inr ⟨_, now, rfl, rfl, le_max_right _ _⟩
  | pdc mem cnt crc clk hp now adj =>
    rcases pdc_cases hi.stage he with ⟨hf, hm, hcnt, rfl⟩ | ⟨hf, hm, hcnt, t, a, -, hh⟩
    · exact Or.inl rfl
    · rcases hh with ⟨-, rfl⟩ | ⟨buf, -, hb, htb, rfl⟩
      · exact Or.inl rfl
      · exact Or.inr ⟨_, now, rfl, rfl, le_max_right _ _⟩

/-! ## Every datagram is sent -/

theorem countP_cons' (conn n : Nat) (js : List (Nat × Nat)) :
    ((conn, n) :: js).countP (fun j => decide (j.1 = 0)) = js.countP (fun j => decide (j.1 = 0)) + if conn = 0 then 1 else 0 := by
  rw [List.countP_cons]; simp

/-- The number of datagrams in the queue that nobody was told about never decreases, and increases only in the cases
below. -/
theorem lag_step {c : Cfg} (hf : c.ft = true) {s s' : Sys} {e : Ev} (h : Inv c s) (hd : s.boot = .done) (hs : step c s e = .ok s') :
    s'.boot = .done ∧ queued s + announced s' ≤ queued s' + announced s ∧
      (c.prot = 0 → Normal c e → queued s + announced s' = queued s' + announced s) := by
  obtain ⟨ds, l, hg, h0, hc⟩ := h.ring0
  cases e with
  | recv conn d =>
    obtain ⟨s1, e1, h1⟩ := recv_cases (s := s) (conn := conn) (d := d) h.rings
    rw [step, e1] at hs; cases hs
    rcases h1 with rfl | ⟨l', q', hi, hcn, hdd, hr, hl, hr', rfl⟩
    · exact ⟨hd, le_refl _, fun _ _ => rfl⟩
    · have key : queued s + announced { s with
          q := Function.update s.q conn q', srv := .written conn (d.take maxByte).length
          got := Function.update s.got conn (s.got conn ++ [d.take maxByte]) } =
          queued { s with
            q := Function.update s.q conn q', srv := .written conn (d.take maxByte).length
            got := Function.update s.got conn (s.got conn ++ [d.take maxByte]) } + announced s := by
        match conn, hcn with
        | 0, _ =>
          simp only [queued, announced, Function.update_self, hr.used, hr'.used, hi, Srv.pending, List.length_append,
            List.length_singleton]
          omega
        | 1, _ =>
          simp only [queued, announced, hi, Srv.pending]
          rw [Function.update_of_ne (by omega)]
      exact ⟨hd, le_of_eq key, fun _ _ => key⟩
  | announce el =>
    rw [step] at hs; cases hs
    have hp := h.late hd
    unfold announceStep
    cases hv : s.srv with
    | idle | enqueuing => exact ⟨hd, le_refl _, fun _ _ => rfl⟩
    | written a b =>
      dsimp only
      refine ⟨hd, ?_, fun h0 _ => ?_⟩
      · simp only [queued, announced, hv, hp, if_true]
        split
        · match a with
          | 0 => simp [Srv.pending]
          | a + 1 => simp [Srv.pending]
        · match a with
          | 0 => simp [Srv.pending]
          | a + 1 => simp [Srv.pending]
      · simp only [queued, announced, hv, hp, if_true, h0, Nat.zero_le]
        match a with
        | 0 => simp [Srv.pending]
        | a + 1 => simp [Srv.pending]
  | enqueue =>
    rw [step] at hs; cases hs
    unfold enqueueStep
    cases hv : s.srv with
    | idle | written => exact ⟨hd, le_refl _, fun _ _ => rfl⟩
    | enqueuing a b =>
      have key : queued s + announced { s with srv := .idle, jobs := s.jobs ++ [(a, b)] } =
          queued { s with srv := .idle, jobs := s.jobs ++ [(a, b)] } + announced s := by
        match a with
        | 0 => simp [queued, announced, hv, Srv.pending]
        | a + 1 => simp [queued, announced, hv, Srv.pending]
      exact ⟨hd, le_of_eq key, fun _ _ => key⟩
  | boot =>
    rw [step] at hs; cases hs
    unfold bootStep
    rw [hd]
    exact ⟨hd, le_refl _, fun _ _ => rfl⟩
  | work clk hp now =>
    rcases work_cases h0 hs with ⟨-, rfl⟩ | ⟨conn, n, js, hj, hh⟩
    · exact ⟨hd, le_refl _, fun _ _ => rfl⟩
    · have hn := h.conns (conn, n) (by rw [hj]; exact List.mem_cons_self)
      rcases hh with ⟨hx, rfl⟩ | ⟨-, h1, rfl⟩ | ⟨-, h1, hpn, rfl⟩ | ⟨-, h1, buf, d, t, q', rfl, hb, rfl, hdl, hq', rfl⟩
      · rw [hf] at hx; cases hx
      · have key : queued s + announced { s with jobs := js, fw := report s.fw, q := Function.update s.q 1 (s.q 1).read.1, since := [] } =
            queued { s with jobs := js, fw := report s.fw, q := Function.update s.q 1 (s.q 1).read.1, since := [] } + announced s := by
          simp only [queued, announced, hj, countP_cons', h1]
          rw [Function.update_of_ne (by omega)]
          simp
        exact ⟨hd, le_of_eq key, fun _ _ => key⟩
      · have h2 : conn = 0 := by dsimp only at hn; omega
        refine ⟨hd, ?_, fun _ hN => ?_⟩
        · simp only [queued, announced, hj, countP_cons', h2]
          simp
        · obtain ⟨buf, hb, -⟩ := hN
          rw [hpn] at hb; cases hb
      · have h2 : conn = 0 := by dsimp only at hn; omega
        have key : ∀ (f : Fw) (sn : List Tx), queued s + announced { s with jobs := js, fw := f, q := Function.update s.q 0 q', sent := sn } =
            queued { s with jobs := js, fw := f, q := Function.update s.q 0 q', sent := sn } + announced s := by
          intro f sn
          simp only [queued, announced, hj, countP_cons', h2, Function.update_self, hq'.used, h0.used, List.length_cons]
          simp; omega
        exact ⟨hd, le_of_eq (key _ _), fun _ _ => key _ _⟩
  | pdc mem cnt crc clk hp now adj =>
    rcases pdc_cases h.stage hs with ⟨-, hm, hcnt, rfl⟩ | ⟨hx, -⟩
    · exact ⟨hd, le_refl _, fun _ _ => rfl⟩
    · rw [hf] at hx; cases hx

/-- In a running fixed device, datagrams that are in the queue without having been announced stay there for ever: their
number never decreases, whatever happens. -/
theorem C78_lag (c : Cfg) (hf : c.ft = true) (junk : Nat → Nat → List Nat) (clk first : Int) (pre es : List Ev) (s s' : Sys)
    (h : run c (Sys.init junk clk first) pre = .ok s) (hd : s.boot = .done) (h' : run c s es = .ok s') :
    queued s + announced s' ≤ queued s' + announced s := by
  have key : ∀ (es : List Ev) (s s' : Sys), Inv c s → s.boot = .done → run c s es = .ok s' →
      queued s + announced s' ≤ queued s' + announced s := by
    intro es
    induction es with
    | nil => intro s s' _ _ e; cases e; exact le_refl _
    | cons a es ih =>
      intro s s' hi hd e
      rw [run] at e
      obtain ⟨s1, e1, e2⟩ := Res.bind_eq_ok.1 e
      obtain ⟨g1, g2, -⟩ := lag_step hf hi hd e1
      have := ih s1 s' (inv_step hi e1) g1 e2
      omega
  exact key es s s' (inv_run pre (inv_init c junk clk first) h) hd h'

/-- After a start during which nobody sends datagrams, with a HARQ process for every transmission, without access
protection: at any time the queue holds exactly the datagrams that are announced. So when no job is left and the server
has nothing to announce, every accepted datagram was sent.

Missing: starts during which datagrams arrive (`C78_start_finding`), lack of HARQ processes (`C78_harq_finding`), and a
protection time (`C78_protection_finding`). -/
theorem C78_served_partial (c : Cfg) (hf : c.ft = true) (hprot : c.prot = 0) (junk : Nat → Nat → List Nat) (clk first : Int)
    (es : List Ev) (hN : ∀ e ∈ es, Normal c e) (s : Sys) (h : run c (Sys.init junk clk first) (start ++ es) = .ok s) :
    queued s = announced s ∧ (s.jobs = [] → s.srv = .idle → List.Forall₂ (Carries c) s.sent (s.got 0)) := by
  have key : ∀ (es : List Ev) (s s' : Sys), (∀ e ∈ es, Normal c e) → Inv c s → s.boot = .done → run c s es = .ok s' →
      queued s + announced s' = queued s' + announced s := by
    intro es
    induction es with
    | nil => intro s s' _ _ _ e; cases e; rfl
    | cons a es ih =>
      intro s s' hN hi hd e
      rw [run] at e
      obtain ⟨s1, e1, e2⟩ := Res.bind_eq_ok.1 e
      obtain ⟨g1, -, g2⟩ := lag_step hf hi hd e1
      have := ih s1 s' (fun e he => hN e (List.mem_cons_of_mem _ he)) (inv_step hi e1) g1 e2
      have := g2 hprot (hN a List.mem_cons_self)
      omega
  have hq : queued s = announced s := by
    have h' := h
    rw [run_append] at h'
    have hb : ∃ b, run c (Sys.init junk clk first) start = .ok b ∧ b.boot = .done ∧ queued b = 0 ∧ announced b = 0 := by
      refine ⟨_, rfl, rfl, ?_, rfl⟩
      rfl
    obtain ⟨b, e1, e2, e3, e4⟩ := hb
    rw [e1] at h'
    have := key es b s hN (inv_run start (inv_init c junk clk first) e1) e2 h'
    omega
  refine ⟨hq, fun hj hv => ?_⟩
  have h0 : announced s = 0 := by rw [announced, hj, hv]; rfl
  obtain ⟨ds, l, hg, hr, hc⟩ := (inv_run _ (inv_init c junk clk first) h).ring0
  have hl : l = [] := by
    have := hr.used
    rw [queued, this] at hq
    exact List.eq_nil_of_length_eq_zero (by omega)
  rw [hg, hl, List.append_nil]
  exact hc hf

/-- One event under normal conditions. -/
theorem step_total {c : Cfg} (htb : c.nTb ≤ stageLen) {s : Sys} {e : Ev} (h : Inv c s)
    (hq : c.ft = true → announced s ≤ queued s) (hsz : ∀ d ∈ s.got 0, d.length ≤ c.nTb) (hN : Normal c e) :
    ∃ s', step c s e = .ok s' ∧ ∀ d ∈ s'.got 0, d.length ≤ c.nTb := by
  obtain ⟨ds, l, hg, h0, hc⟩ := h.ring0
  cases e with
  | recv conn d =>
    obtain ⟨s1, e1, h1⟩ := recv_cases (s := s) (conn := conn) (d := d) h.rings
    refine ⟨s1, e1, ?_⟩
    rcases h1 with rfl | ⟨l', q', hi, hcn, hdd, hr, hl, hr', rfl⟩
    · exact hsz
    · intro x hx
      by_cases h1 : conn = 0
      · subst h1
        have e2 : Function.update s.got 0 (s.got 0 ++ [d.take maxByte]) 0 = s.got 0 ++ [d.take maxByte] := Function.update_self ..
        have hx' : x ∈ s.got 0 ++ [d.take maxByte] := by rw [← e2]; exact hx
        rcases List.mem_append.1 hx' with hx' | hx'
        · exact hsz x hx'
        · rw [List.mem_singleton] at hx'; subst hx'
          exact le_trans (by simp) (hN rfl)
      · have e2 : Function.update s.got conn (s.got conn ++ [d.take maxByte]) 0 = s.got 0 := Function.update_of_ne (Ne.symm h1) ..
        have hx' : x ∈ s.got 0 := by rw [← e2]; exact hx
        exact hsz x hx'
  | announce el =>
    refine ⟨_, rfl, ?_⟩
    unfold announceStep; cases s.srv <;> exact hsz
  | enqueue =>
    refine ⟨_, rfl, ?_⟩
    unfold enqueueStep; cases s.srv <;> exact hsz
  | boot =>
    refine ⟨_, rfl, ?_⟩
    unfold bootStep
    cases s.boot with
    | clear0 => intro x hx; dsimp only at hx; rw [Function.update_self] at hx; cases hx
    | clear1 => intro x hx; dsimp only at hx; rw [Function.update_of_ne (by omega)] at hx; exact hsz x hx
    | permeable | done => exact hsz
  | work clk hp now =>
    obtain ⟨buf, rfl, hb⟩ := hN
    show ∃ s', workStep c s clk (some buf) now = .ok s' ∧ _
    unfold workStep
    cases hj : s.jobs with
    | nil => exact ⟨s, rfl, hsz⟩
    | cons j js =>
      obtain ⟨conn, n⟩ := j
      dsimp only
      cases hf : c.ft with
      | false =>
        have : workApplication c s.fw s.q conn clk (some buf) now = .ok (s.fw, s.q, none) := by
          simp [workApplication, hf]
        rw [this, Res.ok_bind]
        exact ⟨_, rfl, hsz⟩
      | true =>
        by_cases h1 : conn = 1
        · have : workApplication c s.fw s.q conn clk (some buf) now =
              .ok (report s.fw, Function.update s.q 1 (s.q 1).read.1, none) := by
            simp [workApplication, hf, h1]
          rw [this, Res.ok_bind]
          exact ⟨_, rfl, hsz⟩
        · have hn := h.conns (conn, n) (by rw [hj]; exact List.mem_cons_self)
          have h2 : conn = 0 := by dsimp only at hn; omega
          have hq' := hq hf
          simp only [queued, announced, hj, countP_cons', h2, h0.used, if_true] at hq'
          match l, h0, hg with
          | [], _, _ => simp at hq'
          | d :: t, h0, hg =>
            have hd : d.length ≤ c.nTb := hsz d (by rw [hg]; simp)
            have hfl : fill c s.fw.stage (s.q 0) buf = .ok ((s.q 0).read.1, d ++ buf.drop d.length) := fill_ft_ok hf h0 hd hb
            have hgen := generate_ok (f := { s.fw with watch := clk }) (now := now) (adj := none) hb hfl
            simp only [workApplication, hf, Bool.not_true, Bool.false_eq_true, if_false, h1]
            rw [hgen, Res.ok_bind, Res.pure_eq, Res.ok_bind]
            exact ⟨_, rfl, hsz⟩
  | pdc mem cnt crc clk hp now adj =>
    obtain ⟨hm, hc1, hc2, buf, rfl, hb⟩ := hN
    show ∃ s', pdcStep c s mem cnt clk (some buf) now adj = .ok s' ∧ _
    unfold pdcStep
    cases hf : c.ft with
    | true =>
      rw [pdc_ft hf h.stage hm hc2, Res.ok_bind]
      exact ⟨_, rfl, hsz⟩
    | false =>
      have hl : (mem.take cnt ++ s.fw.stage.drop cnt).length = stageLen := by
        have := h.stage
        simp; omega
      have hfl := fill_pt_ok (c := c) hf (stage := mem.take cnt ++ s.fw.stage.drop cnt) (q := s.q 0) (buf := buf) (by omega) hb
      have ha : ∃ x, answer c { s.fw with stage := mem.take cnt ++ s.fw.stage.drop cnt } (s.q 0) (some buf) now adj = .ok x := by
        unfold answer
        split
        · exact ⟨_, generate_ok hb hfl⟩
        · exact ⟨_, generate_ok hb hfl⟩
      obtain ⟨⟨f1, q1, t1⟩, ha⟩ := ha
      rw [pdc_pt hf hc1 (by rw [h.stage]; exact hc2) ha, Res.ok_bind]
      exact ⟨_, rfl, hsz⟩

/-- Under the conditions of `C78_served_partial` no schedule makes either device abort or access memory outside of its
buffers. Missing: datagrams for transmission that are larger than a packet (`C78_oversize_finding`), datagrams during the
start (`C78_race_finding`), and received packets larger than the buffer (`C78_overflow_finding`). -/
theorem C78_no_abort_partial (c : Cfg) (hprot : c.prot = 0) (htb : c.nTb ≤ stageLen) (junk : Nat → Nat → List Nat) (clk first : Int)
    (es : List Ev) (hN : ∀ e ∈ es, Normal c e) : ∃ s, run c (Sys.init junk clk first) (start ++ es) = .ok s := by
  have key : ∀ (es : List Ev) (s : Sys), (∀ e ∈ es, Normal c e) → Inv c s → s.boot = .done →
      (c.ft = true → queued s = announced s) → (∀ d ∈ s.got 0, d.length ≤ c.nTb) → ∃ s', run c s es = .ok s' := by
    intro es
    induction es with
    | nil => intro s _ _ _ _ _; exact ⟨s, rfl⟩
    | cons a es ih =>
      intro s hN hi hd hq hsz
      obtain ⟨s1, e1, hsz1⟩ := step_total htb hi (fun hf => le_of_eq (hq hf).symm) hsz (hN a List.mem_cons_self)
      have hb1 : s1.boot = .done := by
        cases hf : c.ft with
        | true => exact (lag_step hf hi hd e1).1
        | false =>
          obtain ⟨ds, l, hg, h0, hc⟩ := hi.ring0
          cases a with
          | recv conn d =>
            obtain ⟨s2, e2, h1⟩ := recv_cases (s := s) (conn := conn) (d := d) hi.rings
            rw [step, e2] at e1; cases e1
            rcases h1 with rfl | ⟨l', q', -, -, -, -, -, -, rfl⟩ <;> exact hd
          | announce el => rw [step] at e1; cases e1; unfold announceStep; cases s.srv <;> exact hd
          | enqueue => rw [step] at e1; cases e1; unfold enqueueStep; cases s.srv <;> exact hd
          | boot => rw [step] at e1; cases e1; unfold bootStep; rw [hd]; exact hd
          | work clk hp now =>
            rcases work_cases h0 e1 with ⟨-, rfl⟩ | ⟨conn, n, js, hj, hh⟩
            · exact hd
            · rcases hh with ⟨-, rfl⟩ | ⟨-, -, rfl⟩ | ⟨-, -, -, rfl⟩ | ⟨hx, -⟩
              · exact hd
              · exact hd
              · exact hd
              · rw [hf] at hx; cases hx
          | pdc mem cnt crc clk hp now adj =>
            rcases pdc_cases hi.stage e1 with ⟨hx, -⟩ | ⟨-, hm, hcnt, t, a, -, hh⟩
            · rw [hf] at hx; cases hx
            · rcases hh with ⟨-, rfl⟩ | ⟨buf, -, hb, htb, rfl⟩ <;> exact hd
      obtain ⟨s', e2⟩ := ih s1 (fun e he => hN e (List.mem_cons_of_mem _ he)) (inv_step hi e1) hb1 (fun hf => by
        have := (lag_step hf hi hd e1).2.2 hprot (hN a List.mem_cons_self)
        have := hq hf
        omega) hsz1
      exact ⟨s', by rw [run, e1, Res.ok_bind, e2]⟩
  have hb : ∃ b, run c (Sys.init junk clk first) start = .ok b ∧ b.boot = .done ∧ queued b = announced b ∧ b.got 0 = [] :=
    ⟨_, rfl, rfl, rfl, rfl⟩
  obtain ⟨b, e1, e2, e3, e4⟩ := hb
  obtain ⟨s, e5⟩ := key es b hN (inv_run start (inv_init c junk clk first) e1) e2 (fun _ => e3) (by rw [e4]; simp)
  exact ⟨s, by rw [run_append, e1]; exact e5⟩

/-! ## The answer -/

theorem value_range (k : Nat) : ∀ n, value ((List.range n).map fun i => k / 256 ^ i % 256) = k % 256 ^ n := by
  have gen : ∀ n j, value ((List.range n).map fun i => k / 256 ^ (i + j) % 256) = k / 256 ^ j % 256 ^ n := by
    intro n
    induction n with
    | zero => intro j; simp [value, Nat.mod_one]
    | succ n ih =>
      intro j
      rw [List.range_succ_eq_map, List.map_cons, List.map_map, value]
      have : ((fun i => k / 256 ^ (i + j) % 256) ∘ Nat.succ) = fun i => k / 256 ^ (i + (j + 1)) % 256 := by
        funext i; simp [Nat.succ_eq_add_one, Nat.add_comm, Nat.add_left_comm]
      rw [this, ih (j + 1), Nat.zero_add, Nat.pow_succ, ← Nat.div_div_eq_div_mul, Nat.pow_succ, Nat.mul_comm (256 ^ n) 256,
        Nat.mod_mul]
  intro n
  have := gen n 0
  simpa using this

/-- The eight bytes are the number, least significant byte first. -/
theorem le8_value {x : Int} (h0 : 0 ≤ x) (h1 : x < 9223372036854775808) : (value (le8 x) : Int) = x := by
  have := value_range (x % 18446744073709551616).toNat 8
  rw [le8, this]
  have hx : x % 18446744073709551616 = x := Int.emod_eq_of_lt h0 (by omega)
  rw [hx]
  norm_num
  omega

/-- Every packet received by the fixed device is answered with a datagram of the size of the packet: the first eight bytes
of the packet, the time since the last transmission began in eight bytes, and zeros. Nothing is transmitted. -/
theorem C78_reply (c : Cfg) (hf : c.ft = true) (junk : Nat → Nat → List Nat) (clk0 first : Int) (es : List Ev) (s s' : Sys)
    (mem : List Nat) (cnt : Nat) (crc : Bool) (clk : Int) (hp : Option (List Nat)) (now : Int) (adj : Adj)
    (h : run c (Sys.init junk clk0 first) es = .ok s) (he : step c s (.pdc mem cnt crc clk hp now adj) = .ok s') :
    s'.sent = s.sent ∧ s'.replies = s.replies ++ [(mem.take 8 ++ le8 (clk - s.fw.watch) ++ List.replicate 1984 0).take cnt] ∧
      8 ≤ mem.length ∧ cnt ≤ 2000 := by
  have hi := inv_run es (inv_init c junk clk0 first) h
  rcases pdc_cases hi.stage he with ⟨-, hm, hcnt, rfl⟩ | ⟨hx, -⟩
  · refine ⟨rfl, ?_, hm, hcnt⟩
    rw [← hi.zeros hf]
  · rw [hf] at hx; cases hx

/-- A round trip: the fixed device sends a datagram, the portable device receives the packet and answers, the fixed device
receives the answer. If the datagram has at least eight bytes, the program gets its first eight bytes back, followed by
the time between both calls of the fixed device. The states of both devices before are arbitrary reachable ones, with the
datagram at the head of the queue and announced. -/
theorem C78_round_trip (c p : Cfg) (hc : c.ft = true) (hp : p.ft = false) (htb : p.nTb = c.nTb) (h16 : 16 ≤ c.nTb)
    (h2000 : c.nTb ≤ 2000) (junkF junkP : Nat → Nat → List Nat) (kF fF kP fP : Int) (esF esP : List Ev) (sF sP : Sys)
    (hF : run c (Sys.init junkF kF fF) esF = .ok sF) (hP : run p (Sys.init junkP kP fP) esP = .ok sP)
    (d : List Nat) (ds : List (List Nat)) (n : Nat) (js : List (Nat × Nat)) (hq : Holds (sF.q 0) (d :: ds)) (hj : sF.jobs = (0, n) :: js)
    (h8 : 8 ≤ d.length) (hd : d.length ≤ c.nTb) (buf1 buf2 m1 m2 : List Nat) (hb1 : c.nTb ≤ buf1.length) (hb2 : c.nTb ≤ buf2.length)
    (clk1 clk2 clkP now1 nowP now2 : Int) (crcP crcF : Bool) (adjP adjF : Adj) (hpF : Option (List Nat)) :
    ∃ s1 t1 p1 t2 s2, step c sF (.work clk1 (some buf1) now1) = .ok s1 ∧ s1.sent = sF.sent ++ [t1] ∧
      step p sP (.pdc (t1.tb ++ m1) t1.tb.length crcP clkP (some buf2) nowP adjP) = .ok p1 ∧ p1.sent = sP.sent ++ [t2] ∧
      step c s1 (.pdc (t2.tb ++ m2) t2.tb.length crcF clk2 hpF now2 adjF) = .ok s2 ∧
      s2.replies = s1.replies ++ [d.take 8 ++ le8 (clk2 - clk1) ++ List.replicate (c.nTb - 16) 0] := by
  have iF := inv_run esF (inv_init c junkF kF fF) hF
  have iP := inv_run esP (inv_init p junkP kP fP) hP
  obtain ⟨ds', l, hg, h0, -⟩ := iF.ring0
  have hr : Ring (sF.q 0) (d :: ds) := ⟨hq, h0.n, h0.max⟩
  have hfl : fill c sF.fw.stage (sF.q 0) buf1 = .ok ((sF.q 0).read.1, d ++ buf1.drop d.length) := fill_ft_ok hc hr hd hb1
  have hgen := generate_ok (f := { sF.fw with watch := clk1 }) (now := now1) (adj := none) hb1 hfl
  have e1 : ∃ s1, step c sF (.work clk1 (some buf1) now1) = .ok s1 ∧ s1.sent = sF.sent ++
      [⟨(d ++ buf1.drop d.length).take c.nTb, sF.fw.order, max sF.fw.earliest (now1 + c.turnaround), none⟩] ∧ s1.fw.watch = clk1 := by
    simp only [step, workStep, hj, workApplication, hc, Bool.not_true, Bool.false_eq_true, if_false, zero_ne_one]
    rw [hgen, Res.ok_bind, Res.pure_eq, Res.ok_bind]
    exact ⟨_, rfl, rfl, rfl⟩
  obtain ⟨s1, e1, e2, e3⟩ := e1
  have lt1 : ((d ++ buf1.drop d.length).take c.nTb).length = c.nTb := by simp; omega
  have d8 : ((d ++ buf1.drop d.length).take c.nTb).take 8 = d.take 8 := by
    rw [List.take_take, Nat.min_eq_left (by omega), List.take_append_of_le_length h8]
  generalize (d ++ buf1.drop d.length).take c.nTb = tb at lt1 d8 e2
  have hst := iP.stage
  have e4 : ∃ p1 o tm a, step p sP (.pdc (tb ++ m1) tb.length crcP clkP (some buf2) nowP adjP) = .ok p1 ∧ p1.sent = sP.sent ++
      [⟨tb, o, tm, a⟩] := by
    have ht : (tb ++ m1).take tb.length = tb := by simp
    have hfl := fill_pt_ok (c := p) hp (stage := tb ++ sP.fw.stage.drop tb.length) (q := sP.q 0) (buf := buf2)
      (by simp only [stageLen] at hst; simp; omega) (by omega)
    have hx : ((tb ++ sP.fw.stage.drop tb.length).take p.nTb ++ buf2.drop p.nTb).take p.nTb = tb := by
      rw [htb, ← lt1]; simp
    have ha : ∃ f q t a, answer p { sP.fw with stage := (tb ++ m1).take tb.length ++ sP.fw.stage.drop tb.length } (sP.q 0) (some buf2) nowP adjP =
        .ok (f, q, some ⟨tb, sP.fw.order, t, a⟩) := by
      rw [ht]
      unfold answer
      split
      · have := generate_ok (f := { sP.fw with stage := tb ++ sP.fw.stage.drop tb.length, tAgc := nowP }) (now := nowP) (adj := some adjP)
          (by omega : p.nTb ≤ buf2.length) hfl
        rw [hx] at this
        exact ⟨_, _, _, _, this⟩
      · have := generate_ok (f := { sP.fw with stage := tb ++ sP.fw.stage.drop tb.length }) (now := nowP) (adj := none)
          (by omega : p.nTb ≤ buf2.length) hfl
        rw [hx] at this
        exact ⟨_, _, _, _, this⟩
    obtain ⟨f, q, t, a, ha⟩ := ha
    have hpd := pdc_pt (clk := clkP) hp (by simp) (by rw [hst]; simp only [stageLen]; omega) ha
    refine ⟨{ sP with fw := f, q := Function.update sP.q 0 q, sent := sP.sent ++ [⟨tb, sP.fw.order, t, a⟩], replies := sP.replies ++ [] },
      sP.fw.order, t, a, ?_, rfl⟩
    simp only [step, pdcStep, hpd, Res.ok_bind, Res.pure_eq, hp]
    simp
  obtain ⟨p1, o, tm, a, e4, e5⟩ := e4
  have i1 := inv_step iF e1
  have e6 : ∃ s2, step c s1 (.pdc (tb ++ m2) tb.length crcF clk2 hpF now2 adjF) = .ok s2 := by
    have := pdc_ft (c := c) hc (f := s1.fw) (q := s1.q 0) (mem := tb ++ m2) (cnt := tb.length) (clk := clk2) (hp := hpF) (now := now2)
      (adj := adjF) i1.stage (by simp [verLen]; omega) (by simp only [stageLen]; omega)
    simp only [step, pdcStep, this, Res.ok_bind, Res.pure_eq]
    exact ⟨_, rfl⟩
  obtain ⟨s2, e6⟩ := e6
  have hrun : run c (Sys.init junkF kF fF) (esF ++ [.work clk1 (some buf1) now1]) = .ok s1 := by
    rw [run_append, hF]
    show run c sF [_] = _
    rw [run, e1]; rfl
  obtain ⟨-, e7, -, -⟩ := C78_reply c hc junkF kF fF _ s1 s2 _ _ crcF clk2 hpF now2 adjF hrun e6
  refine ⟨s1, _, p1, ⟨tb, o, tm, a⟩, s2, e1, e2, e4, e5, e6, ?_⟩
  rw [e7, e3]
  congr 2
  have hh : (tb ++ m2).take 8 = d.take 8 := by
    rw [List.take_append_of_le_length (by omega), d8]
  rw [hh, List.take_append, List.take_of_length_le (by simp [le8_length]; omega)]
  congr 1
  have l16 : (d.take 8 ++ le8 (clk2 - clk1)).length = 16 := by simp [le8_length]; omega
  rw [l16, lt1, List.take_replicate, Nat.min_eq_left (by omega)]

/-- The numbers of a report: the number of packets received since the last report, and the least and greatest time
measured since then, each of which was measured. -/
theorem C78_stats (c : Cfg) (junk : Nat → Nat → List Nat) (clk first : Int) (es : List Ev) (s : Sys)
    (h : run c (Sys.init junk clk first) es = .ok s) :
    s.fw.rxCnt = s.since.length ∧ (∀ x ∈ s.since, s.fw.rttMin ≤ x ∧ x ≤ s.fw.rttMax) ∧
      (s.since ≠ [] → (∀ x ∈ s.since, undefinedEarly < x ∧ x < -undefinedEarly) → s.fw.rttMin ∈ s.since ∧ s.fw.rttMax ∈ s.since) := by
  have hi := inv_run es (inv_init c junk clk first) h
  have m1 : ∀ (l : List Int) (a : Int), l.foldl min a ≤ a ∧ (∀ x ∈ l, l.foldl min a ≤ x) ∧ (l.foldl min a = a ∨ l.foldl min a ∈ l) := by
    intro l
    induction l with
    | nil => intro a; simp
    | cons b l ih =>
      intro a
      obtain ⟨i1, i2, i3⟩ := ih (min a b)
      simp only [List.foldl_cons]
      refine ⟨by omega, ?_, ?_⟩
      · intro x hx
        rcases List.mem_cons.1 hx with rfl | hx
        · omega
        · exact i2 x hx
      · rcases i3 with i3 | i3
        · rcases min_cases a b with ⟨hm, -⟩ | ⟨hm, -⟩
          · left; rw [i3, hm]
          · right; rw [i3, hm]; exact List.mem_cons_self
        · right; exact List.mem_cons_of_mem _ i3
  have m2 : ∀ (l : List Int) (a : Int), a ≤ l.foldl max a ∧ (∀ x ∈ l, x ≤ l.foldl max a) ∧ (l.foldl max a = a ∨ l.foldl max a ∈ l) := by
    intro l
    induction l with
    | nil => intro a; simp
    | cons b l ih =>
      intro a
      obtain ⟨i1, i2, i3⟩ := ih (max a b)
      simp only [List.foldl_cons]
      refine ⟨by omega, ?_, ?_⟩
      · intro x hx
        rcases List.mem_cons.1 hx with rfl | hx
        · omega
        · exact i2 x hx
      · rcases i3 with i3 | i3
        · rcases max_cases a b with ⟨hm, -⟩ | ⟨hm, -⟩
          · left; rw [i3, hm]
          · right; rw [i3, hm]; exact List.mem_cons_self
        · right; exact List.mem_cons_of_mem _ i3
  obtain ⟨-, a2, a3⟩ := m1 s.since (-undefinedEarly)
  obtain ⟨-, b2, b3⟩ := m2 s.since undefinedEarly
  rw [← hi.least] at a2 a3
  rw [← hi.most] at b2 b3
  refine ⟨hi.count, fun x hx => ⟨a2 x hx, b2 x hx⟩, fun hne hx => ?_⟩
  obtain ⟨x, hxm⟩ := List.exists_mem_of_ne_nil _ hne
  have h1 := hx x hxm
  have h2 := a2 x hxm
  have h3 := b2 x hxm
  constructor
  · rcases a3 with a3 | a3
    · omega
    · exact a3
  · rcases b3 with b3 | b3
    · omega
    · exact b3

/-! ## Gain control and identities -/

theorem agc_step {c : Cfg} (hpause : 0 ≤ c.agcPause) {s s' : Sys} {e : Ev} (h : Inv c s) (hs : step c s e = .ok s') :
    s.fw.tAgc ≤ s'.fw.tAgc ∧ (s'.fw.tAgc = s.fw.tAgc ∨ s.fw.tAgc + c.agcPause ≤ s'.fw.tAgc) ∧
      ∀ t ∈ s'.sent, t.adj ≠ none → t ∈ s.sent ∨ (e.now = some s'.fw.tAgc ∧ s.fw.tAgc + c.agcPause ≤ s'.fw.tAgc) := by
  obtain ⟨ds, l, hg, h0, hc⟩ := h.ring0
  cases e with
  | recv conn d =>
    obtain ⟨s1, e1, h1⟩ := recv_cases (s := s) (conn := conn) (d := d) h.rings
    rw [step, e1] at hs; cases hs
    rcases h1 with rfl | ⟨l', q', -, -, -, -, -, -, rfl⟩ <;> exact ⟨le_refl _, Or.inl rfl, fun t ht _ => Or.inl ht⟩
  | announce el =>
    rw [step] at hs; cases hs; unfold announceStep
    cases s.srv <;> exact ⟨le_refl _, Or.inl rfl, fun t ht _ => Or.inl ht⟩
  | enqueue =>
    rw [step] at hs; cases hs; unfold enqueueStep
    cases s.srv <;> exact ⟨le_refl _, Or.inl rfl, fun t ht _ => Or.inl ht⟩
  | boot =>
    rw [step] at hs; cases hs; unfold bootStep
    cases s.boot <;> exact ⟨le_refl _, Or.inl rfl, fun t ht _ => Or.inl ht⟩
  | work clk hp now =>
    rcases work_cases h0 hs with ⟨-, rfl⟩ | ⟨conn, n, js, hj, hh⟩
    · exact ⟨le_refl _, Or.inl rfl, fun t ht _ => Or.inl ht⟩
    · rcases hh with ⟨-, rfl⟩ | ⟨-, -, rfl⟩ | ⟨-, -, -, rfl⟩ | ⟨-, -, buf, d, t, q', -, -, -, -, -, rfl⟩
      · exact ⟨le_refl _, Or.inl rfl, fun t ht _ => Or.inl ht⟩
      · exact ⟨le_refl _, Or.inl rfl, fun t ht _ => Or.inl ht⟩
      · exact ⟨le_refl _, Or.inl rfl, fun t ht _ => Or.inl ht⟩
      · refine ⟨le_refl _, Or.inl rfl, fun t ht ha => ?_⟩
        rcases List.mem_append.1 ht with ht | ht
        · exact Or.inl ht
        · rw [List.mem_singleton] at ht; subst ht; exact absurd rfl ha
  | pdc mem cnt crc clk hp now adj =>
    rcases pdc_cases h.stage hs with ⟨-, -, -, rfl⟩ | ⟨-, -, -, t, a, ha, hh⟩
    · exact ⟨le_refl _, Or.inl rfl, fun t ht _ => Or.inl ht⟩
    · rcases ha with ⟨ha, rfl, rfl⟩ | ⟨ha, rfl, rfl⟩
      · rcases hh with ⟨-, rfl⟩ | ⟨buf, rfl, -, -, rfl⟩
        · exact ⟨by dsimp only; omega, Or.inr ha, fun x hx _ => Or.inl hx⟩
        · refine ⟨by dsimp only; omega, Or.inr ha, fun x hx _ => ?_⟩
          rcases List.mem_append.1 hx with hx | hx
          · exact Or.inl hx
          · exact Or.inr ⟨rfl, ha⟩
      · rcases hh with ⟨-, rfl⟩ | ⟨buf, -, -, -, rfl⟩
        · exact ⟨le_refl _, Or.inl rfl, fun x hx _ => Or.inl hx⟩
        · refine ⟨le_refl _, Or.inl rfl, fun x hx hax => ?_⟩
          rcases List.mem_append.1 hx with hx | hx
          · exact Or.inl hx
          · rw [List.mem_singleton] at hx; subst hx; exact absurd rfl hax

/-- Gains are changed with packets only, and two changes are at least the pause apart in receive time, whatever happens
between them. The fixed device never changes gains. -/
theorem C78_agc (c : Cfg) (hpause : 0 < c.agcPause) (junk : Nat → Nat → List Nat) (clk first : Int) (pre es : List Ev) (e1 e2 : Ev)
    (s s1 s2 s3 : Sys) (h : run c (Sys.init junk clk first) pre = .ok s) (h1 : step c s e1 = .ok s1) (h2 : run c s1 es = .ok s2)
    (h3 : step c s2 e2 = .ok s3) (t1 t2 : Tx) (ht1 : s1.sent = s.sent ++ [t1]) (ht2 : s3.sent = s2.sent ++ [t2])
    (a1 : t1.adj ≠ none) (a2 : t2.adj ≠ none) :
    c.ft = false ∧ ∃ n1 n2, e1.now = some n1 ∧ e2.now = some n2 ∧ n1 + c.agcPause ≤ n2 := by
  have hi := inv_run pre (inv_init c junk clk first) h
  have hi1 := inv_step hi h1
  have hi2 := inv_run es hi1 h2
  have last : ∀ {s s' : Sys} {e : Ev} {t : Tx}, Inv c s → step c s e = .ok s' → s'.sent = s.sent ++ [t] → t.adj ≠ none →
      c.ft = false ∧ e.now = some s'.fw.tAgc ∧ s.fw.tAgc + c.agcPause ≤ s'.fw.tAgc := by
    intro s s' e t hi hs ht ha
    have ho := hi.orders
    have hlen : s.sent.length = s.fw.order := by rw [hi.order]
    have hi' := inv_step hi hs
    have hlast : t.order = s.sent.length := by
      have := hi'.orders s.sent.length (by rw [ht]; simp)
      simpa [ht] using this
    have hnew : t ∉ s.sent := by
      intro hm
      obtain ⟨i, hi', he⟩ := List.getElem_of_mem hm
      have := ho i hi'
      rw [he] at this; omega
    have hag := agc_step hpause.le hi hs
    rcases hag.2.2 t (by rw [ht]; simp) ha with h | h
    · exact absurd h hnew
    · refine ⟨?_, h⟩
      cases hf : c.ft with
      | false => rfl
      | true =>
        exfalso
        have ht' : s.fw.tAgc ≠ s'.fw.tAgc := by have := h.2; omega
        obtain ⟨ds, l, hg, h0, hc⟩ := hi.ring0
        cases e with
        | recv conn d => cases h.1
        | announce el => cases h.1
        | enqueue => cases h.1
        | boot => cases h.1
        | work clk hp now =>
          rcases work_cases h0 hs with ⟨-, rfl⟩ | ⟨conn, n, js, hj, hh⟩
          · exact ht' rfl
          · rcases hh with ⟨-, rfl⟩ | ⟨-, -, rfl⟩ | ⟨-, -, -, rfl⟩ | ⟨-, -, buf, d, t, q', -, -, -, -, -, rfl⟩ <;> exact ht' rfl
        | pdc mem cnt crc clk hp now adj =>
          rcases pdc_cases hi.stage hs with ⟨-, -, -, rfl⟩ | ⟨hx, -⟩
          · exact ht' rfl
          · rw [hf] at hx; cases hx
  have mono : ∀ (es : List Ev) (s s' : Sys), Inv c s → run c s es = .ok s' → s.fw.tAgc ≤ s'.fw.tAgc := by
    intro es
    induction es with
    | nil => intro s s' _ e; cases e; exact le_refl _
    | cons a es ih =>
      intro s s' hi e
      rw [run] at e
      obtain ⟨s1, e1, e2⟩ := Res.bind_eq_ok.1 e
      exact le_trans (agc_step hpause.le hi e1).1 (ih s1 s' (inv_step hi e1) e2)
  obtain ⟨hf, l1, -⟩ := last hi h1 ht1 a1
  obtain ⟨-, l2, l3⟩ := last hi2 h3 ht2 a2
  have := mono es s1 s2 hi1 h2
  exact ⟨hf, _, _, l1, l2, by omega⟩

/-- Each device receives the packets of the other one and of no one else, in particular not its own. -/
theorem C78_pcc (c o : Cfg) (ho : o.ft = !c.ft) :
    ∃ own other, ownPlcf c = .ok own ∧ ownPlcf o = .ok other ∧ workPcc c (some own) = .ok false ∧ workPcc c none = .ok false ∧
      ∀ p, workPcc c (some p) = .ok true ↔ p = other := by
  have hid : identities = .ok (⟨100, 100, 444, 555⟩, ⟨100, 100, 445, 556⟩) := by decide
  have e : ∀ p q r : Nat, (⟨p, q, r⟩ : Plcf) = ⟨p, q, r⟩ := fun _ _ _ => rfl
  cases hc : c.ft with
  | true =>
    refine ⟨⟨0, 100, 555⟩, ⟨0, 100, 556⟩, ?_, ?_, ?_, ?_, ?_⟩
    · simp [ownPlcf, hid, hc]
    · simp [ownPlcf, hid, ho, hc]
    · simp [workPcc, hid, hc]
    · simp [workPcc, hid]
    · rintro ⟨a, b, d⟩
      simp only [workPcc, hid, Res.ok_bind, hc, if_true]
      by_cases h1 : a = 0 <;> by_cases h2 : b = 100 <;> simp [h1, h2]
  | false =>
    refine ⟨⟨0, 100, 556⟩, ⟨0, 100, 555⟩, ?_, ?_, ?_, ?_, ?_⟩
    · simp [ownPlcf, hid, hc]
    · simp [ownPlcf, hid, ho, hc]
    · simp [workPcc, hid, hc]
    · simp [workPcc, hid]
    · rintro ⟨a, b, d⟩
      simp only [workPcc, hid, Res.ok_bind, hc, Bool.false_eq_true, if_false]
      by_cases h1 : a = 0 <;> by_cases h2 : b = 100 <;> simp [h1, h2]

/-! ## Findings -/

/-- A datagram is received, announced, and the job is processed. -/
def serve (clk now : Int) (buf d : List Nat) : List Ev := [.recv 0 d, .announce 0, .enqueue, .work clk (some buf) now]

theorem serve_run {c : Cfg} (hf : c.ft = true) (hprot : c.prot = 0) {s : Sys} {l : List (List Nat)} (h0 : Ring (s.q 0) l)
    (hl : l.length < 3) (hsrv : s.srv = .idle) (hp : s.permeable = true) (hj : s.jobs = []) {d x : List Nat} {r : List (List Nat)}
    (hd0 : d ≠ []) (hd : d.length ≤ 1600) (hx : l ++ [d] = x :: r) (hxl : x.length ≤ c.nTb) {buf : List Nat} (hb : c.nTb ≤ buf.length)
    (clk now : Int) :
    ∃ s' t, run c s (serve clk now buf d) = .ok s' ∧ Ring (s'.q 0) r ∧ s'.srv = .idle ∧ s'.permeable = true ∧ s'.jobs = [] ∧
      s'.sent = s.sent ++ [t] ∧ Carries c t x ∧ s'.got 0 = s.got 0 ++ [d] := by
  obtain ⟨q1, e1, h1⟩ := h0.write hd hl
  rw [hx] at h1
  have hpos := List.length_pos_iff.2 hd0
  have ht : d.take maxByte = d := List.take_of_length_le hd
  have hfl : fill c s.fw.stage q1 buf = .ok (q1.read.1, x ++ buf.drop x.length) := fill_ft_ok hf h1 hxl hb
  have hgen := generate_ok (f := { s.fw with watch := clk }) (now := now) (adj := none) hb hfl
  refine ⟨{ s with
    fw := { s.fw with
      order := s.fw.order + 1
      earliest := max s.fw.earliest (now + c.turnaround) + c.nSamples
      watch := clk
      txCnt := s.fw.txCnt + 1 }
    q := Function.update (Function.update s.q 0 q1) 0 q1.read.1
    sent := s.sent ++ [⟨(x ++ buf.drop x.length).take c.nTb, s.fw.order, max s.fw.earliest (now + c.turnaround), none⟩]
    got := Function.update s.got 0 (s.got 0 ++ [d])
    srv := .idle
    jobs := [] }, _, ?_, ?_, rfl, hp, rfl, rfl, carries_fill hxl hb, ?_⟩
  · simp [serve, run, step, recvStep, hsrv, ht, hpos, e1, announceStep, hprot, hp, enqueueStep, hj, workStep, workApplication, hf, hgen]
  · show Ring (Function.update (Function.update s.q 0 q1) 0 q1.read.1 0) r
    rw [Function.update_self]; exact h1.read.2
  · show Function.update s.got 0 (s.got 0 ++ [d]) 0 = _
    rw [Function.update_self]

/-- A datagram received after the queue was cleared and before jobs are admitted is never announced. From then on every
packet carries the datagram before the one that caused it, for ever: the last one is always left in the queue. -/
theorem C78_start_finding (c : Cfg) (hf : c.ft = true) (hprot : c.prot = 0) (junk : Nat → Nat → List Nat) (clk0 first clk now : Int)
    (buf : List Nat) (hb : c.nTb ≤ buf.length) (d0 : List Nat) (ds : List (List Nat))
    (hds : ∀ d ∈ d0 :: ds, d ≠ [] ∧ d.length ≤ 1600 ∧ d.length ≤ c.nTb) :
    ∃ s, run c (Sys.init junk clk0 first) ([.boot, .boot, .recv 0 d0, .announce 0, .boot] ++ ds.flatMap (serve clk now buf)) = .ok s ∧
      s.got 0 = d0 :: ds ∧ s.jobs = [] ∧ s.srv = .idle ∧ List.Forall₂ (Carries c) s.sent (d0 :: ds).dropLast ∧
      Holds (s.q 0) [(d0 :: ds).getLast (by simp)] := by
  have key : ∀ (ds : List (List Nat)) (x : List Nat) (s : Sys) (us : List (List Nat)),
      (∀ d ∈ x :: ds, d ≠ [] ∧ d.length ≤ 1600 ∧ d.length ≤ c.nTb) → Ring (s.q 0) [x] → s.srv = .idle → s.permeable = true → s.jobs = [] →
      List.Forall₂ (Carries c) s.sent us →
      ∃ s', run c s (ds.flatMap (serve clk now buf)) = .ok s' ∧ s'.got 0 = s.got 0 ++ ds ∧ s'.jobs = [] ∧ s'.srv = .idle ∧
        List.Forall₂ (Carries c) s'.sent (us ++ (x :: ds).dropLast) ∧ Holds (s'.q 0) [(x :: ds).getLast (by simp)] := by
    intro ds
    induction ds with
    | nil => intro x s us _ hr h1 h2 h3 h4; exact ⟨s, rfl, by simp, h3, h1, by simpa using h4, hr.holds⟩
    | cons d ds ih =>
      intro x s us hds hr h1 h2 h3 h4
      obtain ⟨hd1, hd2, -⟩ := hds d (by simp)
      obtain ⟨-, -, hx⟩ := hds x (by simp)
      obtain ⟨s1, t, e1, hr1, h11, h21, h31, h41, hc, hg⟩ := serve_run hf hprot hr (by simp) h1 h2 h3 hd1 hd2 (x := x) (r := [d]) rfl hx hb clk now
      obtain ⟨s', e2, a1, a2, a3, a4, a5⟩ := ih d s1 (us ++ [x]) (fun y hy => hds y (List.mem_cons_of_mem _ hy)) hr1 h11 h21 h31
        (by rw [h41]; exact List.rel_append (R := Carries c) h4 (.cons hc .nil))
      refine ⟨s', ?_, ?_, a2, a3, ?_, ?_⟩
      · rw [List.flatMap_cons, run_append, e1]; exact e2
      · rw [a1, hg]; simp
      · simpa using a4
      · simpa using a5
  obtain ⟨hd1, hd2, -⟩ := hds d0 (by simp)
  have hpos := List.length_pos_iff.2 hd1
  have ht : d0.take maxByte = d0 := List.take_of_length_le hd2
  obtain ⟨q1, e1, h1⟩ := ((ring_init (junk 0)).clear).write hd2 (by simp)
  have hs : ∃ s, run c (Sys.init junk clk0 first) [.boot, .boot, .recv 0 d0, .announce 0, .boot] = .ok s ∧ s.q 0 = q1 ∧ s.srv = .idle ∧
      s.permeable = true ∧ s.jobs = [] ∧ s.sent = [] ∧ s.got 0 = [d0] := by
    refine ⟨{ Sys.init junk clk0 first with
      boot := .done
      permeable := true
      srv := .idle
      q := Function.update (Function.update (Function.update (Sys.init junk clk0 first).q 0 ((Sys.init junk clk0 first).q 0).clear) 1
        ((Sys.init junk clk0 first).q 1).clear) 0 q1
      got := Function.update (Function.update (Function.update (fun _ => []) 0 []) 1 []) 0 [d0] }, ?_, ?_, rfl, rfl, rfl, rfl, ?_⟩
    · simp [run, step, bootStep, recvStep, announceStep, Sys.init, ht, hpos, e1, hprot]
    · simp
    · simp
  obtain ⟨s, e, a1, a2, a3, a4, a5, a6⟩ := hs
  obtain ⟨s', e', b1, b2, b3, b4, b5⟩ := key ds d0 s [] hds (by rw [a1]; exact h1) a2 a3 a4 (by rw [a5]; exact .nil)
  exact ⟨s', by rw [run_append, e]; exact e', by rw [b1, a6]; rfl, b2, b3, by simpa using b4, b5⟩

/-- Three datagrams received between clearing and admitting jobs fill the queue. From then on no datagram is accepted, none
is announced, and nothing is ever transmitted, whatever happens. -/
theorem C78_stuck_finding (c : Cfg) (hf : c.ft = true) (junk : Nat → Nat → List Nat) (clk0 first : Int) (d1 d2 d3 : List Nat)
    (h1 : d1 ≠ [] ∧ d1.length ≤ 1600) (h2 : d2 ≠ [] ∧ d2.length ≤ 1600) (h3 : d3 ≠ [] ∧ d3.length ≤ 1600) :
    ∃ b, run c (Sys.init junk clk0 first) [.boot, .boot, .recv 0 d1, .announce 0, .recv 0 d2, .announce 0, .recv 0 d3, .announce 0, .boot] = .ok b ∧
      ∀ es s, run c b es = .ok s → s.sent = [] ∧ (s.got 0).length = 3 := by
  obtain ⟨h1, l1⟩ := h1
  obtain ⟨h2, l2⟩ := h2
  obtain ⟨h3, l3⟩ := h3
  obtain ⟨q1, e1, r1⟩ := ((ring_init (junk 0)).clear).write l1 (by simp)
  obtain ⟨q2, e2, r2⟩ := r1.write l2 (by simp)
  obtain ⟨q3, e3, r3⟩ := r2.write l3 (by simp)
  have p1 := List.length_pos_iff.2 h1
  have p2 := List.length_pos_iff.2 h2
  have p3 := List.length_pos_iff.2 h3
  have t1 : d1.take maxByte = d1 := List.take_of_length_le l1
  have t2 : d2.take maxByte = d2 := List.take_of_length_le l2
  have t3 : d3.take maxByte = d3 := List.take_of_length_le l3
  have hb : ∃ b, run c (Sys.init junk clk0 first) [.boot, .boot, .recv 0 d1, .announce 0, .recv 0 d2, .announce 0, .recv 0 d3, .announce 0,
      .boot] = .ok b ∧ b.boot = .done ∧ b.q 0 = q3 ∧ b.jobs = [] ∧ b.srv = .idle ∧ b.sent = [] := by
    simp [run, step, bootStep, recvStep, announceStep, Sys.init, t1, t2, t3, p1, p2, p3, e1, e2, e3]
  obtain ⟨b, e, b1, b2, b3, b4, b5⟩ := hb
  refine ⟨b, e, ?_⟩
  have key : ∀ (es : List Ev) (s s' : Sys), Inv c s → s.boot = .done → queued s = 3 → announced s = 0 → s.sent = [] → run c s es = .ok s' →
      s'.sent = [] ∧ queued s' = 3 := by
    intro es
    induction es with
    | nil => intro s s' _ _ h3 _ h5 e; cases e; exact ⟨h5, h3⟩
    | cons a es ih =>
      intro s s' hi hd hq ha hsent e
      rw [run] at e
      obtain ⟨s1, e1, e2⟩ := Res.bind_eq_ok.1 e
      obtain ⟨g1, g2, -⟩ := lag_step hf hi hd e1
      have hi1 := inv_step hi e1
      obtain ⟨-, l1, -, k1, -⟩ := hi1.ring0
      have := k1.len
      have hq1 : queued s1 = l1.length := k1.used
      refine ih s1 s' hi1 g1 (by omega) (by omega) ?_ e2
      obtain ⟨ds, l, hg, h0, hc⟩ := hi.ring0
      cases a with
      | recv conn d =>
        obtain ⟨s2, e3, h1⟩ := recv_cases (s := s) (conn := conn) (d := d) hi.rings
        rw [step, e3] at e1; cases e1
        rcases h1 with rfl | ⟨l', q', -, -, -, -, -, -, rfl⟩ <;> exact hsent
      | announce el => rw [step] at e1; cases e1; unfold announceStep; cases s.srv <;> exact hsent
      | enqueue => rw [step] at e1; cases e1; unfold enqueueStep; cases s.srv <;> exact hsent
      | boot => rw [step] at e1; cases e1; unfold bootStep; rw [hd]; exact hsent
      | work clk hp now =>
        rcases work_cases h0 e1 with ⟨-, rfl⟩ | ⟨conn, n, js, hj, hh⟩
        · exact hsent
        · rcases hh with ⟨-, rfl⟩ | ⟨-, -, rfl⟩ | ⟨-, -, -, rfl⟩ | ⟨-, hc1, -⟩
          · exact hsent
          · exact hsent
          · exact hsent
          · exfalso
            have hn := hi.conns (conn, n) (by rw [hj]; exact List.mem_cons_self)
            have h2 : conn = 0 := by dsimp only at hn; omega
            simp only [announced, hj, countP_cons', h2, if_true] at ha
            omega
      | pdc mem cnt crc clk hp now adj =>
        rcases pdc_cases hi.stage e1 with ⟨-, -, -, rfl⟩ | ⟨hx, -⟩
        · exact hsent
        · rw [hf] at hx; cases hx
  intro es s es'
  have hi := inv_run _ (inv_init c junk clk0 first) e
  obtain ⟨k1, k2⟩ := key es b s hi b1 (by rw [queued, b2, r3.used]; rfl) (by simp [announced, b3, b4, Srv.pending]) b5 es'
  refine ⟨k1, ?_⟩
  have hrun : run c (Sys.init junk clk0 first) ([.boot, .boot, .recv 0 d1, .announce 0, .recv 0 d2, .announce 0, .recv 0 d3, .announce 0,
      .boot] ++ es) = .ok s := by rw [run_append, e]; exact es'
  obtain ⟨ds, -, -, hlen⟩ := C78_order c hf junk clk0 first _ s hrun
  rw [k1] at hlen
  simp at hlen; omega

/-- A datagram written before the queue is cleared and announced after jobs are admitted: the worker finds the queue empty
and the program aborts. -/
theorem C78_race_finding (c : Cfg) (hf : c.ft = true) (hprot : c.prot = 0) (junk : Nat → Nat → List Nat) (clk0 first clk now : Int)
    (d buf : List Nat) (hd : d ≠ [] ∧ d.length ≤ 1600) (hb : c.nTb ≤ buf.length) :
    run c (Sys.init junk clk0 first) [.recv 0 d, .boot, .boot, .boot, .announce 0, .enqueue, .work clk (some buf) now] = .abort := by
  obtain ⟨h1, l1⟩ := hd
  obtain ⟨q1, e1, r1⟩ := (ring_init (junk 0)).write l1 (by simp)
  have p1 := List.length_pos_iff.2 h1
  have t1 : d.take maxByte = d := List.take_of_length_le l1
  have hl := r1.clear.levels
  simp only [List.take_nil, List.map_nil] at hl
  simp [run, step, bootStep, recvStep, announceStep, enqueueStep, workStep, workApplication, Sys.init, t1, p1, e1, hprot, hf, generate, hb,
    fill, hl]

/-- A datagram that is larger than a transport block, but not than a place of the queue, makes the program abort. -/
theorem C78_oversize_finding (c : Cfg) (hf : c.ft = true) (hprot : c.prot = 0) (junk : Nat → Nat → List Nat) (clk0 first clk now : Int)
    (d buf : List Nat) (hd : c.nTb < d.length ∧ d.length ≤ 1600) (hb : c.nTb ≤ buf.length) :
    run c (Sys.init junk clk0 first) (start ++ serve clk now buf d) = .abort := by
  obtain ⟨h1, l1⟩ := hd
  obtain ⟨q1, e1, r1⟩ := ((ring_init (junk 0)).clear).write l1 (by simp)
  have p1 : 0 < d.length := by omega
  have t1 : d.take maxByte = d := List.take_of_length_le l1
  have hl := r1.levels
  have hn : ¬ d.length ≤ c.nTb := by omega
  simp [run, step, start, serve, bootStep, recvStep, announceStep, enqueueStep, workStep, workApplication, Sys.init, t1, p1, e1, hprot, hf,
    generate, hb, fill, hl, hn]

/-- If there is no HARQ process, the transmission is counted though nothing is sent, and the datagram stays in the queue
without a job: later packets lag behind. -/
theorem C78_harq_finding (c : Cfg) (hf : c.ft = true) (hprot : c.prot = 0) (junk : Nat → Nat → List Nat) (clk0 first clk now : Int)
    (d : List Nat) (hd : d ≠ [] ∧ d.length ≤ 1600) :
    ∃ s, run c (Sys.init junk clk0 first) (start ++ [.recv 0 d, .announce 0, .enqueue, .work clk none now]) = .ok s ∧
      s.sent = [] ∧ s.fw.txCnt = 1 ∧ queued s = 1 ∧ announced s = 0 := by
  obtain ⟨h1, l1⟩ := hd
  obtain ⟨q1, e1, r1⟩ := ((ring_init (junk 0)).clear).write l1 (by simp)
  have p1 := List.length_pos_iff.2 h1
  have t1 : d.take maxByte = d := List.take_of_length_le l1
  have hu := r1.used
  simp [run, step, start, bootStep, recvStep, announceStep, enqueueStep, workStep, workApplication, Sys.init, t1, p1, e1, hprot, hf,
    generate, queued, announced, Srv.pending, hu, Fw.init]

/-- With a protection time, a datagram within that time after the start is accepted and never announced, though the watch
is set back for "immediate creation of jobs". -/
theorem C78_protection_finding (c : Cfg) (junk : Nat → Nat → List Nat) (clk0 first : Int) (el : Nat) (hel : el < c.prot)
    (d : List Nat) (hd : d ≠ [] ∧ d.length ≤ 1600) :
    ∃ s, run c (Sys.init junk clk0 first) (start ++ [.recv 0 d, .announce el]) = .ok s ∧
      queued s = 1 ∧ announced s = 0 ∧ s.srv = .idle := by
  obtain ⟨h1, l1⟩ := hd
  obtain ⟨q1, e1, r1⟩ := ((ring_init (junk 0)).clear).write l1 (by simp)
  have p1 := List.length_pos_iff.2 h1
  have t1 : d.take maxByte = d := List.take_of_length_le l1
  have hu := r1.used
  have hn : ¬ c.prot ≤ el := by omega
  simp [run, step, start, bootStep, recvStep, announceStep, Sys.init, t1, p1, e1, queued, announced, Srv.pending, hu, hn]

/-- A received packet with more than 2000 bytes makes the portable device write behind its buffer, and the fixed device
send bytes behind it. The largest packets that the radio device class 8.1.1.A receives have more bytes. -/
theorem C78_overflow_finding (c : Cfg) (junk : Nat → Nat → List Nat) (clk0 first : Int) (es : List Ev) (s : Sys)
    (h : run c (Sys.init junk clk0 first) es = .ok s) (mem : List Nat) (cnt : Nat) (hm : cnt ≤ mem.length) (hc : 2000 < cnt) (crc : Bool)
    (clk : Int) (hp : Option (List Nat)) (now : Int) (adj : Adj) :
    step c s (.pdc mem cnt crc clk hp now adj) = .ub ∧
      ∃ p, Sp3.maximumPacketSizes ⟨8, 1, 1, 7, 6144, 4⟩ = .ok p ∧ 2000 < p.nTbByte := by
  refine ⟨?_, ?_⟩
  · have hs := (inv_run es (inv_init c junk clk0 first) h).stage
    simp only [stageLen] at hs
    have e1 : 8 ≤ mem.length := by omega
    have e2 : cnt - 2000 ≠ 0 := by omega
    cases hf : c.ft with
    | true =>
      simp only [step, pdcStep, workPdc, hf, if_true]
      rw [firstBytes, if_pos (by simp only [verLen]; omega), Res.ok_bind, copyAt_zero (by simp [verLen]; omega), Res.ok_bind]
      rw [copyAt, if_pos (by simp [verLen, le8_length]; omega), Res.ok_bind, firstBytes, if_neg (by simp [verLen, le8_length]; omega)]
      rfl
    | false =>
      simp only [step, pdcStep, workPdc, hf, Bool.false_eq_true, if_false]
      rw [firstBytes, if_pos hm, Res.ok_bind, copyAt, if_neg (by simp; omega)]
      rfl
  · have hd : (match Sp3.maximumPacketSizes ⟨8, 1, 1, 7, 6144, 4⟩ with
        | .ok p => decide (2000 < p.nTbByte)
        | _ => false) = true := by decide +kernel
    generalize Sp3.maximumPacketSizes ⟨8, 1, 1, 7, 6144, 4⟩ = r at hd
    match r, hd with
    | .ok p, hd => exact ⟨p, rfl, of_decide_eq_true hd⟩

/-- Packets whose checksum is wrong are handled as if it were right: counted as received and forwarded. -/
theorem C78_crc_finding (c : Cfg) (hf : c.ft = true) (junk : Nat → Nat → List Nat) (clk0 first : Int) (es : List Ev) (s s' : Sys)
    (h : run c (Sys.init junk clk0 first) es = .ok s) (mem : List Nat) (cnt : Nat) (clk : Int) (hp : Option (List Nat)) (now : Int) (adj : Adj)
    (he : step c s (.pdc mem cnt false clk hp now adj) = .ok s') :
    s'.fw.rxCnt = s.fw.rxCnt + 1 ∧ s'.replies.length = s.replies.length + 1 ∧ step c s (.pdc mem cnt true clk hp now adj) = .ok s' := by
  have hi := inv_run es (inv_init c junk clk0 first) h
  refine ⟨?_, ?_, he⟩
  · rcases pdc_cases hi.stage he with ⟨-, -, -, rfl⟩ | ⟨hx, -⟩
    · rfl
    · rw [hf] at hx; cases hx
  · rcases pdc_cases hi.stage he with ⟨-, -, -, rfl⟩ | ⟨hx, -⟩
    · simp
    · rw [hf] at hx; cases hx

/-! ## A concrete case -/

def exFt : Cfg := { ft := true, nTb := 20, nSamples := 100, turnaround := 30, agcPause := 50, prot := 0 }
def exPt : Cfg := { exFt with ft := false }
def exJunk : Nat → Nat → List Nat := fun _ _ => List.replicate 1600 9
def exBuf : List Nat := List.replicate 24 7

/-- Up to the announcement of the datagram. -/
def exPre : List Ev := start ++ [.recv 0 [1, 2, 3, 4, 5, 6, 7, 8, 9], .announce 0, .enqueue]

/-- The value of a function at the result of a run. -/
def at' {α : Type} (r : Res Sys) (f : Sys → α) : Option α := match r with | .ok s => some (f s) | _ => none

/-- Hypotheses of `C78_round_trip`: the datagram is in the queue and announced. The portable device has just started. -/
example : at' (run exFt (Sys.init exJunk 0 0) exPre) (fun s => (s.jobs, (s.q 0).used, s.srv)) = some ([(0, 9)], 1, .idle) ∧
    at' (run exPt (Sys.init exJunk 0 0) start) (fun s => s.boot) = some .done := by decide +kernel

/-- The packet carries the datagram followed by old bytes of the buffer; it is sent at 130 = 100 + 30. -/
example : at' (run exFt (Sys.init exJunk 0 0) (exPre ++ [.work 1000 (some exBuf) 100])) (fun s => s.sent.map fun t => (t.tb, t.order, t.time)) =
    some [([1, 2, 3, 4, 5, 6, 7, 8, 9] ++ List.replicate 11 7, 0, 130)] := by decide +kernel

/-- The portable device echoes it, and the first answer changes the gains. -/
example : at' (run exPt (Sys.init exJunk 0 0) (start ++ [.pdc ([1, 2, 3, 4, 5, 6, 7, 8, 9] ++ List.replicate 11 7) 20 true 0 (some exBuf) 400
      ([1], [2])])) (fun s => s.sent.map fun t => (t.tb, t.time, t.adj.map Prod.snd)) =
    some [([1, 2, 3, 4, 5, 6, 7, 8, 9] ++ List.replicate 11 7, 430, some [2])] := by decide +kernel

/-- The program gets its first eight bytes and the time 6000 - 1000 = 5000 = 136 + 19 * 256. -/
example : at' (run exFt (Sys.init exJunk 0 0) (exPre ++ [.work 1000 (some exBuf) 100, .pdc ([1, 2, 3, 4, 5, 6, 7, 8, 9] ++ List.replicate 11 7) 20 true
      6000 none 700 ([], [])])) (fun s => (s.replies, s.fw.rxCnt, s.fw.rttMin, s.fw.rttMax, s.since)) =
    some ([[1, 2, 3, 4, 5, 6, 7, 8, 136, 19, 0, 0, 0, 0, 0, 0, 0, 0, 0, 0]], 1, 5000, 5000, [5000]) := by decide +kernel

/-- Normal events, for `C78_served_partial` and `C78_no_abort_partial`. -/
example : ∀ e ∈ serve 1000 100 exBuf [1, 2, 3], Normal exFt e := by
  intro e he
  simp only [serve, List.mem_cons, List.not_mem_nil, or_false] at he
  rcases he with rfl | rfl | rfl | rfl
  · intro _; decide
  · trivial
  · trivial
  · exact ⟨exBuf, rfl, by decide⟩

/-- Two changes of the gains, for `C78_agc`: at 400 and 450, not at 449. -/
example : at' (run exPt (Sys.init exJunk 0 0) (start ++ [400, 449, 450].map fun t => .pdc (List.replicate 20 1) 20 true 0 (some exBuf) t ([1], [2])))
      (fun s => s.sent.map fun t => t.adj.isSome) = some [true, false, true] := by decide +kernel

end Verif.Upper.Rtt
