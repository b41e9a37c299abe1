import Verif.Model.Rtt
import Verif.Props.C13_Queue

set_option linter.unusedSimpArgs false

/-!
# Lemmas on the firmware that measures the round-trip time
-/

namespace Verif.Upper.Rtt

open Verif.App

/-- A queue of the size in use holds the datagrams `l`. -/
structure Ring (q : Queue) (l : List (List Nat)) : Prop where
  holds : Holds q l
  n : q.n = 4
  max : q.maxByte = 1600

theorem Ring.len {q : Queue} {l : List (List Nat)} (h : Ring q l) : l.length ≤ 3 := by
  have := h.holds.len; have := h.n; omega

theorem Ring.used {q : Queue} {l : List (List Nat)} (h : Ring q l) : q.used = l.length := h.holds.used_eq

theorem ring_init (junk : Nat → List Nat) : Ring (Queue.init nDatagram maxByte junk) [] :=
  ⟨⟨by show 0 < 4; omega, by show 0 < 4; omega, rfl, by show 0 < 4; omega, by simp, by simp⟩, rfl, rfl⟩

theorem Ring.clear {q : Queue} {l : List (List Nat)} (h : Ring q l) : Ring q.clear [] := by
  have hn := h.n
  exact ⟨⟨by show 0 < q.n; omega, by show 0 < q.n; omega, by show (0 + 0) % q.n = 0; simp, by show 0 < q.n; omega, by simp, by simp⟩,
    h.n, h.max⟩

theorem Ring.write {q : Queue} {l : List (List Nat)} (h : Ring q l) {d : List Nat} (hd : d.length ≤ 1600) (hl : l.length < 3) :
    ∃ q', q.write d = .ok (q', d.length) ∧ Ring q' (l ++ [d]) := by
  have := call_refines h.holds (.write d)
  have hn := h.n; have hm := h.max
  simp only [fifo, Queue.call] at this
  rw [if_neg (by omega), if_neg (by omega)] at this
  obtain ⟨q', e, h1, h2, h3⟩ := this
  obtain ⟨⟨a, b⟩, e1, e2⟩ := Res.bind_eq_ok.1 e
  cases e2
  exact ⟨a, e1, h1, h2.trans hn, h3.trans hm⟩

theorem Ring.write_full {q : Queue} {l : List (List Nat)} (h : Ring q l) (d : List Nat) (hl : l.length = 3) :
    q.write d = .ok (q, 0) := by
  have hf := h.holds.free_eq
  have hn := h.n
  rw [Queue.write, if_pos (by omega)]

theorem Ring.read {q : Queue} {d : List Nat} {l : List (List Nat)} (h : Ring q (d :: l)) :
    q.read = (q.read.1, d.length, d) ∧ Ring q.read.1 l := by
  have := call_refines h.holds .read
  simp only [fifo, Queue.call] at this
  obtain ⟨q', e, h1, h2, h3⟩ := this
  simp only [Res.ok.injEq, Prod.mk.injEq, QRet.mk.injEq] at e
  obtain ⟨rfl, e1, e2, -⟩ := e
  exact ⟨by rw [← e1, ← e2], h1, h2.trans h.n, h3.trans h.max⟩

theorem Ring.read_any {q : Queue} {l : List (List Nat)} (h : Ring q l) : Ring q.read.1 l.tail := by
  cases l with
  | nil =>
    have := h.used
    have e : q.read = (q, 0, []) := by rw [Queue.read, if_pos (by simpa using this)]
    rw [e]; exact h
  | cons d l => exact h.read.2

theorem Ring.levels {q : Queue} {l : List (List Nat)} (h : Ring q l) : q.levels 1 = .ok ((l.take 1).map List.length) := by
  have := call_refines h.holds (.levels 1)
  simp only [fifo, Queue.call] at this
  rw [if_neg (by omega)] at this
  obtain ⟨q', e, -⟩ := this
  obtain ⟨x, e1, e2⟩ := Res.bind_eq_ok.1 e
  cases e2
  exact e1

theorem copyAt_zero {a b : List Nat} (h : b.length ≤ a.length) : copyAt a 0 b = .ok (b ++ a.drop b.length) := by
  rw [copyAt, if_pos (by omega)]; simp

theorem le8_length (x : Int) : (le8 x).length = 8 := by simp [le8]

/-! ## Transmission -/

/-- The fixed device takes the oldest datagram. -/
theorem fill_ft {c : Cfg} (hf : c.ft = true) {stage : List Nat} {q : Queue} {l : List (List Nat)} (hq : Ring q l) {buf : List Nat}
    {q' : Queue} {b : List Nat} (e : fill c stage q buf = .ok (q', b)) :
    ∃ d t, l = d :: t ∧ Ring q' t ∧ d.length ≤ c.nTb ∧ d.length ≤ buf.length ∧ b = d ++ buf.drop d.length := by
  rw [fill, if_pos hf, hq.levels, Res.ok_bind] at e
  cases l with
  | nil => cases e
  | cons d t =>
    obtain ⟨hr, hq'⟩ := hq.read
    simp only [List.take_succ_cons, List.take_zero, List.map_cons, List.map_nil] at e
    rw [hr] at e
    simp only [Res.bind_eq_ok, Res.assert_eq_ok, decide_eq_true_eq, exists_and_left, exists_const, Res.pure_eq, Res.ok.injEq,
      Prod.mk.injEq] at e
    obtain ⟨h1, b', h2, -, rfl, rfl⟩ := e
    have hb : d.length ≤ buf.length := by
      by_contra hh
      rw [copyAt, if_neg (by omega)] at h2; cases h2
    rw [copyAt_zero hb] at h2
    cases h2
    exact ⟨d, t, rfl, hq', h1, hb, rfl⟩

theorem fill_ft_ok {c : Cfg} (hf : c.ft = true) {stage : List Nat} {q : Queue} {d : List Nat} {t : List (List Nat)}
    (hq : Ring q (d :: t)) {buf : List Nat} (h1 : d.length ≤ c.nTb) (h2 : c.nTb ≤ buf.length) :
    fill c stage q buf = .ok (q.read.1, d ++ buf.drop d.length) := by
  rw [fill, if_pos hf, hq.levels, Res.ok_bind]
  obtain ⟨hr, -⟩ := hq.read
  simp only [List.take_succ_cons, List.take_zero, List.map_cons, List.map_nil]
  rw [hr]
  simp only [h1, decide_true, Res.assert_true, Res.ok_bind, copyAt_zero (Nat.le_trans h1 h2), Res.pure_eq]

theorem fill_pt {c : Cfg} (hf : c.ft = false) {stage : List Nat} {q : Queue} {buf : List Nat} {q' : Queue} {b : List Nat}
    (e : fill c stage q buf = .ok (q', b)) : q' = q ∧ c.nTb ≤ stage.length ∧ c.nTb ≤ buf.length ∧
      b = stage.take c.nTb ++ buf.drop c.nTb := by
  rw [fill, if_neg (by simp [hf])] at e
  simp only [Res.bind_eq_ok, Res.pure_eq, Res.ok.injEq, Prod.mk.injEq] at e
  obtain ⟨s, h1, b', h2, rfl, rfl⟩ := e
  have hs : c.nTb ≤ stage.length := by
    by_contra hh
    rw [firstBytes, if_neg hh] at h1; cases h1
  rw [firstBytes, if_pos hs] at h1; cases h1
  have hb : c.nTb ≤ buf.length := by
    by_contra hh
    rw [copyAt, if_neg (by simp; omega)] at h2; cases h2
  rw [copyAt_zero (by simp; omega)] at h2; cases h2
  refine ⟨rfl, hs, hb, ?_⟩
  simp [Nat.min_eq_left hs]

theorem fill_pt_ok {c : Cfg} (hf : c.ft = false) {stage : List Nat} {q : Queue} {buf : List Nat} (h1 : c.nTb ≤ stage.length)
    (h2 : c.nTb ≤ buf.length) : fill c stage q buf = .ok (q, stage.take c.nTb ++ buf.drop c.nTb) := by
  rw [fill, if_neg (by simp [hf]), firstBytes, if_pos h1, Res.ok_bind, copyAt_zero (by simp; omega), Res.ok_bind, Res.pure_eq]
  simp [Nat.min_eq_left h1]

/-- What a successful call of `generate_packet_asap` does. -/
theorem generate_cases {c : Cfg} {f : Fw} {q : Queue} {hp : Option (List Nat)} {now : Int} {adj : Option Adj} {f' : Fw} {q' : Queue}
    {tx : Option Tx} (e : generate c f q hp now adj = .ok (f', q', tx)) :
    (hp = none ∧ f' = f ∧ q' = q ∧ tx = none) ∨
    ∃ buf b, hp = some buf ∧ c.nTb ≤ buf.length ∧ fill c f.stage q buf = .ok (q', b) ∧
      f' = { f with order := f.order + 1, earliest := max f.earliest (now + c.turnaround) + c.nSamples } ∧
      tx = some ⟨b.take c.nTb, f.order, max f.earliest (now + c.turnaround), adj⟩ := by
  cases hp with
  | none => simp only [generate, Res.ok.injEq, Prod.mk.injEq] at e; obtain ⟨rfl, rfl, rfl⟩ := e; simp
  | some buf =>
    simp only [generate, Res.bind_eq_ok, Res.assert_eq_ok, decide_eq_true_eq, exists_and_left, exists_const, Res.pure_eq,
      Res.ok.injEq, Prod.mk.injEq, Prod.exists] at e
    obtain ⟨h1, q1, b, h2, rfl, rfl, rfl⟩ := e
    exact Or.inr ⟨buf, b, rfl, h1, h2, rfl, rfl⟩

theorem generate_ok {c : Cfg} {f : Fw} {q : Queue} {buf : List Nat} {now : Int} {adj : Option Adj} {q' : Queue} {b : List Nat}
    (h : c.nTb ≤ buf.length) (hf : fill c f.stage q buf = .ok (q', b)) :
    generate c f q (some buf) now adj = .ok ({ f with order := f.order + 1, earliest := max f.earliest (now + c.turnaround) + c.nSamples },
      q', some ⟨b.take c.nTb, f.order, max f.earliest (now + c.turnaround), adj⟩) := by
  simp only [generate, h, decide_true, Res.assert_true, Res.ok_bind, hf, Res.pure_eq]

/-! ## Reception -/

theorem pdc_ft {c : Cfg} (hf : c.ft = true) {f : Fw} {q : Queue} {mem : List Nat} {cnt : Nat} {clk : Int} {hp : Option (List Nat)}
    {now : Int} {adj : Adj} (hs : f.stage.length = stageLen) (hm : verLen ≤ mem.length) (hc : cnt ≤ stageLen) :
    workPdc c f q mem cnt clk hp now adj = .ok ({ f with
      rttMin := min f.rttMin (clk - f.watch), rttMax := max f.rttMax (clk - f.watch)
      stage := mem.take 8 ++ le8 (clk - f.watch) ++ f.stage.drop 16, rxCnt := f.rxCnt + 1 }, q,
      some ((mem.take 8 ++ le8 (clk - f.watch) ++ f.stage.drop 16).take cnt), none) := by
  simp only [verLen, stageLen] at hs hm hc
  have e1 : firstBytes mem 8 = .ok (mem.take 8) := if_pos hm
  have l1 : (mem.take 8).length = 8 := by simp; omega
  have e2 : copyAt f.stage 0 (mem.take 8) = .ok (mem.take 8 ++ f.stage.drop 8) := by
    rw [copyAt_zero (by omega), l1]
  have e3 : copyAt (mem.take 8 ++ f.stage.drop 8) 8 (le8 (clk - f.watch)) =
      .ok (mem.take 8 ++ le8 (clk - f.watch) ++ f.stage.drop 16) := by
    rw [copyAt, if_pos (by simp only [List.length_append, List.length_drop, l1, le8_length]; omega), le8_length]
    rw [List.take_left' l1]
    rw [show 8 + 8 = (mem.take 8).length + 8 by omega, List.drop_append, List.drop_drop]
    have h0 : (mem.take 8).drop ((mem.take 8).length + 8) = [] := List.drop_eq_nil_of_le (by omega)
    rw [h0]
    simp [l1]
  have e4 : firstBytes (mem.take 8 ++ le8 (clk - f.watch) ++ f.stage.drop 16) cnt =
      .ok ((mem.take 8 ++ le8 (clk - f.watch) ++ f.stage.drop 16).take cnt) :=
    if_pos (by simp only [List.length_append, List.length_drop, l1, le8_length]; omega)
  simp only [workPdc, if_pos hf, verLen, e1, Res.ok_bind, e2, e3, e4, Res.pure_eq]

theorem pdc_ft_inv {c : Cfg} (hf : c.ft = true) {f : Fw} {q : Queue} {mem : List Nat} {cnt : Nat} {clk : Int} {hp : Option (List Nat)}
    {now : Int} {adj : Adj} (hs : f.stage.length = stageLen) {x : Fw × Queue × Option (List Nat) × Option Tx}
    (e : workPdc c f q mem cnt clk hp now adj = .ok x) : verLen ≤ mem.length ∧ cnt ≤ stageLen := by
  simp only [workPdc, if_pos hf, Res.bind_eq_ok] at e
  obtain ⟨a, h1, s, h2, s', h3, o, h4, -⟩ := e
  have hm : verLen ≤ mem.length := by
    by_contra hh
    rw [firstBytes, if_neg hh] at h1; cases h1
  have la : a.length = verLen := by
    rw [firstBytes, if_pos hm] at h1; cases h1; simp; omega
  simp only [stageLen, verLen] at *
  rw [copyAt_zero (by omega)] at h2; cases h2
  have l3 : s'.length = 2000 := by
    rw [copyAt, if_pos (by simp [le8_length]; omega)] at h3; cases h3
    simp [le8_length]; omega
  refine ⟨hm, ?_⟩
  by_contra hh
  rw [firstBytes, if_neg (by omega)] at h4; cases h4

theorem pdc_pt_inv {c : Cfg} (hf : c.ft = false) {f : Fw} {q : Queue} {mem : List Nat} {cnt : Nat} {clk : Int} {hp : Option (List Nat)}
    {now : Int} {adj : Adj} {f' : Fw} {q' : Queue} {out : Option (List Nat)} {tx : Option Tx}
    (e : workPdc c f q mem cnt clk hp now adj = .ok (f', q', out, tx)) :
    cnt ≤ mem.length ∧ cnt ≤ f.stage.length ∧ out = none ∧
    answer c { f with stage := mem.take cnt ++ f.stage.drop cnt } q hp now adj = .ok (f', q', tx) := by
  simp only [workPdc, hf, Res.bind_eq_ok] at e
  simp only [Bool.false_eq_true, if_false, Res.bind_eq_ok, Prod.exists, Res.pure_eq, Res.ok.injEq, Prod.mk.injEq] at e
  obtain ⟨a, h1, s, h2, f1, q1, tx1, h3, rfl, rfl, rfl, rfl⟩ := e
  have hm : cnt ≤ mem.length := by
    by_contra hh
    rw [firstBytes, if_neg hh] at h1; cases h1
  rw [firstBytes, if_pos hm] at h1; cases h1
  have l1 : (mem.take cnt).length = cnt := by simp; omega
  have hs : cnt ≤ f.stage.length := by
    by_contra hh
    rw [copyAt, if_neg (by omega)] at h2; cases h2
  rw [copyAt_zero (by omega), l1] at h2; cases h2
  exact ⟨hm, hs, rfl, h3⟩

theorem pdc_pt {c : Cfg} (hf : c.ft = false) {f : Fw} {q : Queue} {mem : List Nat} {cnt : Nat} {clk : Int} {hp : Option (List Nat)}
    {now : Int} {adj : Adj} {f' : Fw} {q' : Queue} {tx : Option Tx} (hm : cnt ≤ mem.length) (hs : cnt ≤ f.stage.length)
    (hg : answer c { f with stage := mem.take cnt ++ f.stage.drop cnt } q hp now adj = .ok (f', q', tx)) :
    workPdc c f q mem cnt clk hp now adj = .ok (f', q', none, tx) := by
  have l1 : (mem.take cnt).length = cnt := by simp; omega
  simp only [workPdc, hf, Bool.false_eq_true, if_false]
  rw [firstBytes, if_pos hm, Res.ok_bind, copyAt_zero (by omega), Res.ok_bind, l1, hg]
  rfl

/-- An answer is a packet; the gains change only if the pause has passed. -/
theorem answer_cases {c : Cfg} {f : Fw} {q : Queue} {hp : Option (List Nat)} {now : Int} {adj : Adj} {x : Fw × Queue × Option Tx}
    (e : answer c f q hp now adj = .ok x) :
    (f.tAgc + c.agcPause ≤ now ∧ generate c { f with tAgc := now } q hp now (some adj) = .ok x) ∨
    (now < f.tAgc + c.agcPause ∧ generate c f q hp now none = .ok x) := by
  unfold answer at e
  split at e
  · exact Or.inl ⟨by assumption, e⟩
  · exact Or.inr ⟨by omega, e⟩

/-! ## The server thread -/

/-- The three outcomes of a received datagram. -/
theorem recv_cases {s : Sys} {conn : Nat} {d : List Nat} (hq : ∀ i, i < 2 → ∃ l, Ring (s.q i) l) :
    ∃ s', recvStep s conn d = .ok s' ∧ (s' = s ∨
      ∃ l q', s.srv = .idle ∧ conn < 2 ∧ 0 < (d.take maxByte).length ∧ Ring (s.q conn) l ∧ l.length < 3 ∧
        Ring q' (l ++ [d.take maxByte]) ∧
        s' = { s with
          q := Function.update s.q conn q', srv := .written conn (d.take maxByte).length
          got := Function.update s.got conn (s.got conn ++ [d.take maxByte]) }) := by
  unfold recvStep
  cases hs : s.srv with
  | written | enqueuing => exact ⟨s, rfl, Or.inl rfl⟩
  | idle =>
    dsimp only
    by_cases hc : conn < 2
    · by_cases hd : 0 < (d.take maxByte).length
      · rw [if_pos hc, if_pos hd]
        obtain ⟨l, hl⟩ := hq conn hc
        have := hl.len
        have hmx : (d.take maxByte).length ≤ 1600 := by simp [maxByte]
        by_cases h3 : l.length = 3
        · rw [hl.write_full _ h3, Res.ok_bind]
          refine ⟨s, ?_, Or.inl rfl⟩
          simp only [Res.pure_eq, lt_irrefl, if_false, Function.update_eq_self]
          rw [← hs]
        · obtain ⟨q', e, hq'⟩ := hl.write hmx (by omega)
          rw [e, Res.ok_bind]
          exact ⟨_, rfl, Or.inr ⟨l, q', rfl, hc, hd, hl, by omega, hq', by simp only [if_pos hd]⟩⟩
      · rw [if_pos hc, if_neg hd]; exact ⟨s, rfl, Or.inl rfl⟩
    · rw [if_neg hc]; exact ⟨s, rfl, Or.inl rfl⟩

/-! ## Calls of the firmware -/

/-- A packet sent by a device in state `f`. -/
def Fw.sentOne (c : Cfg) (f : Fw) (now : Int) : Fw :=
  { f with order := f.order + 1, earliest := max f.earliest (now + c.turnaround) + c.nSamples }

/-- The four outcomes of a job. -/
theorem work_cases {c : Cfg} {s s' : Sys} {clk : Int} {hp : Option (List Nat)} {now : Int} {l : List (List Nat)} (hq : Ring (s.q 0) l)
    (e : workStep c s clk hp now = .ok s') :
    (s.jobs = [] ∧ s' = s) ∨ ∃ conn n js, s.jobs = (conn, n) :: js ∧
      ((c.ft = false ∧ s' = { s with jobs := js }) ∨
       (c.ft = true ∧ conn = 1 ∧
          s' = { s with jobs := js, fw := report s.fw, q := Function.update s.q 1 (s.q 1).read.1, since := [] }) ∨
       (c.ft = true ∧ conn ≠ 1 ∧ hp = none ∧ s' = { s with jobs := js, fw := { s.fw with watch := clk, txCnt := s.fw.txCnt + 1 } }) ∨
       (c.ft = true ∧ conn ≠ 1 ∧ ∃ buf d t q', hp = some buf ∧ c.nTb ≤ buf.length ∧ l = d :: t ∧ d.length ≤ c.nTb ∧ Ring q' t ∧
          s' = { s with
            jobs := js
            fw := { s.fw.sentOne c now with watch := clk, txCnt := s.fw.txCnt + 1 }
            q := Function.update s.q 0 q'
            sent := s.sent ++ [⟨(d ++ buf.drop d.length).take c.nTb, s.fw.order, max s.fw.earliest (now + c.turnaround), none⟩] })) := by
  unfold workStep at e
  cases hj : s.jobs with
  | nil => rw [hj] at e; cases e; exact Or.inl ⟨rfl, rfl⟩
  | cons j js =>
    obtain ⟨conn, n⟩ := j
    rw [hj] at e
    refine Or.inr ⟨conn, n, js, rfl, ?_⟩
    simp only [Res.bind_eq_ok, Prod.exists, Res.pure_eq, Res.ok.injEq] at e
    obtain ⟨f, q, tx, e1, rfl⟩ := e
    unfold workApplication at e1
    cases hf : c.ft with
    | false =>
      rw [hf] at e1
      cases e1
      exact Or.inl ⟨rfl, by simp⟩
    | true =>
      right
      rw [hf] at e1
      simp only [Bool.not_true, Bool.false_eq_true, if_false] at e1
      by_cases h1 : conn = 1
      · rw [if_pos h1] at e1; cases e1
        exact Or.inl ⟨rfl, h1, by simp [h1]⟩
      · right
        rw [if_neg h1] at e1
        simp only [Res.bind_eq_ok, Prod.exists, Res.pure_eq, Res.ok.injEq, Prod.mk.injEq] at e1
        obtain ⟨f1, q1, tx1, g, rfl, rfl, rfl⟩ := e1
        rcases generate_cases g with ⟨rfl, rfl, rfl, rfl⟩ | ⟨buf, b, rfl, hb, hfl, rfl, rfl⟩
        · exact Or.inl ⟨rfl, h1, rfl, by simp [h1]⟩
        · obtain ⟨d, t, rfl, hq', hd, -, rfl⟩ := fill_ft hf hq hfl
          exact Or.inr ⟨rfl, h1, buf, d, t, q1, rfl, hb, rfl, hd, hq', by simp [h1, Fw.sentOne]⟩

/-- The outcomes of a received packet. -/
theorem pdc_cases {c : Cfg} {s s' : Sys} {mem : List Nat} {cnt : Nat} {clk : Int} {hp : Option (List Nat)} {now : Int} {adj : Adj}
    (hs : s.fw.stage.length = stageLen) (e : pdcStep c s mem cnt clk hp now adj = .ok s') :
    (c.ft = true ∧ verLen ≤ mem.length ∧ cnt ≤ stageLen ∧ s' = { s with
        fw := { s.fw with
          rttMin := min s.fw.rttMin (clk - s.fw.watch), rttMax := max s.fw.rttMax (clk - s.fw.watch)
          stage := mem.take 8 ++ le8 (clk - s.fw.watch) ++ s.fw.stage.drop 16, rxCnt := s.fw.rxCnt + 1 }
        replies := s.replies ++ [(mem.take 8 ++ le8 (clk - s.fw.watch) ++ s.fw.stage.drop 16).take cnt]
        since := s.since ++ [clk - s.fw.watch] }) ∨
    (c.ft = false ∧ cnt ≤ mem.length ∧ cnt ≤ stageLen ∧ ∃ (t : Int) (a : Option Adj),
      ((s.fw.tAgc + c.agcPause ≤ now ∧ t = now ∧ a = some adj) ∨ (now < s.fw.tAgc + c.agcPause ∧ t = s.fw.tAgc ∧ a = none)) ∧
      ((hp = none ∧ s' = { s with fw := { s.fw with stage := mem.take cnt ++ s.fw.stage.drop cnt, tAgc := t } }) ∨
       (∃ buf, hp = some buf ∧ c.nTb ≤ buf.length ∧ c.nTb ≤ stageLen ∧ s' = { s with
          fw := { s.fw.sentOne c now with stage := mem.take cnt ++ s.fw.stage.drop cnt, tAgc := t }
          sent := s.sent ++ [⟨(mem.take cnt ++ s.fw.stage.drop cnt).take c.nTb, s.fw.order,
            max s.fw.earliest (now + c.turnaround), a⟩] }))) := by
  simp only [pdcStep, Res.bind_eq_ok, Prod.exists, Res.pure_eq, Res.ok.injEq] at e
  obtain ⟨f, q, out, tx, e1, rfl⟩ := e
  cases hf : c.ft with
  | true =>
    left
    obtain ⟨h1, h2⟩ := pdc_ft_inv hf hs e1
    rw [pdc_ft hf hs h1 h2] at e1
    cases e1
    exact ⟨rfl, h1, h2, by simp⟩
  | false =>
    right
    obtain ⟨h1, h2, rfl, e2⟩ := pdc_pt_inv hf e1
    have hl : (mem.take cnt ++ s.fw.stage.drop cnt).length = stageLen := by simp; omega
    refine ⟨rfl, h1, by omega, ?_⟩
    rcases answer_cases e2 with ⟨hc, g⟩ | ⟨hc, g⟩
    · refine ⟨now, some adj, Or.inl ⟨hc, rfl, rfl⟩, ?_⟩
      rcases generate_cases g with ⟨rfl, rfl, rfl, rfl⟩ | ⟨buf, b, rfl, hb, hfl, rfl, rfl⟩
      · exact Or.inl ⟨rfl, by simp⟩
      · obtain ⟨rfl, k1, k2, rfl⟩ := fill_pt hf hfl
        dsimp only at k1 k2
        refine Or.inr ⟨buf, rfl, hb, by omega, ?_⟩
        have ht : ((mem.take cnt ++ s.fw.stage.drop cnt).take c.nTb ++ buf.drop c.nTb).take c.nTb =
            (mem.take cnt ++ s.fw.stage.drop cnt).take c.nTb := by
          rw [List.take_left' (by rw [List.length_take]; omega)]
        simp only [Function.update_eq_self, Option.toList, List.append_nil, Fw.sentOne, ht, Bool.false_eq_true, if_false]
    · refine ⟨s.fw.tAgc, none, Or.inr ⟨hc, rfl, rfl⟩, ?_⟩
      rcases generate_cases g with ⟨rfl, rfl, rfl, rfl⟩ | ⟨buf, b, rfl, hb, hfl, rfl, rfl⟩
      · exact Or.inl ⟨rfl, by simp⟩
      · obtain ⟨rfl, k1, k2, rfl⟩ := fill_pt hf hfl
        dsimp only at k1 k2
        refine Or.inr ⟨buf, rfl, hb, by omega, ?_⟩
        have ht : ((mem.take cnt ++ s.fw.stage.drop cnt).take c.nTb ++ buf.drop c.nTb).take c.nTb =
            (mem.take cnt ++ s.fw.stage.drop cnt).take c.nTb := by
          rw [List.take_left' (by rw [List.length_take]; omega)]
        simp only [Function.update_eq_self, Option.toList, List.append_nil, Fw.sentOne, ht, Bool.false_eq_true, if_false]

end Verif.Upper.Rtt
