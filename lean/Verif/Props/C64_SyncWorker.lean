import Verif.Model.SyncWorker
import Verif.Props.C19_Baton

set_option linter.unusedSimpArgs false

/-!
# C64: packets found by the synchronization threads are submitted once and in order

Specification: `found z det g` lists the synchronization times found in the `g`-th chunk of the time axis by a
search through the whole chunk, and `stream` those of the first `m` chunks. The threads share the chunks; what
they submit must be `stream`, cut off where the work has come to.
-/

namespace Verif.Phy.SyncWorker
open Verif.Phy.Baton (Aligned chunkAt chunkStart_eq mul_window syncTimeUnique undefinedEarly)

/-- Synchronization times found by the first `i` steps in a chunk. -/
def foundUpTo (det : Nat → Nat → Option Int) (g i : Nat) : List Int := (List.range i).filterMap fun j => det g (j + 1)

/-- Number of steps of a search through the whole chunk: the read index starts at `pattern` and advances by `step`
until it has reached `searchLen`. -/
def nofSteps (z : Geo) : Nat := (z.searchLen - z.pattern + z.step - 1) / z.step

/-- Synchronization times found by a search through the whole chunk. -/
def found (z : Geo) (det : Nat → Nat → Option Int) (g : Nat) : List Int := foundUpTo det g (nofSteps z)

/-- Synchronization times found in the first `m` chunks of the time axis. -/
def stream (z : Geo) (det : Nat → Nat → Option Int) (m : Nat) : List Int := (List.range m).flatMap (found z det)

/-- Synchronization times out of a list which are more than `limit` later than the last one taken. -/
def takeUnique (limit last : Int) : List Int → List Int
  | [] => []
  | r :: l => if limit < r - last then r :: takeUnique limit r l else takeUnique limit last l

/-- Sensible dimensions: a chunk needs at least one step. -/
structure Sane (z : Geo) : Prop where
  al : Aligned z.cfg
  step : 1 ≤ z.step
  len : z.pattern < z.searchLen

/-- The last step of the search through a chunk, which completes it, finds nothing. -/
def LastStepEmpty (z : Geo) (det : Nat → Nat → Option Int) : Prop := ∀ g, det g (nofSteps z) = none

theorem complete_iff {z : Geo} (h : Sane z) (i : Nat) : z.complete i = true ↔ nofSteps z ≤ i := by
  have h1 := h.step
  have h2 := h.len
  unfold Geo.complete Geo.cntR nofSteps
  rw [decide_eq_true_eq, Nat.div_le_iff_le_mul_add_pred (by omega)]
  have : z.step * i = i * z.step := Nat.mul_comm _ _
  omega

theorem nofSteps_pos {z : Geo} (h : Sane z) : 0 < nofSteps z := by
  have h1 := h.step
  have h2 := h.len
  unfold nofSteps
  exact Nat.div_pos (by omega) (by omega)

theorem foundUpTo_succ_none {det : Nat → Nat → Option Int} {g i : Nat} (h : det g (i + 1) = none) :
    foundUpTo det g (i + 1) = foundUpTo det g i := by
  simp [foundUpTo, List.range_succ, List.filterMap_append, h]

theorem foundUpTo_succ_some {det : Nat → Nat → Option Int} {g i : Nat} {r : Int} (h : det g (i + 1) = some r) :
    foundUpTo det g (i + 1) = foundUpTo det g i ++ [r] := by
  simp [foundUpTo, List.range_succ, List.filterMap_append, h]

@[simp] theorem foundUpTo_zero {det : Nat → Nat → Option Int} {g : Nat} : foundUpTo det g 0 = [] := rfl

theorem stream_succ {z : Geo} {det : Nat → Nat → Option Int} (m : Nat) :
    stream z det (m + 1) = stream z det m ++ found z det m := by
  simp [stream, List.range_succ]

/-- The thread has the baton. -/
def hasBaton : Pc → Bool
  | .flush .. | .emit _ | .close | .pass | .call false | .run false => true
  | _ => false

/-- What is left to be submitted of what has been found in the chunk. -/
def rest : Pc → List Int
  | .flush l opt => l ++ opt.toList
  | .emit opt => opt.toList
  | _ => []

/-- What holds for a thread by itself; `c` is the number of chunks closed by it. -/
def Local (z : Geo) (det : Nat → Nat → Option Int) (t c : Nat) (x : Thread) : Prop :=
  x.i ≤ nofSteps z ∧
  match x.pc with
  | .call true =>
      (x.buf = [] ∧ (x.k = c ∧ x.i = 0 ∨ x.k + 1 = c ∧ x.i = nofSteps z)) ∨
      (x.k = c ∧ x.i < nofSteps z ∧ x.buf = foundUpTo det (z.chunk t x.k) x.i)
  | .run true => x.k = c ∧ x.buf = foundUpTo det (z.chunk t x.k) x.i
  | .got r => x.k = c ∧ x.buf ++ [r] = foundUpTo det (z.chunk t x.k) x.i ∧ (z.cfg.n = 1 ∨ x.i < nofSteps z)
  | .wait opt => x.k = c ∧ x.buf ++ opt.toList = foundUpTo det (z.chunk t x.k) x.i ∧ (opt = none → x.i = nofSteps z)
  | .flush _ opt => x.k = c ∧ (opt = none → x.i = nofSteps z)
  | .emit opt => x.k = c ∧ (opt = none → x.i = nofSteps z)
  | .call false => x.k = c ∧ x.i < nofSteps z
  | .run false => x.k = c
  | .close => x.k = c ∧ x.i = nofSteps z
  | .pass => x.k = c ∧ x.i = nofSteps z

/-- Number of chunks closed by thread `t`. -/
def nofClosed (s : Sys) (t : Nat) : Nat := (s.closed.filter fun e => decide (e.1 = t)).length

structure Inv (z : Geo) (det : Nat → Nat → Option Int) (s : Sys) : Prop where
  lt : ∀ t, (s.th t).pc ≠ .call true → t < z.cfg.n
  has : ∀ t, hasBaton (s.th t).pc = true → s.holder = t
  holder : s.holder = s.closed.length % z.cfg.n
  lo : ∀ t, t < z.cfg.n → s.closed.length ≤ nofClosed s t * z.cfg.n + t
  hi : ∀ t, t < z.cfg.n → nofClosed s t * z.cfg.n + t < s.closed.length + z.cfg.n
  loc : ∀ t, t < z.cfg.n → Local z det t (nofClosed s t) (s.th t)
  idle : (∀ t, hasBaton (s.th t).pc = false) → s.submitted = stream z det s.closed.length
  busy : ∀ t, hasBaton (s.th t).pc = true →
    s.submitted ++ rest (s.th t).pc =
      stream z det s.closed.length ++ foundUpTo det s.closed.length (s.th t).i
  endOpen : (∀ t, (s.th t).pc ≠ .pass) →
    s.chunkEnd = if s.closed.length = 0 then Verif.Adt.int64Max else chunkAt z.cfg s.closed.length - 1
  endClosed : ∀ t, (s.th t).pc = .pass → s.chunkEnd = chunkAt z.cfg (s.closed.length + 1) - 1
  chunks : s.closed = (List.range s.closed.length).map fun g => (g % z.cfg.n, g / z.cfg.n)
  pre : stream z det s.closed.length <+: s.submitted
  ok : s.aborted = false

theorem Inv.current {z : Geo} {det} {s : Sys} (h : Inv z det s) (ha : Sane z) {t : Nat} (ht : s.holder = t) :
    t < z.cfg.n ∧ nofClosed s t * z.cfg.n + t = s.closed.length := by
  have h2 := h.holder
  rw [ht] at h2
  have hn := ha.al.n
  have ht' : t < z.cfg.n := by rw [h2]; exact Nat.mod_lt _ (by omega)
  exact ⟨ht', mul_window h2 _ (h.lo t ht') (h.hi t ht') rfl⟩

theorem set_th (s : Sys) (t : Nat) (x : Thread) (u : Nat) :
    (s.set t x).th u = if u = t then x else s.th u := by
  simp [Sys.set, Function.update_apply]

/-- A thread without the baton moves on. -/
theorem inv_move {z : Geo} {det} {s : Sys} (h : Inv z det s) {t : Nat} {x : Thread} (ht : t < z.cfg.n)
    (hb : hasBaton (s.th t).pc = false) (hx : hasBaton x.pc = false) (hl : Local z det t (nofClosed s t) x) :
    Inv z det (s.set t x) := by
  have hp : (s.th t).pc ≠ .pass := by intro e; rw [e] at hb; simp [hasBaton] at hb
  have hxp : x.pc ≠ .pass := by intro e; rw [e] at hx; simp [hasBaton] at hx
  refine ⟨?_, ?_, h.holder, h.lo, h.hi, ?_, ?_, ?_, ?_, ?_, h.chunks, h.pre, h.ok⟩
  · intro u hu
    rw [set_th] at hu
    split at hu
    · rename_i e; rw [e]; exact ht
    · exact h.lt u hu
  · intro u hu
    rw [set_th] at hu
    split at hu
    · rw [hx] at hu; cases hu
    · exact h.has u hu
  · intro u hu
    rw [set_th]
    split
    · rename_i e; rw [e]; exact hl
    · exact h.loc u hu
  · intro hall
    apply h.idle
    intro u
    have := hall u
    rw [set_th] at this
    split at this
    · rename_i e; rw [e]; exact hb
    · exact this
  · intro u hu
    rw [set_th] at hu ⊢
    split at hu
    · rw [hx] at hu; cases hu
    · rename_i e; rw [if_neg e]; exact h.busy u hu
  · intro hall
    apply h.endOpen
    intro u
    have := hall u
    rw [set_th] at this
    split at this
    · rename_i e; rw [e]; exact hp
    · exact this
  · intro u hu
    rw [set_th] at hu
    split at hu
    · exact absurd hu hxp
    · exact h.endClosed u hu

/-- The thread which may take the baton, or has it, moves on, submits something perhaps, and has the baton afterwards. -/
theorem inv_hold {z : Geo} {det} {s s' : Sys} (h : Inv z det s) {t : Nat} {x : Thread} (hh : s.holder = t)
    (ha : Sane z) (hp : (s.th t).pc ≠ .pass) (hx : hasBaton x.pc = true) (hxp : x.pc ≠ .pass)
    (hl : Local z det t (nofClosed s t) x)
    (hth : s'.th = Function.update s.th t x) (hho : s'.holder = s.holder) (hcl : s'.closed = s.closed)
    (hm : s.submitted <+: s'.submitted) (hce : s'.chunkEnd = s.chunkEnd) (hab : s'.aborted = s.aborted)
    (hsub : s'.submitted ++ rest x.pc = stream z det s.closed.length ++ foundUpTo det s.closed.length x.i) :
    Inv z det s' := by
  have ht := (h.current ha hh).1
  have hth' : ∀ u, s'.th u = if u = t then x else s.th u := by intro u; rw [hth, Function.update_apply]
  have hnc : ∀ u, nofClosed s' u = nofClosed s u := by intro u; unfold nofClosed; rw [hcl]
  refine ⟨?_, ?_, by rw [hho, hcl]; exact h.holder, ?_, ?_, ?_, ?_, ?_, ?_, ?_, by rw [hcl]; exact h.chunks,
    by rw [hcl]; exact h.pre.trans hm, by rw [hab]; exact h.ok⟩
  · intro u hu
    rw [hth'] at hu
    split at hu
    · rename_i e; rw [e]; exact ht
    · exact h.lt u hu
  · intro u hu
    rw [hho]
    rw [hth'] at hu
    split at hu
    · rename_i e; rw [e]; exact hh
    · exact h.has u hu
  · intro u hu; rw [hnc, hcl]; exact h.lo u hu
  · intro u hu; rw [hnc, hcl]; exact h.hi u hu
  · intro u hu
    rw [hth', hnc]
    split
    · rename_i e; rw [e]; exact hl
    · exact h.loc u hu
  · intro hall
    have := hall t
    rw [hth', if_pos rfl, hx] at this
    cases this
  · intro u hu
    rw [hth'] at hu ⊢
    rw [hcl]
    split at hu
    · rename_i e; rw [if_pos e]; exact hsub
    · rename_i e
      have := h.has u hu
      omega
  · intro hall
    rw [hce, hcl]
    apply h.endOpen
    intro u
    have := hall u
    rw [hth'] at this
    split at this
    · rename_i e; rw [e]; exact hp
    · exact this
  · intro u hu
    rw [hth'] at hu
    split at hu
    · exact absurd hu hxp
    · rename_i e
      have := h.has u (by rw [hu]; rfl)
      omega

theorem Inv.noPass {z : Geo} {det} {s : Sys} (h : Inv z det s) {t : Nat} (ht : s.holder = t)
    (hp : (s.th t).pc ≠ .pass) (u : Nat) : (s.th u).pc ≠ .pass := by
  intro e
  have h2 := h.has u (by rw [e]; rfl)
  have : u = t := by omega
  rw [this] at e
  exact hp e

/-- The check of the chunk times never fails. -/
theorem Inv.contiguous {z : Geo} {det} {s : Sys} (h : Inv z det s) (ha : Sane z) {t : Nat}
    (ht : (s.th t).pc = .close) :
    ¬ (s.chunkEnd < Verif.Adt.int64Max ∧ z.cfg.chunkStart t (s.th t).k - s.chunkEnd ≠ 1) := by
  have hh := h.has t (by rw [ht]; rfl)
  obtain ⟨hl, hk⟩ := h.current ha hh
  have hloc := h.loc t hl
  simp only [Local, ht] at hloc
  rw [h.endOpen (h.noPass hh (by simp [ht])), chunkStart_eq ha.al hl, hloc.2.1, hk]
  split <;> omega

theorem nofClosed_append (s : Sys) (t k u : Nat) (x : Nat → Thread) (h e sl sub j a) :
    nofClosed ⟨x, h, e, sl, sub, j, s.closed ++ [(t, k)], a⟩ u = nofClosed s u + if u = t then 1 else 0 := by
  unfold nofClosed
  simp only [List.filter_append, List.length_append]
  by_cases hu : u = t
  · simp [hu]
  · simp [hu, Ne.symm hu]

theorem inv_init {z : Geo} {det} (ha : Sane z) : Inv z det init := by
  have hn := ha.al.n
  refine ⟨?_, ?_, ?_, ?_, ?_, ?_, ?_, ?_, ?_, ?_, rfl, by simp [init, stream], rfl⟩
  · intro t h; simp [init] at h
  · intro t h; simp [init, hasBaton] at h
  · simp [init]
  · intro t _; simp [init]
  · intro t ht; simp [init, nofClosed]; omega
  · intro t _; simp [init, Local, nofClosed]
  · intro _; simp [init, stream]
  · intro t h; simp [init, hasBaton] at h
  · intro _; simp [init]
  · intro t h; simp [init] at h

theorem inv_step {z : Geo} {det} (ha : Sane z) (hd : z.cfg.n = 1 ∨ LastStepEmpty z det) {s s' : Sys}
    (h : Inv z det s) (hs : Step z det s s') : Inv z det s' := by
  have hpos := nofSteps_pos ha
  cases hs with
  | call t b ht hp =>
    have hloc := h.loc t ht
    cases b with
    | true =>
      simp only [Local, hp] at hloc
      refine inv_move h ht (by rw [hp]; rfl) ?_ ?_
      · unfold enter; split <;> rfl
      · unfold enter
        rcases hloc with ⟨hi, (⟨hb, hk⟩ | ⟨hk, hlt, hb⟩)⟩
        · rcases hk with ⟨hk, h0⟩ | ⟨hk, hN⟩
          · rw [if_neg (by rw [complete_iff ha]; omega)]
            simp [Local, hk, h0, hb]
          · rw [if_pos (by rw [complete_iff ha]; omega)]
            simp [Local, hk, hb]
        · rw [if_neg (by rw [complete_iff ha]; omega)]
          simp only [Local]
          exact ⟨hi, hk, hb⟩
    | false =>
      simp only [Local, hp] at hloc
      have hh := h.has t (by rw [hp]; rfl)
      have hbusy := h.busy t (by rw [hp]; rfl)
      simp only [rest, hp] at hbusy
      refine inv_hold (x := enter z (s.th t) false) h hh ha (by simp [hp]) ?_ ?_ ?_ rfl rfl rfl (by simp [Sys.set]) rfl rfl ?_
      all_goals
        unfold enter
        rw [if_neg (by rw [complete_iff ha]; omega)]
      · rfl
      · simp
      · simp only [Local]; exact ⟨hloc.1, hloc.2.1⟩
      · simpa [Sys.set, rest] using hbusy
  | stepNone t b hp hc hdet =>
    have ht := h.lt t (by cases b <;> simp [hp])
    have hloc := h.loc t ht
    have hc' : (s.th t).i < nofSteps z := by
      by_contra hcon
      have := (complete_iff ha (s.th t).i).2 (by omega)
      rw [this] at hc; cases hc
    cases b with
    | true =>
      simp only [Local, hp] at hloc
      refine inv_move h ht (by rw [hp]; rfl) (by rw [hp]; rfl) ?_
      simp only [Local, hp]
      exact ⟨by omega, hloc.2.1, by rw [foundUpTo_succ_none hdet]; exact hloc.2.2⟩
    | false =>
      simp only [Local, hp] at hloc
      have hh := h.has t (by rw [hp]; rfl)
      have hcur := (h.current ha hh).2
      have hbusy := h.busy t (by rw [hp]; rfl)
      simp only [rest, hp] at hbusy
      refine inv_hold (x := { s.th t with i := (s.th t).i + 1 }) h hh ha (by simp [hp]) (by simp [hp, hasBaton]) (by simp [hp]) ?_ rfl rfl rfl (by simp [Sys.set]) rfl rfl ?_
      · simp only [Local, hp]; exact ⟨by omega, hloc.2⟩
      · have : z.chunk t (s.th t).k = s.closed.length := by rw [hloc.2, ← hcur]; rfl
        rw [this] at hdet
        simp only [Sys.set, rest, hp]
        rw [foundUpTo_succ_none hdet]
        exact hbusy
  | stepFound t b r hp hc hdet =>
    have ht := h.lt t (by cases b <;> simp [hp])
    have hloc := h.loc t ht
    have hc' : (s.th t).i < nofSteps z := by
      by_contra hcon
      have := (complete_iff ha (s.th t).i).2 (by omega)
      rw [this] at hc; cases hc
    have hlast : z.cfg.n = 1 ∨ (s.th t).i + 1 < nofSteps z := by
      rcases hd with hd | hd
      · exact Or.inl hd
      · right
        by_contra hcon
        have e : (s.th t).i + 1 = nofSteps z := by omega
        rw [e, hd] at hdet; cases hdet
    cases b with
    | true =>
      simp only [Local, hp] at hloc
      refine inv_move h ht (by rw [hp]; rfl) (by simp [hasBaton]) ?_
      simp only [Local, if_true]
      exact ⟨by omega, hloc.2.1, by rw [foundUpTo_succ_some hdet, hloc.2.2], hlast⟩
    | false =>
      simp only [Local, hp] at hloc
      have hh := h.has t (by rw [hp]; rfl)
      have hcur := (h.current ha hh).2
      have hbusy := h.busy t (by rw [hp]; rfl)
      simp only [rest, hp] at hbusy
      refine inv_hold (x := { s.th t with i := (s.th t).i + 1, pc := .emit (some r) }) h hh ha (by simp [hp]) rfl
        (by simp) ?_ (by simp [Sys.set]) rfl rfl (by simp [Sys.set]) rfl rfl ?_
      · simp only [Local]; exact ⟨by omega, hloc.2, by simp⟩
      · have : z.chunk t (s.th t).k = s.closed.length := by rw [hloc.2, ← hcur]; rfl
        rw [this] at hdet
        simp only [Sys.set, rest]
        rw [foundUpTo_succ_some hdet, ← List.append_assoc, ← hbusy]
        simp
  | finish t b hp hc =>
    have ht := h.lt t (by cases b <;> simp [hp])
    have hloc := h.loc t ht
    rw [complete_iff ha] at hc
    cases b with
    | true =>
      simp only [Local, hp] at hloc
      refine inv_move h ht (by rw [hp]; rfl) (by simp [hasBaton]) ?_
      simp only [Local, if_true]
      exact ⟨hloc.1, hloc.2.1, by simpa using hloc.2.2, fun _ => by omega⟩
    | false =>
      simp only [Local, hp] at hloc
      have hh := h.has t (by rw [hp]; rfl)
      have hbusy := h.busy t (by rw [hp]; rfl)
      simp only [rest, hp] at hbusy
      refine inv_hold (x := { s.th t with pc := .emit none }) h hh ha (by simp [hp]) rfl
        (by simp) ?_ (by simp [Sys.set]) rfl rfl (by simp [Sys.set]) rfl rfl ?_
      · simp only [Local]; exact ⟨hloc.1, hloc.2, fun _ => by omega⟩
      · simpa [Sys.set, rest] using hbusy
  | gotHolder t r hp hh =>
    have ht := h.lt t (by simp [hp])
    have hloc := h.loc t ht
    simp only [Local, hp] at hloc
    refine inv_move h ht (by rw [hp]; rfl) rfl ?_
    simp only [Local]
    exact ⟨hloc.1, hloc.2.1, by simpa using hloc.2.2.1, by simp⟩
  | gotBuffer t r hp hh hl =>
    have ht := h.lt t (by simp [hp])
    have hloc := h.loc t ht
    simp only [Local, hp] at hloc
    have hlt : (s.th t).i < nofSteps z := by
      rcases hloc.2.2.2 with h1 | h1
      · exfalso
        have := h.holder
        rw [h1, Nat.mod_one] at this
        omega
      · exact h1
    refine inv_move h ht (by rw [hp]; rfl) rfl ?_
    simp only [Local]
    exact ⟨hloc.1, Or.inr ⟨hloc.2.1, hlt, hloc.2.2.1⟩⟩
  | gotFull t r hp hh hl =>
    have ht := h.lt t (by simp [hp])
    have hloc := h.loc t ht
    simp only [Local, hp] at hloc
    refine inv_move h ht (by rw [hp]; rfl) rfl ?_
    simp only [Local]
    exact ⟨hloc.1, hloc.2.1, by simpa using hloc.2.2.1, by simp⟩
  | acquire t opt hp hh =>
    have hcur := h.current ha hh
    have hloc := h.loc t hcur.1
    simp only [Local, hp] at hloc
    have hidle : s.submitted = stream z det s.closed.length := by
      apply h.idle
      intro u
      by_contra hcon
      rw [Bool.not_eq_false] at hcon
      have h2 := h.has u hcon
      have : u = t := by omega
      rw [this, hp] at hcon
      simp [hasBaton] at hcon
    refine inv_hold (x := { s.th t with pc := .flush (s.th t).buf opt }) h hh ha (by simp [hp]) rfl
      (by simp) ?_ (by simp [Sys.set]) rfl rfl (by simp [Sys.set]) rfl rfl ?_
    · simp only [Local]; exact ⟨hloc.1, hloc.2.1, hloc.2.2.2⟩
    · have : z.chunk t (s.th t).k = s.closed.length := by rw [hloc.2.1, ← hcur.2]; rfl
      simp only [Sys.set, rest]
      rw [hloc.2.2.1, hidle, this]
  | flush t r l opt hp =>
    have hh := h.has t (by rw [hp]; rfl)
    have hcur := h.current ha hh
    have hloc := h.loc t hcur.1
    simp only [Local, hp] at hloc
    have hbusy := h.busy t (by rw [hp]; rfl)
    simp only [rest, hp] at hbusy
    refine inv_hold (x := { s.th t with pc := .flush l opt }) h hh ha (by simp [hp]) rfl
      (by simp) ?_ (by simp [Sys.set, enqueue]) rfl rfl (by simp [Sys.set, enqueue]) rfl rfl ?_
    · simp only [Local]; exact hloc
    · simpa [Sys.set, enqueue, rest] using hbusy
  | flushed t opt hp =>
    have hh := h.has t (by rw [hp]; rfl)
    have hcur := h.current ha hh
    have hloc := h.loc t hcur.1
    simp only [Local, hp] at hloc
    have hbusy := h.busy t (by rw [hp]; rfl)
    simp only [rest, hp] at hbusy
    refine inv_hold (x := { s.th t with pc := .emit opt }) h hh ha (by simp [hp]) rfl
      (by simp) ?_ (by simp [Sys.set]) rfl rfl (by simp [Sys.set]) rfl rfl ?_
    · simp only [Local]; exact hloc
    · simpa [Sys.set, rest] using hbusy
  | emitSome t r hp =>
    have hh := h.has t (by rw [hp]; rfl)
    have hcur := h.current ha hh
    have hloc := h.loc t hcur.1
    simp only [Local, hp] at hloc
    have hbusy := h.busy t (by rw [hp]; rfl)
    simp only [rest, hp] at hbusy
    by_cases hc : z.complete (s.th t).i = true
    · have hc' := (complete_iff ha _).1 hc
      refine inv_hold (x := { s.th t with pc := .close }) h hh ha (by simp [hp]) rfl
        (by simp) ?_ (by simp [Sys.set, enqueue, hc]) rfl rfl (by simp [Sys.set, enqueue]) rfl rfl ?_
      · simp only [Local]; exact ⟨hloc.1, hloc.2.1, by omega⟩
      · simpa [Sys.set, enqueue, rest] using hbusy
    · have hc' := mt (complete_iff ha _).2 hc
      refine inv_hold (x := { s.th t with pc := .call false }) h hh ha (by simp [hp]) rfl
        (by simp) ?_ (by simp [Sys.set, enqueue, hc]) rfl rfl (by simp [Sys.set, enqueue]) rfl rfl ?_
      · simp only [Local]; exact ⟨hloc.1, hloc.2.1, by omega⟩
      · simpa [Sys.set, enqueue, rest] using hbusy
  | emitNone t hp =>
    have hh := h.has t (by rw [hp]; rfl)
    have hcur := h.current ha hh
    have hloc := h.loc t hcur.1
    simp only [Local, hp] at hloc
    have hbusy := h.busy t (by rw [hp]; rfl)
    simp only [rest, hp] at hbusy
    have hN := hloc.2.2 trivial
    have hc : z.complete (s.th t).i = true := (complete_iff ha _).2 (by omega)
    refine inv_hold (x := { s.th t with pc := .close }) h hh ha (by simp [hp]) rfl
      (by simp) ?_ (by simp [Sys.set, hc]) rfl rfl (by simp [Sys.set]) rfl rfl ?_
    · simp only [Local]; exact ⟨hloc.1, hloc.2.1, hN⟩
    · simpa [Sys.set, rest] using hbusy
  | close t hp hc =>
    have hh := h.has t (by rw [hp]; rfl)
    have hcur := h.current ha hh
    have hloc := h.loc t hcur.1
    simp only [Local, hp] at hloc
    have hbusy := h.busy t (by rw [hp]; rfl)
    simp only [rest, hp] at hbusy
    refine ⟨?_, ?_, h.holder, h.lo, h.hi, ?_, ?_, ?_, ?_, ?_, h.chunks, h.pre, h.ok⟩
    · intro u hu
      change ((s.set t _).th u).pc ≠ _ at hu
      rw [set_th] at hu
      split at hu
      · rename_i e; rw [e]; exact hcur.1
      · exact h.lt u hu
    · intro u hu
      change hasBaton ((s.set t _).th u).pc = _ at hu
      rw [set_th] at hu
      split at hu
      · rename_i e; rw [e]; exact hh
      · exact h.has u hu
    · intro u hu
      show Local z det u (nofClosed s u) ((s.set t _).th u)
      rw [set_th]
      split
      · rename_i e; rw [e]; simp only [Local]; exact hloc
      · exact h.loc u hu
    · intro hall
      have := hall t
      change hasBaton ((s.set t _).th t).pc = _ at this
      rw [set_th, if_pos rfl] at this
      cases this
    · intro u hu
      change hasBaton ((s.set t _).th u).pc = _ at hu
      show s.submitted ++ rest ((s.set t _).th u).pc = _ ++ foundUpTo det _ ((s.set t _).th u).i
      rw [set_th] at hu ⊢
      split at hu
      · rename_i e; rw [if_pos e]; simpa [rest, Sys.set] using hbusy
      · have := h.has u hu
        omega
    · intro hall
      have := hall t
      change ((s.set t _).th t).pc ≠ _ at this
      rw [set_th, if_pos rfl] at this
      exact absurd rfl this
    · intro u hu
      show z.cfg.chunkEnd t (s.th t).k = chunkAt z.cfg (s.closed.length + 1) - 1
      unfold Verif.Phy.Baton.Cfg.chunkEnd
      rw [chunkStart_eq ha.al hcur.1, hloc.2.1, hcur.2]
      unfold chunkAt
      push_cast
      ring
  | closeFail t hp hc => exact absurd hc (h.contiguous ha hp)
  | pass t hp hh =>
    have hcur := h.current ha hh
    have hloc := h.loc t hcur.1
    simp only [Local, hp] at hloc
    have hbusy := h.busy t (by rw [hp]; rfl)
    simp only [rest, hp, List.append_nil] at hbusy
    have hn := ha.al.n
    have hnc : ∀ u, nofClosed { s.set t { s.th t with pc := .call true, buf := [] } with
        holder := (s.holder + 1) % z.cfg.n, closed := s.closed ++ [(t, (s.th t).k)] } u =
        nofClosed s u + if u = t then 1 else 0 := by
      intro u; exact nofClosed_append s t _ u _ _ _ _ _ _ _
    have hnone : ∀ u, u ≠ t → hasBaton (s.th u).pc = false := by
      intro u hu
      by_contra hcon
      rw [Bool.not_eq_false] at hcon
      have := h.has u hcon
      omega
    have hsub : s.submitted = stream z det (s.closed.length + 1) := by
      rw [stream_succ, hbusy, hloc.2.2]; rfl
    refine ⟨?_, ?_, ?_, ?_, ?_, ?_, ?_, ?_, ?_, ?_, ?_, ?_, h.ok⟩
    · intro u hu
      change ((s.set t _).th u).pc ≠ _ at hu
      rw [set_th] at hu
      split at hu
      · rename_i e; rw [e]; exact hcur.1
      · exact h.lt u hu
    · intro u hu
      change hasBaton ((s.set t _).th u).pc = _ at hu
      rw [set_th] at hu
      split at hu
      · cases hu
      · rename_i e
        rw [hnone u e] at hu; cases hu
    · simp only [List.length_append, List.length_singleton]
      rw [h.holder, Nat.mod_add_mod]
    · intro u hu
      rw [hnc]
      simp only [List.length_append, List.length_singleton]
      have h1 := h.lo u hu
      by_cases e : u = t
      · rw [if_pos e, e, Nat.add_mul]; omega
      · rw [if_neg e]
        have : nofClosed s u * z.cfg.n + u ≠ s.closed.length := by
          intro e2
          have h3 : u = s.closed.length % z.cfg.n := by
            rw [← e2, Nat.mul_comm, Nat.mul_add_mod, Nat.mod_eq_of_lt hu]
          have h4 := h.holder
          omega
        show _ ≤ nofClosed s u * z.cfg.n + u
        omega
    · intro u hu
      rw [hnc]
      simp only [List.length_append, List.length_singleton]
      have h1 := h.hi u hu
      by_cases e : u = t
      · rw [if_pos e, e, Nat.add_mul]; omega
      · rw [if_neg e, Nat.add_zero]; omega
    · intro u hu
      rw [hnc]
      show Local z det u _ ((s.set t _).th u)
      rw [set_th]
      split
      · rename_i e
        simp only [Local]
        exact ⟨hloc.1, Or.inl ⟨trivial, Or.inr ⟨by rw [hloc.2.1, e], hloc.2.2⟩⟩⟩
      · exact h.loc u hu
    · intro _
      show s.submitted = _
      simp only [List.length_append, List.length_singleton]
      exact hsub
    · intro u hu
      change hasBaton ((s.set t _).th u).pc = _ at hu
      rw [set_th] at hu
      split at hu
      · cases hu
      · rename_i e
        rw [hnone u e] at hu; cases hu
    · intro _
      simp only [List.length_append, List.length_singleton]
      rw [if_neg (by omega)]
      exact h.endClosed t hp
    · intro u hu
      change ((s.set t _).th u).pc = _ at hu
      rw [set_th] at hu
      split at hu
      · cases hu
      · rename_i e
        have := hnone u e
        rw [hu] at this; cases this
    · simp only [List.length_append, List.length_singleton, List.range_succ, List.map_append, List.map_cons, List.map_nil]
      rw [← h.chunks]
      congr 2
      rw [hloc.2.1, ← hcur.2, Nat.mul_comm, Nat.mul_add_mod, Nat.mod_eq_of_lt hcur.1,
        Nat.mul_add_div (by omega), Nat.div_eq_of_lt hcur.1, Nat.add_zero]
    · show _ <+: s.submitted
      simp only [List.length_append, List.length_singleton]
      rw [hsub]
      exact List.prefix_refl _
  | passFail t hp hh => exact absurd (h.has t (by rw [hp]; rfl)) hh

theorem inv_reach {z : Geo} {det} (ha : Sane z) (hd : z.cfg.n = 1 ∨ LastStepEmpty z det) {s : Sys}
    (h : Reach z det s) : Inv z det s := by
  induction h with
  | init => exact inv_init ha
  | step _ st ih => exact inv_step ha hd ih st

/-! ## The theorems -/

/-- **C64** (partial: for one thread, or if no search finds a packet in the very last step of a chunk). Nothing is
aborted; the chunks are closed one after the other, the `g`-th one by thread `g mod n`; what has been submitted is
what is found in the closed chunks, followed by the beginning of what is found in the next one: every packet of a
closed chunk has been submitted, exactly once and in order. -/
theorem C64_order_partial {z : Geo} {det} (ha : Sane z) (hd : z.cfg.n = 1 ∨ LastStepEmpty z det) {s : Sys}
    (h : Reach z det s) :
    s.aborted = false ∧ s.closed = (List.range s.closed.length).map (fun g => (g % z.cfg.n, g / z.cfg.n)) ∧
    stream z det s.closed.length <+: s.submitted ∧ s.submitted <+: stream z det (s.closed.length + 1) := by
  have hi := inv_reach ha hd h
  refine ⟨hi.ok, hi.chunks, ?_⟩
  rw [stream_succ]
  by_cases hb : ∃ t, hasBaton (s.th t).pc = true
  · obtain ⟨t, hb⟩ := hb
    have hcur := hi.current ha (hi.has t hb)
    have hbusy := hi.busy t hb
    have hloc := hi.loc t hcur.1
    have hpre : foundUpTo det s.closed.length (s.th t).i <+: found z det s.closed.length := by
      unfold found foundUpTo
      have e : nofSteps z = (s.th t).i + (nofSteps z - (s.th t).i) := by have := hloc.1; omega
      rw [e, List.range_add, List.filterMap_append]
      exact List.prefix_append _ _
    refine ⟨hi.pre, ?_⟩
    refine List.IsPrefix.trans ⟨_, hbusy⟩ ?_
    exact (List.prefix_append_right_inj _).2 hpre
  · have : s.submitted = stream z det s.closed.length := by
      apply hi.idle
      intro t
      by_contra hcon
      rw [Bool.not_eq_false] at hcon
      exact hb ⟨t, hcon⟩
    rw [this]
    exact ⟨List.prefix_refl _, List.prefix_append _ _⟩

theorem takeUnique_append (limit last r : Int) (l : List Int) :
    takeUnique limit last (l ++ [r]) = takeUnique limit last l ++
      if limit < r - (takeUnique limit last l).getLastD last then [r] else [] := by
  induction l generalizing last with
  | nil => simp [takeUnique]
  | cons x l ih =>
    simp only [List.cons_append, takeUnique]
    split
    · rw [ih, List.cons_append, List.getLastD_cons]
    · rw [ih]

theorem jobs_reach {z : Geo} {det} {s : Sys} (h : Reach z det s) :
    s.jobs = takeUnique z.cfg.limit undefinedEarly s.submitted ∧ s.syncLast = s.jobs.getLastD undefinedEarly := by
  have key : ∀ (s : Sys) (r : Int),
      s.jobs = takeUnique z.cfg.limit undefinedEarly s.submitted ∧ s.syncLast = s.jobs.getLastD undefinedEarly →
      (enqueue z.cfg.limit s r).jobs = takeUnique z.cfg.limit undefinedEarly (enqueue z.cfg.limit s r).submitted ∧
      (enqueue z.cfg.limit s r).syncLast = (enqueue z.cfg.limit s r).jobs.getLastD undefinedEarly := by
    intro s r ⟨h1, h2⟩
    simp only [enqueue, takeUnique_append, ← h1, ← h2, syncTimeUnique]
    split <;> simp_all
  induction h with
  | init => simp [init, takeUnique]
  | step _ st ih =>
    cases st with
    | flush t r l opt hp => exact key _ r ih
    | emitSome t r hp => exact key _ r ih
    | _ => exact ih

theorem takeUnique_pairwise {limit : Int} (hl : 0 ≤ limit) (last : Int) (l : List Int) :
    (∀ r ∈ takeUnique limit last l, last + limit < r) ∧ (takeUnique limit last l).Pairwise (fun a b => a + limit < b) := by
  induction l generalizing last with
  | nil => simp [takeUnique]
  | cons x l ih =>
    simp only [takeUnique]
    split
    · have := ih x
      refine ⟨?_, ?_⟩
      · intro r hr
        rcases List.mem_cons.1 hr with rfl | hr
        · omega
        · have := this.1 r hr; omega
      · exact List.pairwise_cons.2 ⟨this.1, this.2⟩
    · exact ih last

/-- **C64** The packet jobs in the queue are those of the submitted packets which are later than the job before by
more than the limit: of several detections of the same packet only the first one makes a job. -/
theorem C64_jobs {z : Geo} {det} {s : Sys} (hl : 0 ≤ z.cfg.limit) (h : Reach z det s) :
    s.jobs = takeUnique z.cfg.limit undefinedEarly s.submitted ∧
    s.jobs.Pairwise (fun a b => a + z.cfg.limit < b) := by
  have := (jobs_reach h).1
  exact ⟨this, by rw [this]; exact (takeUnique_pairwise hl _ _).2⟩

/-! ## Finding -/

/-- Two threads, chunks of 10 samples, two steps per chunk -/
def demo : Geo := ⟨⟨2, 0, 10, 1, 0⟩, 1, 1, 3⟩

theorem demo_sane : Sane demo := ⟨⟨by decide, by decide, by decide, by decide, by decide⟩, by decide, by decide⟩

/-- One packet, found by the last step in the second chunk -/
def lastStep (g i : Nat) : Option Int := if g = 1 ∧ i = 2 then some 15 else none

/-- **C64** (finding). `search()` returns a packet found in the very last step of a chunk, without telling that the
chunk is complete. A thread without the baton buffers the report and calls `search()` again (worker_sync.cpp:127-157
does not look at `is_chunk_completely_processed`), which moves to the next chunk of the thread although the current
one has neither been submitted nor closed. When the thread has got the baton and closes, the times of the chunks are
not continuous, and the program is aborted. -/
theorem C64_last_step_finding : ∃ s, Reach demo lastStep s ∧ s.aborted = true := by
  -- thread 1 searches its chunk and finds the packet in the last step
  have r := Reach.step (Reach.init (z := demo) (det := lastStep)) (.call _ 1 true (by decide) rfl)
  have r := Reach.step r (.stepNone _ 1 true rfl rfl rfl)
  have r := Reach.step r (.stepFound _ 1 true 15 rfl rfl rfl)
  -- it has not got the baton, and searches on
  have r := Reach.step r (.gotBuffer _ 1 15 rfl (by decide) (by decide))
  have r := Reach.step r (.call _ 1 true (by decide) rfl)
  -- thread 0 finishes the chunk before
  have r := Reach.step r (.call _ 0 true (by decide) rfl)
  have r := Reach.step r (.stepNone _ 0 true rfl rfl rfl)
  have r := Reach.step r (.stepNone _ 0 true rfl rfl rfl)
  have r := Reach.step r (.finish _ 0 true rfl rfl)
  have r := Reach.step r (.acquire _ 0 none rfl rfl)
  have r := Reach.step r (.flushed _ 0 none rfl)
  have r := Reach.step r (.emitNone _ 0 rfl)
  have r := Reach.step r (.close _ 0 rfl (by decide))
  have r := Reach.step r (.pass _ 0 rfl rfl)
  -- thread 1 is in the wrong chunk
  have r := Reach.step r (.stepNone _ 1 true rfl rfl rfl)
  have r := Reach.step r (.stepNone _ 1 true rfl rfl rfl)
  have r := Reach.step r (.finish _ 1 true rfl rfl)
  have r := Reach.step r (.acquire _ 1 none rfl rfl)
  have r := Reach.step r (.flush _ 1 15 [] none rfl)
  have r := Reach.step r (.flushed _ 1 none rfl)
  have r := Reach.step r (.emitNone _ 1 rfl)
  have r := Reach.step r (.closeFail _ 1 rfl (by decide))
  exact ⟨_, r, rfl⟩

/-- A packet found by the first step in the second chunk -/
def firstStep (g i : Nat) : Option Int := if g = 1 ∧ i = 1 then some 15 else none

example : Sane demo ∧ LastStepEmpty demo firstStep :=
  ⟨demo_sane, fun g => by have : nofSteps demo = 2 := by decide
                          simp [firstStep, this]⟩

/-- The packet is buffered and submitted after the chunk before has been closed. -/
example : ∃ s, Reach demo firstStep s ∧ s.closed = [(0, 0), (1, 0)] ∧ s.submitted = [15] ∧ s.jobs = [15] := by
  have r := Reach.step (Reach.init (z := demo) (det := firstStep)) (.call _ 1 true (by decide) rfl)
  have r := Reach.step r (.stepFound _ 1 true 15 rfl rfl rfl)
  have r := Reach.step r (.gotBuffer _ 1 15 rfl (by decide) (by decide))
  have r := Reach.step r (.call _ 1 true (by decide) rfl)
  have r := Reach.step r (.call _ 0 true (by decide) rfl)
  have r := Reach.step r (.stepNone _ 0 true rfl rfl rfl)
  have r := Reach.step r (.stepNone _ 0 true rfl rfl rfl)
  have r := Reach.step r (.finish _ 0 true rfl rfl)
  have r := Reach.step r (.acquire _ 0 none rfl rfl)
  have r := Reach.step r (.flushed _ 0 none rfl)
  have r := Reach.step r (.emitNone _ 0 rfl)
  have r := Reach.step r (.close _ 0 rfl (by decide))
  have r := Reach.step r (.pass _ 0 rfl rfl)
  have r := Reach.step r (.stepNone _ 1 true rfl rfl rfl)
  have r := Reach.step r (.finish _ 1 true rfl rfl)
  have r := Reach.step r (.acquire _ 1 none rfl rfl)
  have r := Reach.step r (.flush _ 1 15 [] none rfl)
  have r := Reach.step r (.flushed _ 1 none rfl)
  have r := Reach.step r (.emitNone _ 1 rfl)
  have r := Reach.step r (.close _ 1 rfl (by decide))
  have r := Reach.step r (.pass _ 1 rfl rfl)
  exact ⟨_, r, by decide, by decide, by decide⟩

end Verif.Phy.SyncWorker
