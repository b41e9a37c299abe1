import Verif.Model.RxPacer
import Verif.Props.C47_Resampler
import Mathlib.Data.Nat.ModEq

set_option linter.unusedSimpArgs false

/-!
# C23: The RX pacer delivers contiguous samples without overrunning its buffer

`x t` is the received sample of time `t`. The condition on the ring buffer, that the samples of a unit are at their
time index while the unit is read, is C22_window for a pacer that does not lag behind by more than the ring length.
-/

namespace Verif.Phy.RxPacer

variable {α β : Type}

/-- While the unit of time `t0` is read, its samples are in the ring buffer. -/
def Ring (c : Par) (mem : Nat → Nat → α) (x : Nat → α) : Prop :=
  ∀ t0 t, t0 ≤ t → t < t0 + c.U → mem t0 (t % c.L) = x t

theorem unit_le {c : Par} (hc : c.Ok) : c.U ≤ c.L := Nat.le_of_dvd hc.2.1 (Nat.dvd_of_mod_eq_zero hc.2.2)

theorem idx_add {L t j : Nat} (hj : j < L) : (t + j) % L = if t % L + j < L then t % L + j else t % L + j - L := by
  by_cases hL : L = 0
  · omega
  have h := Nat.mod_lt t (Nat.pos_of_ne_zero hL)
  rw [Nat.add_mod, Nat.mod_eq_of_lt hj]
  split
  · rename_i h1; exact Nat.mod_eq_of_lt h1
  · rw [Nat.mod_eq_sub_mod (by omega)]; exact Nat.mod_eq_of_lt (by omega)

/-- Local buffer: `cntW` consecutive samples from time `T` on. -/
structure Good (c : Par) (x : Nat → α) (T size : Nat) (lb : Lb α) : Prop where
  time : lb.time = T + lb.cntW
  mult : lb.cntW % c.U = 0
  buf : ∀ k < lb.cntW, lb.buf k = x (T + k)
  le : lb.cntW ≤ lb.size
  size : lb.size = size

theorem filterUnit_ok {c : Par} (hc : c.Ok) {mem : Nat → Nat → α} {x : Nat → α} (hm : Ring c mem x) {lb : Lb α}
    (hs : lb.cntW + c.U ≤ lb.size) :
    ∃ b, filterUnit c (mem lb.time) lb = .ok b ∧ ∀ k, b k = if lb.cntW ≤ k ∧ k < lb.cntW + c.U then x (lb.time + (k - lb.cntW)) else lb.buf k := by
  have hU := unit_le hc
  obtain ⟨h0, h1, h2⟩ := hc
  have hlt := Nat.mod_lt lb.time h1
  have key : ∀ j < c.U, mem lb.time ((lb.time + j) % c.L) = x (lb.time + j) := fun j hj => hm lb.time _ (by omega) (by omega)
  unfold filterUnit
  simp only
  split
  · rename_i hr
    unfold copy
    rw [if_pos (by omega)]
    refine ⟨_, rfl, fun k => ?_⟩
    by_cases hk : lb.cntW ≤ k ∧ k < lb.cntW + c.U
    · rw [if_pos hk, if_pos hk, ← key _ (by omega), idx_add (by omega), if_pos (by omega)]
    · rw [if_neg hk, if_neg hk]
  · rename_i hr
    unfold copy
    rw [if_pos (by omega), Res.ok_bind, if_pos (by omega)]
    refine ⟨_, rfl, fun k => ?_⟩
    beta_reduce
    by_cases hk : lb.cntW ≤ k ∧ k < lb.cntW + c.U
    · rw [if_pos hk, ← key _ (by omega), idx_add (by omega)]
      by_cases hk2 : k < lb.cntW + (c.L - lb.time % c.L)
      · rw [if_neg (by omega), if_pos (by omega), if_pos (by omega)]
      · rw [if_pos (by omega), if_neg (by omega)]
        congr 1
        omega
    · rw [if_neg hk, if_neg (by omega), if_neg (by omega)]

theorem mult_lt {U a b : Nat} (ha : a % U = 0) (hb : b % U = 0) (h : a < b) : a + U ≤ b := by
  obtain ⟨p, rfl⟩ := Nat.dvd_of_mod_eq_zero ha
  obtain ⟨q, rfl⟩ := Nat.dvd_of_mod_eq_zero hb
  have : p < q := Nat.lt_of_mul_lt_mul_left h
  calc U * p + U = U * (p + 1) := by ring
    _ ≤ U * q := Nat.mul_le_mul_left _ this

theorem filterUntil_ok {c : Par} (hc : c.Ok) {mem : Nat → Nat → α} {x : Nat → α} (hm : Ring c mem x) {T size min : Nat}
    (hsz : size % c.U = 0) (hmin : min ≤ size) : ∀ (d : Nat) (lb : Lb α), min - lb.cntW ≤ d → Good c x T size lb →
    ∃ lb', filterUntil c mem min lb = .ok lb' ∧ Good c x T size lb' ∧ min ≤ lb'.cntW ∧ lb.cntW ≤ lb'.cntW ∧
      (lb.cntW < min → lb'.cntW < min + c.U) ∧ (min ≤ lb.cntW → lb' = lb) := by
  intro d
  induction d with
  | zero =>
    intro lb hd hg
    rw [filterUntil, if_neg (by omega)]
    exact ⟨lb, rfl, hg, by omega, Nat.le_refl _, fun h => by omega, fun _ => rfl⟩
  | succ d ih =>
    intro lb hd hg
    rw [filterUntil]
    by_cases hlt : lb.cntW < min
    · have hs : lb.cntW + c.U ≤ lb.size := mult_lt hg.mult (by rw [hg.size]; exact hsz) (by rw [hg.size]; omega)
      obtain ⟨b, hb1, hb2⟩ := filterUnit_ok hc hm hs
      rw [if_pos ⟨hlt, hc.1⟩, hb1]
      have h0 := hc.1
      have hg' : Good c x T size { lb with buf := b, cntW := lb.cntW + c.U, time := lb.time + c.U } := by
        constructor
        · show lb.time + c.U = T + (lb.cntW + c.U); have := hg.time; omega
        · show (lb.cntW + c.U) % c.U = 0; rw [Nat.add_mod_right]; exact hg.mult
        · intro k hk
          show b k = _
          rw [hb2 k]
          by_cases hk2 : k < lb.cntW
          · rw [if_neg (by omega)]; exact hg.buf k hk2
          · rw [if_pos ⟨by omega, hk⟩, hg.time]
            congr 1
            omega
        · exact hs
        · exact hg.size
      obtain ⟨lb', h1, h2, h3, h4, h5, h6⟩ := ih _ (by show min - (lb.cntW + c.U) ≤ d; omega) hg'
      refine ⟨lb', h1, h2, h3, ?_, fun _ => ?_, fun h => by omega⟩
      · have : lb.cntW + c.U ≤ lb'.cntW := h4
        omega
      · by_cases hx : lb.cntW + c.U < min
        · exact h5 hx
        · rw [h6 (by show min ≤ lb.cntW + c.U; omega)]
          show lb.cntW + c.U < min + c.U
          omega
    · rw [if_neg (by omega)]
      exact ⟨lb, rfl, hg, by omega, Nat.le_refl _, fun h => by omega, fun _ => rfl⟩

/-- For every start time, every announced maximum and every sequence of requests within it, filtering never writes
beyond the local buffer or reads beyond the ring, the local buffer holds the consecutive samples from the
start time on, and each request is served by the smallest sufficient number of whole units. -/
theorem C23_filter {c : Par} (hc : c.Ok) {mem : Nat → Nat → α} {x : Nat → α} (hm : Ring c mem x) (z : α) (max T : Nat)
    {ms : List Nat} (hms : ∀ m ∈ ms, m ≤ max) :
    ∃ lb, filterAll c mem ms (newFilter c z max T) = .ok lb ∧ (∀ k < lb.cntW, lb.buf k = x (T + k)) ∧
      lb.time = T + lb.cntW ∧ lb.cntW ≤ lb.size ∧ lb.cntW % c.U = 0 ∧ (∀ m ∈ ms, m ≤ lb.cntW) ∧
      (lb.cntW = 0 ∨ ∃ m ∈ ms, lb.cntW < m + c.U) := by
  have hU := hc.1
  have hsz : (max + c.U - 1) / c.U * c.U % c.U = 0 := Nat.mul_mod_left _ _
  have hle : max ≤ (max + c.U - 1) / c.U * c.U := by
    have h1 := Nat.div_add_mod (max + c.U - 1) c.U
    have h2 := Nat.mod_lt (max + c.U - 1) hU
    rw [Nat.mul_comm] at h1
    omega
  have main : ∀ (ms : List Nat) (lb : Lb α), (∀ m ∈ ms, m ≤ max) → Good c x T ((max + c.U - 1) / c.U * c.U) lb →
      ∃ lb', filterAll c mem ms lb = .ok lb' ∧ Good c x T ((max + c.U - 1) / c.U * c.U) lb' ∧ lb.cntW ≤ lb'.cntW ∧
        (∀ m ∈ ms, m ≤ lb'.cntW) ∧ (lb'.cntW = lb.cntW ∨ ∃ m ∈ ms, lb'.cntW < m + c.U) := by
    intro ms
    induction ms with
    | nil => intro lb _ hg; exact ⟨lb, rfl, hg, Nat.le_refl _, (fun m hm => by cases hm), Or.inl rfl⟩
    | cons m ms ih =>
      intro lb hms hg
      have hmm := hms m List.mem_cons_self
      obtain ⟨l1, h1, h2, h3, h4, h5, h6⟩ := filterUntil_ok hc hm hsz (by omega : m ≤ _) _ lb (Nat.le_refl _) hg
      obtain ⟨l2, g1, g2, g3, g4, g5⟩ := ih l1 (fun m hm => hms m (List.mem_cons_of_mem _ hm)) h2
      refine ⟨l2, by rw [filterAll, h1, Res.ok_bind, g1], g2, by omega, ?_, ?_⟩
      · intro m' hm'
        rcases List.mem_cons.1 hm' with rfl | hm'
        · omega
        · exact g4 m' hm'
      · rcases g5 with g5 | ⟨m', hm', g5⟩
        · by_cases hlt : lb.cntW < m
          · exact Or.inr ⟨m, List.mem_cons_self, by have := h5 hlt; omega⟩
          · exact Or.inl (by rw [g5, h6 (by omega)])
        · exact Or.inr ⟨m', List.mem_cons_of_mem _ hm', g5⟩
  obtain ⟨lb, h1, h2, h3, h4, h5⟩ := main ms (newFilter c z max T) hms
    ⟨rfl, Nat.zero_mod _, fun k hk => absurd hk (Nat.not_lt_zero _), Nat.zero_le _, rfl⟩
  exact ⟨lb, h1, h2.buf, h2.time, h2.le, h2.mult, h4, h5⟩

/-! ## Resampling -/

/-- The unit which starts at time `t` -/
def unitAt (c : Par) (x : Nat → α) (t : Nat) : List α := (List.range c.U).map (fun k => x (t + k))

theorem unitInput_ok {c : Par} (hc : c.Ok) {mem : Nat → Nat → α} {x : Nat → α} (hm : Ring c mem x) (t : Nat) :
    unitInput c (mem t) t = .ok (unitAt c x t) := by
  have hU := unit_le hc
  obtain ⟨h0, h1, h2⟩ := hc
  have hlt := Nat.mod_lt t h1
  have key : ∀ j < c.U, mem t ((t + j) % c.L) = x (t + j) := fun j hj => hm t _ (by omega) (by omega)
  unfold unitInput unitAt
  simp only
  split
  · rename_i hr
    congr 1
    refine List.map_congr_left (fun k hk => ?_)
    have hk := List.mem_range.1 hk
    rw [← key k hk, idx_add (by omega), if_pos (by omega)]
  · rename_i hr
    unfold copy
    rw [if_pos (by omega), Res.ok_bind, if_pos (by omega), Res.ok_bind]
    congr 1
    refine List.map_congr_left (fun k hk => ?_)
    have hk := List.mem_range.1 hk
    rw [← key k hk, idx_add (by omega)]
    beta_reduce
    by_cases hk2 : k < c.L - t % c.L
    · rw [if_neg (by omega), if_pos (by omega), if_pos (by omega)]
      congr 1
      try omega
    · rw [if_pos (by omega), if_neg (by omega)]
      congr 1
      try omega

/-- The first `n` units from time `T` on -/
def units (c : Par) (x : Nat → α) (T n : Nat) : List (List α) := (List.range n).map (fun j => unitAt c x (T + j * c.U))

theorem units_succ (c : Par) (x : Nat → α) (T n : Nat) : units c x T (n + 1) = units c x T n ++ [unitAt c x (T + n * c.U)] := by
  simp [units, List.range_succ]

theorem units_flatten (c : Par) (x : Nat → α) (T n : Nat) : (units c x T n).flatten = (List.range (n * c.U)).map (fun k => x (T + k)) := by
  induction n with
  | zero => simp [units]
  | succ n ih =>
    rw [units_succ, List.flatten_append, ih, Nat.succ_mul, List.range_add, List.map_append]
    simp [unitAt, Function.comp_def, Nat.add_assoc]

/-- Several calls of a resampler -/
def feed (res : Resampler.State α → List α → Res (List β × Resampler.State α)) :
    Resampler.State α → List (List α) → Res (List β × Resampler.State α)
  | s, [] => .ok ([], s)
  | s, b :: bs => do
    let r1 ← res s b
    let r2 ← feed res r1.2 bs
    .ok (r1.1 ++ r2.1, r2.2)

theorem feed_append (res : Resampler.State α → List α → Res (List β × Resampler.State α)) (b : List α) :
    ∀ (bs : List (List α)) (s : Resampler.State α), feed res s (bs ++ [b]) = (feed res s bs >>= fun r1 =>
      res r1.2 b >>= fun r2 => .ok (r1.1 ++ r2.1, r2.2)) := by
  intro bs
  induction bs with
  | nil =>
    intro s
    simp only [List.nil_append, feed, Res.ok_bind]
    cases res s b <;> simp [feed]
  | cons a bs ih =>
    intro s
    simp only [List.cons_append, feed, ih]
    cases res s a with
    | abort => rfl
    | ub => rfl
    | ok r1 =>
      simp only [Res.ok_bind]
      cases feed res r1.2 bs with
      | abort => rfl
      | ub => rfl
      | ok r2 =>
        simp only [Res.ok_bind]
        cases res r2.2 b with
        | abort => rfl
        | ub => rfl
        | ok r3 => simp [List.append_assoc]

theorem feed_resample (r : Resampler.Cfg α β) (impl : Nat → Nat → List α → Res (List β × Nat)) :
    ∀ (bs : List (List α)) (s : Resampler.State α), feed (Resampler.resample r impl) s bs = Resampler.resampleAll r impl s bs := by
  intro bs
  induction bs with
  | nil => intro s; rfl
  | cons b bs ih => intro s; simp only [feed, Resampler.resampleAll, ih]

/-- What is to be put out after `n` units: the resampled stream from time `T` on -/
def expected (c : Par) (r : Resampler.Cfg α β) (same : α → β) (x : Nat → α) (T n : Nat) : List β :=
  if r.L = 1 ∧ r.M = 1 then (List.range (n * c.U)).map (fun k => same (x (T + k)))
  else Resampler.Spec.output r ((List.range (n * c.U)).map (fun k => x (T + k)))

/-- Facts about the resampler which the pacer needs -/
structure Feeds (c : Par) (r : Resampler.Cfg α β) (same : α → β) (res : Resampler.State α → List α → Res (List β × Resampler.State α))
    (x : Nat → α) (T : Nat) : Prop where
  ok : ∀ n, ∃ s, feed res (Resampler.reset r) (units c x T n) = .ok (expected c r same x T n, s)
  bound : ∀ n s q, feed res (Resampler.reset r) (units c x T n) = .ok (expected c r same x T n, s) →
    res s (unitAt c x (T + n * c.U)) = .ok q → q.1.length ≤ (c.U + r.M - 1) / r.M * r.L

theorem resample_skip {r : Resampler.Cfg α β} {impl : Nat → Nat → List α → Res (List β × Nat)} {s : Resampler.State α} {b : List α}
    {q : List β × Resampler.State α} (h : Resampler.resample r impl s b = .ok q) : q.2.skip = 0 := by
  unfold Resampler.resample at h
  rw [Res.bind_eq_ok] at h
  obtain ⟨_, _, h⟩ := h
  rw [Res.bind_eq_ok] at h
  obtain ⟨_, _, h⟩ := h
  rw [Res.bind_eq_ok] at h
  obtain ⟨_, _, h⟩ := h
  cases h
  rfl

theorem feeds_dispatch {c : Par} {r : Resampler.Cfg α β} (hr : r.Ok) {impl : Nat → Nat → List α → Res (List β × Nat)}
    (hi : Resampler.Impl r impl) (same : α → β) (hU : r.h ≤ c.U) (x : Nat → α) (T : Nat) :
    Feeds c r same (dispatch r impl same) x T := by
  by_cases h1 : r.L = 1 ∧ r.M = 1
  · have hd : ∀ s b, dispatch r impl same s b = .ok (b.map same, s) := fun s b => by rw [dispatch, if_pos h1]
    have hf : ∀ bs s, feed (dispatch r impl same) s bs = .ok (bs.flatten.map same, s) := by
      intro bs
      induction bs with
      | nil => intro s; rfl
      | cons b bs ih => intro s; simp [feed, hd, ih]
    constructor
    · intro n
      refine ⟨Resampler.reset r, ?_⟩
      rw [hf, units_flatten, expected, if_pos h1, List.map_map]
      rfl
    · intro n s q _ hq
      rw [hd] at hq
      cases hq
      rw [h1.1, h1.2]
      simp [unitAt]
  · have hd : dispatch r impl same = Resampler.resample r impl := by
      funext s b; rw [dispatch, if_neg h1]
    have hb : ∀ n, ∀ b ∈ units c x T n, r.h ≤ b.length := by
      intro n b hb
      simp only [units, List.mem_map] at hb
      obtain ⟨j, -, rfl⟩ := hb
      simpa [unitAt] using hU
    have hf := feed_resample r impl
    constructor
    · intro n
      obtain ⟨s, hs⟩ := Resampler.C47_blocks hr hi (hb n)
      refine ⟨s, ?_⟩
      rw [hd, hf, hs, expected, if_neg h1, units_flatten]
    · intro n s q hs hq
      rw [hd, hf] at hs
      rw [hd] at hq
      obtain ⟨s', e1, e2, e3⟩ := Resampler.resampleAll_eq hr hi (s := Resampler.reset r) (bs := units c x T n)
        (by simp [Resampler.reset]) hr.skip hr.pos (hb n)
      rw [hs] at e1
      have hss : s = s' := congrArg Prod.snd (Res.ok.inj e1)
      subst hss
      have hsk : s.skip ≤ r.h := by
        rcases Nat.eq_zero_or_pos n with rfl | hn
        · simp only [units, List.range_zero, List.map_nil, Resampler.resampleAll] at hs
          have hss : Resampler.reset r = s := congrArg Prod.snd (Res.ok.inj hs)
          rw [← hss]
          exact hr.skip
        · obtain ⟨m, rfl⟩ : ∃ m, n = m + 1 := ⟨n - 1, by omega⟩
          rw [units_succ, ← hf, feed_append, Res.bind_eq_ok] at hs
          obtain ⟨a, -, hs⟩ := hs
          rw [Res.bind_eq_ok] at hs
          obtain ⟨b, h2, h3⟩ := hs
          have hss : b.2 = s := congrArg Prod.snd (Res.ok.inj h3)
          rw [← hss, resample_skip h2]
          exact Nat.zero_le _
      have := Resampler.C47_block_bound hr hi (s := s) (b := unitAt c x (T + n * c.U))
        (by rw [e2]; simp [Resampler.reset]) hsk (by rw [e3]; exact Nat.mod_lt _ hr.pos) hq
      simpa [unitAt] using this

/-- State of the local buffer after `n` units: the last `cntW` samples of the output so far -/
structure GoodR (c : Par) (r : Resampler.Cfg α β) (same : α → β)
    (res : Resampler.State α → List α → Res (List β × Resampler.State α)) (x : Nat → α) (T max n : Nat) (lb : Lr α β) : Prop where
  time : lb.time = T + n * c.U
  size : lb.size = resampleSize c r max
  log : lb.log = expected c r same x T n
  rs : feed res (Resampler.reset r) (units c x T n) = .ok (lb.log, lb.rs)
  le : lb.cntW ≤ lb.log.length
  buf : ∀ k < lb.cntW, some (lb.buf k) = lb.log[lb.log.length - lb.cntW + k]?

theorem size_ge (c : Par) (r : Resampler.Cfg α β) (max : Nat) (h : 0 < (c.U + r.M - 1) / r.M * r.L) :
    max + (c.U + r.M - 1) / r.M * r.L ≤ resampleSize c r max := by
  unfold resampleSize
  simp only
  generalize (c.U + r.M - 1) / r.M * r.L = p at *
  have h1 := Nat.div_add_mod (max + p - 1) p
  have h2 := Nat.mod_lt (max + p - 1) h
  rw [Nat.mul_add, Nat.mul_one]
  omega

theorem resampleUnit_ok {c : Par} (hc : c.Ok) {r : Resampler.Cfg α β} (hr : r.Ok) (hL : 0 < r.L) {same : α → β}
    {res : Resampler.State α → List α → Res (List β × Resampler.State α)} {x : Nat → α} {T : Nat} (hf : Feeds c r same res x T)
    {mem : Nat → Nat → α} (hm : Ring c mem x) {max n : Nat} {lb : Lr α β} (hg : GoodR c r same res x T max n lb)
    (hlt : lb.cntW < max) : ∃ lb', resampleUnit c res (mem lb.time) lb = .ok lb' ∧
      GoodR c r same res x T max (n + 1) { lb' with time := lb.time + c.U } ∧
      lb'.cntW + lb.log.length = lb.cntW + lb'.log.length := by
  have hpos : 0 < (c.U + r.M - 1) / r.M * r.L := by
    refine Nat.mul_pos (Nat.div_pos ?_ hr.pos) hL
    have := hc.1
    omega
  have hsz := size_ge c r max hpos
  obtain ⟨s', hs'⟩ := hf.ok (n + 1)
  have hs'' := hs'
  rw [units_succ, feed_append, hg.rs, Res.ok_bind, Res.bind_eq_ok] at hs''
  obtain ⟨q, hq1, hq2⟩ := hs''
  have hq2' := Res.ok.inj hq2
  have e1 : lb.log ++ q.1 = expected c r same x T (n + 1) := congrArg Prod.fst hq2'
  have e2 : q.2 = s' := congrArg Prod.snd hq2'
  have hb := hf.bound n lb.rs q (by rw [hg.rs, hg.log]) hq1
  unfold resampleUnit
  rw [unitInput_ok hc hm, Res.ok_bind, hg.time, hq1, Res.ok_bind, if_pos (by rw [hg.size]; omega)]
  refine ⟨_, rfl, ?_, ?_⟩
  · constructor
    · show T + n * c.U + c.U = T + (n + 1) * c.U
      rw [Nat.succ_mul, Nat.add_assoc]
    · exact hg.size
    · exact e1
    · show feed res (Resampler.reset r) (units c x T (n + 1)) = .ok (lb.log ++ q.1, q.2)
      rw [e1, e2]; exact hs'
    · show lb.cntW + q.1.length ≤ (lb.log ++ q.1).length
      rw [List.length_append]
      have := hg.le
      omega
    · intro k hk
      show some (if lb.cntW ≤ k ∧ k < lb.cntW + q.1.length then q.1.getD (k - lb.cntW) (lb.buf k) else lb.buf k) =
        (lb.log ++ q.1)[(lb.log ++ q.1).length - (lb.cntW + q.1.length) + k]?
      have hk : k < lb.cntW + q.1.length := hk
      have hle := hg.le
      rw [List.length_append]
      by_cases hk2 : lb.cntW ≤ k
      · rw [if_pos ⟨hk2, hk⟩, List.getElem?_append_right (by omega)]
        rw [List.getD_eq_getElem?_getD]
        have : lb.log.length + q.1.length - (lb.cntW + q.1.length) + k - lb.log.length = k - lb.cntW := by omega
        rw [this, List.getElem?_eq_getElem (by omega)]
        rfl
      · rw [if_neg (by omega), List.getElem?_append_left (by omega), hg.buf k (by omega)]
        congr 1
        omega
  · show lb.cntW + q.1.length + lb.log.length = lb.cntW + (lb.log ++ q.1).length
    rw [List.length_append]
    omega

theorem resampleUntil_ok {c : Par} (hc : c.Ok) {r : Resampler.Cfg α β} (hr : r.Ok) (hL : 0 < r.L) {same : α → β}
    {res : Resampler.State α → List α → Res (List β × Resampler.State α)} {x : Nat → α} {T : Nat} (hf : Feeds c r same res x T)
    {mem : Nat → Nat → α} (hm : Ring c mem x) {max min : Nat} (hmin : min ≤ max) : ∀ (fuel n : Nat) (lb : Lr α β),
    GoodR c r same res x T max n lb → resampleUntil c res mem min fuel lb = .ok none ∨
      ∃ n' lb', resampleUntil c res mem min fuel lb = .ok (some lb') ∧ GoodR c r same res x T max n' lb' ∧ n ≤ n' ∧ min ≤ lb'.cntW := by
  intro fuel
  induction fuel with
  | zero =>
    intro n lb hg
    rw [resampleUntil]
    split
    · exact Or.inl rfl
    · exact Or.inr ⟨n, lb, rfl, hg, Nat.le_refl _, by omega⟩
  | succ fuel ih =>
    intro n lb hg
    rw [resampleUntil]
    split
    · obtain ⟨lb', h1, h2, -⟩ := resampleUnit_ok hc hr hL hf hm hg (by omega)
      rw [h1]
      rcases ih _ _ h2 with h | ⟨n', l2, h3, h4, h5, h6⟩
      · exact Or.inl h
      · exact Or.inr ⟨n', l2, h3, h4, by omega, h6⟩
    · exact Or.inr ⟨n, lb, rfl, hg, Nat.le_refl _, by omega⟩

/-- Requests within the announced maximum -/
def Within (max : Nat) : Op → Prop
  | .request m _ => m ≤ max
  | .rewind => True

theorem run_good {c : Par} (hc : c.Ok) {r : Resampler.Cfg α β} (hr : r.Ok) (hL : 0 < r.L) (hU : r.h ≤ c.U)
    {impl : Nat → Nat → List α → Res (List β × Nat)} (hi : Resampler.Impl r impl) (same : α → β) {x : Nat → α}
    {mem : Nat → Nat → α} (hm : Ring c mem x) (z : β) (max T : Nat) {ops : List Op} (ho : ∀ o ∈ ops, Within max o) :
    run c (dispatch r impl same) mem ops (newResample c r z max T) = .ok none ∨
    ∃ n lb, run c (dispatch r impl same) mem ops (newResample c r z max T) = .ok (some lb) ∧
      GoodR c r same (dispatch r impl same) x T max n lb := by
  have hf := feeds_dispatch (c := c) hr hi same hU x T
  have main : ∀ (ops : List Op) (n : Nat) (lb : Lr α β), (∀ o ∈ ops, Within max o) →
      GoodR c r same (dispatch r impl same) x T max n lb →
      run c (dispatch r impl same) mem ops lb = .ok none ∨
      ∃ n' lb', run c (dispatch r impl same) mem ops lb = .ok (some lb') ∧
        GoodR c r same (dispatch r impl same) x T max n' lb' := by
    intro ops
    induction ops with
    | nil => intro n lb _ hg; exact Or.inr ⟨n, lb, rfl, hg⟩
    | cons o ops ih =>
      intro n lb ho hg
      have ho1 := ho o List.mem_cons_self
      have ho2 := fun o' h => ho o' (List.mem_cons_of_mem _ h)
      cases o with
      | request m f =>
        rw [run]
        rcases resampleUntil_ok hc hr hL hf hm (show m ≤ max from ho1) f n lb hg with h | ⟨n', l2, h3, h4, -, -⟩
        · rw [h]; exact Or.inl rfl
        · rw [h3, Res.ok_bind]; exact ih n' l2 ho2 h4
      | rewind =>
        rw [run]
        refine ih n _ ho2 ⟨hg.time, hg.size, hg.log, hg.rs, Nat.zero_le _, fun k hk => absurd hk (Nat.not_lt_zero _)⟩
  have h0 : GoodR c r same (dispatch r impl same) x T max 0 (newResample c r z max T) := by
    obtain ⟨s, hs⟩ := hf.ok 0
    have e0 : expected c r same x T 0 = [] := by
      have h1 : feed (dispatch r impl same) (Resampler.reset r) (units c x T 0) = .ok ([], Resampler.reset r) := rfl
      rw [h1] at hs
      exact (congrArg Prod.fst (Res.ok.inj hs)).symm
    exact ⟨by simp [newResample], rfl, by rw [e0]; rfl, rfl, Nat.zero_le _, fun k hk => absurd hk (Nat.not_lt_zero _)⟩
  exact main ops 0 _ ho h0

/-- For every start time, every announced maximum, every resampler, and every sequence of requests and rewinds within
that maximum, resampling neither writes beyond the local buffer nor aborts; the total output is the resampled
stream of consecutive samples from the start time on, and the local buffer holds the last `cntW` samples of
it. -/
theorem C23_resample {c : Par} (hc : c.Ok) {r : Resampler.Cfg α β} (hr : r.Ok) (hL : 0 < r.L) (hU : r.h ≤ c.U)
    {impl : Nat → Nat → List α → Res (List β × Nat)} (hi : Resampler.Impl r impl) (same : α → β) {x : Nat → α}
    {mem : Nat → Nat → α} (hm : Ring c mem x) (z : β) (max T : Nat) {ops : List Op} (ho : ∀ o ∈ ops, Within max o) :
    run c (dispatch r impl same) mem ops (newResample c r z max T) = .ok none ∨
    ∃ n lb, run c (dispatch r impl same) mem ops (newResample c r z max T) = .ok (some lb) ∧
      lb.time = T + n * c.U ∧ lb.log = expected c r same x T n ∧ lb.cntW ≤ lb.log.length ∧
      ∀ k < lb.cntW, some (lb.buf k) = lb.log[lb.log.length - lb.cntW + k]? := by
  rcases run_good hc hr hL hU hi same hm z max T ho with h | ⟨n, lb, h1, h2⟩
  · exact Or.inl h
  · exact Or.inr ⟨n, lb, h1, h2.time, h2.log, h2.le, h2.buf⟩

/-- A served request leaves at least the requested amount in the local buffer. -/
theorem C23_request_served {c : Par} {res : Resampler.State α → List α → Res (List β × Resampler.State α)}
    {mem : Nat → Nat → α} {min : Nat} : ∀ {fuel : Nat} {lb lb' : Lr α β}, resampleUntil c res mem min fuel lb = .ok (some lb') →
    min ≤ lb'.cntW := by
  intro fuel
  induction fuel with
  | zero =>
    intro lb lb' h
    rw [resampleUntil] at h
    split at h
    · cases h
    · cases h; omega
  | succ fuel ih =>
    intro lb lb' h
    rw [resampleUntil] at h
    split at h
    · split at h
      · exact ih h
      · cases h
      · cases h
    · cases h; omega

theorem expected_length {c : Par} (hc : c.Ok) {r : Resampler.Cfg α β} (hr : r.Ok) (hL : 0 < r.L) (same : α → β) (x : Nat → α)
    (T N : Nat) {n : Nat} (hn : N * r.M + r.skip ≤ n) : N ≤ (expected c r same x T n).length := by
  have hU := hc.1
  have hM := hr.pos
  have h1 : n ≤ n * c.U := Nat.le_mul_of_pos_right _ hU
  have h2 : N ≤ N * r.M := Nat.le_mul_of_pos_right _ hM
  unfold expected
  split
  · rw [List.length_map, List.length_range]; omega
  · rw [Resampler.output_eq, Resampler.outs_length]
    simp only [List.length_map, List.length_range]
    calc N ≤ N * r.L := Nat.le_mul_of_pos_right _ hL
      _ = Resampler.cnt r 0 (N * r.M) := (Resampler.cnt_periods hr hM N).symm
      _ ≤ _ := Resampler.cnt_mono _ _ (by omega)

theorem resampleUntil_done {c : Par} (hc : c.Ok) {r : Resampler.Cfg α β} (hr : r.Ok) (hL : 0 < r.L) {same : α → β}
    {res : Resampler.State α → List α → Res (List β × Resampler.State α)} {x : Nat → α} {T : Nat} (hf : Feeds c r same res x T)
    {mem : Nat → Nat → α} (hm : Ring c mem x) {max min : Nat} (hmin : min ≤ max) (base : Nat) : ∀ (fuel n : Nat) (lb : Lr α β),
    GoodR c r same res x T max n lb → lb.log.length = lb.cntW + base → (min + base) * r.M + r.skip ≤ n + fuel →
    ∃ lb', resampleUntil c res mem min fuel lb = .ok (some lb') := by
  intro fuel
  induction fuel with
  | zero =>
    intro n lb hg hb hn
    rw [resampleUntil, if_neg]
    · exact ⟨lb, rfl⟩
    · have := expected_length hc hr hL same x T (min + base) (n := n) (by omega)
      rw [← hg.log] at this
      omega
  | succ fuel ih =>
    intro n lb hg hb hn
    rw [resampleUntil]
    split
    · obtain ⟨lb', h1, h2, h3⟩ := resampleUnit_ok hc hr hL hf hm hg (by omega)
      rw [h1]
      exact ih (n + 1) _ h2 (show lb'.log.length = lb'.cntW + base by omega) (by omega)
    · exact ⟨lb, rfl⟩

/-- Waiting ends: after every such sequence of operations, a further request within the announced maximum is served
when sufficiently many further units are received. -/
theorem C23_request_returns {c : Par} (hc : c.Ok) {r : Resampler.Cfg α β} (hr : r.Ok) (hL : 0 < r.L) (hU : r.h ≤ c.U)
    {impl : Nat → Nat → List α → Res (List β × Nat)} (hi : Resampler.Impl r impl) (same : α → β) {x : Nat → α}
    {mem : Nat → Nat → α} (hm : Ring c mem x) (z : β) (max T : Nat) {ops : List Op} (ho : ∀ o ∈ ops, Within max o)
    {lb : Lr α β} (hrun : run c (dispatch r impl same) mem ops (newResample c r z max T) = .ok (some lb)) {min : Nat}
    (hmin : min ≤ max) : ∃ fuel lb', run c (dispatch r impl same) mem (ops ++ [.request min fuel]) (newResample c r z max T) = .ok (some lb') ∧
      min ≤ lb'.cntW := by
  have hf := feeds_dispatch (c := c) hr hi same hU x T
  obtain ⟨n, hg⟩ : ∃ n, GoodR c r same (dispatch r impl same) x T max n lb := by
    rcases run_good hc hr hL hU hi same hm z max T ho with h | ⟨n, lb', h1, h2⟩
    · rw [h] at hrun; cases hrun
    · rw [h1] at hrun; cases hrun; exact ⟨n, h2⟩
  have hle := hg.le
  obtain ⟨lb', h'⟩ := resampleUntil_done hc hr hL hf hm hmin (lb.log.length - lb.cntW)
    ((min + (lb.log.length - lb.cntW)) * r.M + r.skip) n lb hg (by omega) (by omega)
  have hrun' : ∀ (ops : List Op) (a : Lr α β) (f : Nat) (b : Lr α β), run c (dispatch r impl same) mem ops a = .ok (some b) →
      run c (dispatch r impl same) mem (ops ++ [.request min f]) a = run c (dispatch r impl same) mem [.request min f] b := by
    intro ops
    induction ops with
    | nil => intro a f b h; cases h; rfl
    | cons o ops ih =>
      intro a f b h
      cases o with
      | request m g =>
        rw [run] at h
        rw [List.cons_append, run]
        cases hq : resampleUntil c (dispatch r impl same) mem m g a with
        | abort => rw [hq] at h; cases h
        | ub => rw [hq] at h; cases h
        | ok v =>
          rw [hq, Res.ok_bind] at h
          rw [Res.ok_bind]
          cases v with
          | none => cases h
          | some v => exact ih v f b h
      | rewind =>
        rw [run] at h
        rw [List.cons_append, run]
        exact ih _ f b h
  refine ⟨(min + (lb.log.length - lb.cntW)) * r.M + r.skip, lb', ?_, C23_request_served h'⟩
  rw [hrun' _ _ _ _ hrun, run, h']
  rfl

/-! ## A concrete case: ring of 8 samples, units of 4 samples, start within a unit, so that units wrap around -/

/-- Sample of time `t` -/
def exX (t : Nat) : Nat := 10 * t

theorem C23_example : (⟨8, 4⟩ : Par).Ok ∧ Ring ⟨8, 4⟩ (fun t0 i => exX (t0 + (i + 8 - t0 % 8) % 8)) exX ∧
    (∀ lb, filterAll ⟨8, 4⟩ (fun t0 i => exX (t0 + (i + 8 - t0 % 8) % 8)) [3, 6] (newFilter ⟨8, 4⟩ 0 6 3) = .ok lb →
      lb.cntW = 8 ∧ lb.buf 7 = 100) := by
  have hok : (⟨8, 4⟩ : Par).Ok := ⟨by decide, by decide, by decide⟩
  have hring : Ring ⟨8, 4⟩ (fun t0 i => exX (t0 + (i + 8 - t0 % 8) % 8)) exX := by
    intro t0 t h1 h2
    simp only at h2 ⊢
    congr 1
    omega
  refine ⟨hok, hring, ?_⟩
  obtain ⟨lb, h1, h2, -, h4, h5, h6, h7⟩ := C23_filter hok hring 0 6 3 (ms := [3, 6]) (by decide)
  intro lb' h
  rw [h1] at h
  cases h
  have h8 : lb.cntW = 8 := by
    have a := h6 6 (by decide)
    rcases h7 with h7 | ⟨m, hm, h7⟩
    · omega
    · simp only [List.mem_cons, List.not_mem_nil, or_false] at hm
      simp only at h5 h7
      omega
  exact ⟨h8, by rw [h2 7 (by omega)]; rfl⟩

/-- Time, count, first `cntW` samples, total output -/
def observe : Res (Option (Lr Nat Nat)) → Option (Nat × List Nat × List Nat)
  | .ok (some lb) => some (lb.time, (List.range lb.cntW).map lb.buf, lb.log)
  | _ => none

/-- Units of 6 samples in a ring of 12, start at time 9: the first unit wraps around. -/
theorem C23_resample_example : Resampler.sumCfg.h ≤ 6 ∧ 0 < Resampler.sumCfg.L ∧
    observe (run ⟨12, 6⟩ (dispatch Resampler.sumCfg (Resampler.generic Resampler.sumCfg) id)
      (fun t0 i => exX (t0 + (i + 12 - t0 % 12) % 12)) [.request 3 5, .rewind, .request 6 5] (newResample ⟨12, 6⟩ Resampler.sumCfg 0 6 9)) =
      some (27, [658, 750, 801, 852, 903, 954, 1005, 1056, 1107, 1158],
        [304, 425, 556, 607, 658, 750, 801, 852, 903, 954, 1005, 1056, 1107, 1158]) := by
  decide +kernel

end Verif.Phy.RxPacer
