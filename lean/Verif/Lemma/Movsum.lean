import Verif.Model.Movsum
import Verif.Spec.Movsum
import Mathlib.Algebra.BigOperators.Intervals
import Mathlib.Algebra.BigOperators.Ring.Finset
import Mathlib.Tactic.Ring
import Mathlib.Tactic.LinearCombination

/-!
# Moving sums: the shift register as a window of a sequence -/

namespace Verif.Phy.Movsum

open Finset Verif.Spec.Movsum

set_option linter.unusedSimpArgs false

variable {R : Type} [CommRing R]

theorem weighted_blocks (u : Nat → Int) (s : Nat → R) (t n m : Nat) (hn : 0 < n) :
    weighted (fun p => u (p / n)) s t (m * n) = ∑ i ∈ range m, (u i : R) * ∑ j ∈ range n, s (t + (i * n + j)) := by
  induction m with
  | zero => simp [weighted]
  | succ m ih =>
    unfold weighted at ih ⊢
    rw [Nat.succ_mul, sum_range_add, ih, sum_range_succ, mul_sum]
    congr 1
    apply sum_congr rfl
    intro j hj
    have hj' := mem_range.1 hj
    have : (m * n + j) / n = m := by
      rw [Nat.mul_comm, Nat.mul_add_div hn, Nat.div_eq_of_lt hj', Nat.add_zero]
    beta_reduce
    rw [this]

theorem shift_sum (s : Nat → R) (a n : Nat) : ∑ j ∈ range n, s (a + 1 + j) = (∑ j ∈ range n, s (a + j)) - s a + s (a + n) := by
  induction n with
  | zero => simp
  | succ n ih =>
    rw [sum_range_succ, sum_range_succ, ih]
    have : a + 1 + n = a + (n + 1) := by omega
    rw [this]
    ring

/-- The sum one sample later: the oldest sample leaves, the new one enters, and the samples at the boundaries of weights
change their weight. -/
theorem weighted_step (u : Nat → Int) (s : Nat → R) (t n m : Nat) (hn : 0 < n) :
    weighted (fun p => u (p / n)) s (t + 1) ((m + 1) * n) =
      weighted (fun p => u (p / n)) s t ((m + 1) * n) - (u 0 : R) * s t + (u m : R) * s (t + (m + 1) * n) +
        ∑ i ∈ range m, ((u i : R) - (u (i + 1) : R)) * s (t + (i + 1) * n) := by
  rw [weighted_blocks u s _ n _ hn, weighted_blocks u s _ n _ hn]
  have hs : ∀ i, ∑ j ∈ range n, s (t + 1 + (i * n + j)) =
      (∑ j ∈ range n, s (t + (i * n + j))) - s (t + i * n) + s (t + (i + 1) * n) := by
    intro i
    have h := shift_sum s (t + i * n) n
    have e1 : ∀ j, t + 1 + (i * n + j) = t + i * n + 1 + j := fun j => by omega
    have e2 : ∀ j, t + (i * n + j) = t + i * n + j := fun j => by omega
    have e3 : t + (i + 1) * n = t + i * n + n := by rw [Nat.add_mul, Nat.one_mul, Nat.add_assoc]
    simp only [e1, e2, e3]
    exact h
  simp only [hs]
  induction m with
  | zero => simp; ring
  | succ m ih =>
    have hd := sum_range_succ (fun i => ((u i : R) - (u (i + 1) : R)) * s (t + (i + 1) * n)) m
    rw [sum_range_succ _ (m + 1), ih, sum_range_succ _ (m + 1), hd]
    ring

/-- Index of the sample that is `n` samples older than the one to be written -/
theorem frontIdx_eq (m : Movsum R) (t n : Nat) (hL : 0 < m.length) (hp : m.ptr = t % m.length) (hn : n ≤ m.length) :
    frontIdx m n = (t + (m.length - n)) % m.length := by
  have hlt := Nat.mod_lt t hL
  have ht := Nat.div_add_mod t m.length
  unfold frontIdx
  rw [hp]
  generalize hr : t % m.length = r at *
  generalize hq : t / m.length = q at *
  generalize m.length = L at *
  rcases Nat.lt_or_ge n L with h | h
  · rw [Nat.mod_eq_of_lt h]
    by_cases h' : n > r
    · rw [if_pos h']
      have : t + (L - n) = (r + L - n) + L * q := by omega
      rw [this, Nat.add_mul_mod_self_left, Nat.mod_eq_of_lt (by omega)]
      omega
    · rw [if_neg h']
      have e : L * (q + 1) = L * q + L := by rw [Nat.mul_add, Nat.mul_one]
      have : t + (L - n) = (r - n) + L * (q + 1) := by omega
      rw [this, Nat.add_mul_mod_self_left, Nat.mod_eq_of_lt (by omega)]
  · have : n = L := by omega
    subst this
    rw [Nat.mod_self, if_neg (by omega), Nat.sub_zero, Nat.sub_self, Nat.add_zero, hr]

/-- The register holds samples `t`, ..., `t + length - 1` of a sequence, the oldest one is overwritten next. -/
structure Window (m : Movsum R) (s : Nat → R) (t : Nat) : Prop where
  pos : 0 < m.length
  len : m.reg.length = m.length
  ptr : m.ptr = t % m.length
  reg : ∀ p < m.length, m.reg.getD ((t + p) % m.length) 0 = s (t + p)

theorem mod_ne (t p L : Nat) (h0 : 0 < p) (hp : p < L) : (t + p) % L ≠ t % L := by
  have hL : 0 < L := by omega
  have hr := Nat.mod_lt t hL
  rw [Nat.add_mod, Nat.mod_eq_of_lt hp]
  generalize t % L = r at *
  rcases Nat.lt_or_ge (r + p) L with h | h
  · rw [Nat.mod_eq_of_lt h]; omega
  · rw [Nat.mod_eq_sub_mod h, Nat.mod_eq_of_lt (by omega)]; omega

theorem getD_set_eq {α : Type} (l : List α) (i : Nat) (x d : α) (h : i < l.length) : (l.set i x).getD i d = x := by
  simp [List.getD_eq_getElem?_getD, h]

theorem getD_set_ne {α : Type} (l : List α) (i j : Nat) (x d : α) (h : i ≠ j) : (l.set i x).getD j d = l.getD j d := by
  simp [List.getD_eq_getElem?_getD, h]

/-- Register after a sample has been written over the oldest one: samples `t + 1`, ..., `t + length` -/
theorem Window.set {m : Movsum R} {s : Nat → R} {t : Nat} (h : Window m s t) (p : Nat) (h0 : 0 < p) (hp : p ≤ m.length) :
    (m.reg.set m.ptr (s (t + m.length))).getD ((t + p) % m.length) 0 = s (t + p) := by
  rcases Nat.lt_or_ge p m.length with hlt | hge
  · rw [getD_set_ne _ _ _ _ _ (by rw [h.ptr]; exact (mod_ne t p m.length h0 hlt).symm), h.reg p hlt]
  · have : p = m.length := by omega
    subst this
    rw [Nat.add_mod_right, ← h.ptr, getD_set_eq _ _ _ _ (by rw [h.len, h.ptr]; exact Nat.mod_lt _ h.pos)]

/-- The window moves on by one sample. -/
theorem Window.step {m : Movsum R} {s : Nat → R} {t : Nat} (h : Window m s t) (sum : R) :
    Window { m with reg := m.reg.set m.ptr (s (t + m.length)), ptr := (m.ptr + 1) % m.length, sum := sum } s (t + 1) := by
  refine ⟨h.pos, ?_, ?_, ?_⟩
  · show (m.reg.set _ _).length = _
    rw [List.length_set, h.len]
  · show (m.ptr + 1) % m.length = (t + 1) % m.length
    rw [h.ptr, Nat.mod_add_mod]
  · intro p hp
    have e : t + 1 + p = t + (p + 1) := by omega
    show (m.reg.set _ _).getD ((t + 1 + p) % m.length) 0 = _
    rw [e]
    exact h.set (p + 1) (by omega) hp

theorem list_range_sum (f : Nat → R) (n : Nat) : ((List.range n).map f).sum = ∑ i ∈ range n, f i := by
  induction n with
  | zero => simp
  | succ n ih => rw [List.range_succ, List.map_append, List.sum_append, ih, sum_range_succ]; simp

theorem list_range'_sum (f : Nat → R) (n : Nat) : ((List.range' 1 n).map f).sum = ∑ i ∈ range n, f (i + 1) := by
  induction n with
  | zero => simp
  | succ n ih =>
    rw [List.range'_concat, List.map_append, List.sum_append, ih, sum_range_succ]
    simp [Nat.add_comm]

theorem foldl_sub (f : Nat → R) (l : List Nat) (a : R) : l.foldl (fun s n => s - f n) a = a - (l.map f).sum := by
  induction l generalizing a with
  | nil => simp
  | cons x l ih => rw [List.foldl_cons, ih, List.map_cons, List.sum_cons]; ring

theorem foldl_add (f : Nat → R) (l : List Nat) (a : R) : l.foldl (fun s n => s + f n) a = a + (l.map f).sum := by
  induction l generalizing a with
  | nil => simp
  | cons x l ih => rw [List.foldl_cons, ih, List.map_cons, List.sum_cons]; ring

/-- Sum of a plain moving sum over the register -/
theorem Window.total {m : Movsum R} {s : Nat → R} {t : Nat} (h : Window m s t) :
    m.reg.sum = ∑ p ∈ range m.length, s (t + p) := by
  have hb : ∑ j ∈ range m.length, m.reg.getD j 0 = ∑ p ∈ range m.length, m.reg.getD ((t + p) % m.length) 0 := by
    symm
    apply sum_nbij (fun p => (t + p) % m.length)
    · intro p _; exact mem_range.2 (Nat.mod_lt _ h.pos)
    · intro p hp q hq he
      have hp' := mem_range.1 (mem_coe.1 hp)
      have hq' := mem_range.1 (mem_coe.1 hq)
      dsimp only at he
      rcases Nat.lt_trichotomy p q with hlt | heq | hgt
      · exfalso
        have e : t + q = t + p + (q - p) := by omega
        rw [e] at he
        exact mod_ne (t + p) (q - p) m.length (by omega) (by omega) he.symm
      · exact heq
      · exfalso
        have e : t + p = t + q + (p - q) := by omega
        rw [e] at he
        exact mod_ne (t + q) (p - q) m.length (by omega) (by omega) he
    · intro j hj
      have hj' := mem_range.1 (mem_coe.1 hj)
      have hm := Nat.mod_lt t h.pos
      refine ⟨(j + (m.length - t % m.length)) % m.length, mem_coe.2 (mem_range.2 (Nat.mod_lt _ h.pos)), ?_⟩
      dsimp only
      rw [Nat.add_mod_mod]
      have ht := Nat.div_add_mod t m.length
      have e : t + (j + (m.length - t % m.length)) = j + m.length * (t / m.length + 1) := by
        rw [Nat.mul_add, Nat.mul_one]; omega
      rw [e, Nat.add_mul_mod_self_left, Nat.mod_eq_of_lt hj']
    · intro p _; rfl
  have hl : m.reg.sum = ∑ j ∈ range m.reg.length, m.reg.getD j 0 := by
    generalize m.reg = l
    induction l with
    | nil => simp
    | cons x l ih => rw [List.length_cons, sum_range_succ', List.sum_cons, ih]; simp [add_comm]
  rw [hl, h.len, hb]
  exact sum_congr rfl fun p hp => h.reg p (mem_range.1 hp)

end Verif.Phy.Movsum
