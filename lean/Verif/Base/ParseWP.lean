import Verif.Base.Parse

/-!
# Further rules for `P`: stepping, repetition, totality
-/

namespace Verif.P
open BitByte

theorem step {p : P α} {f : α → P β} {o o' : Nat} {l l' : List Nat} {a : α}
    {r : Res (β × Nat × List Nat)}
    (h : p.run o l = .ok (a, o', l')) (k : (f a).run o' l' = r) : (p >>= f).run o l = r := by
  rw [run_bind, h, Res.ok_bind]; exact k

theorem run_assert_true {b : Bool} (h : b = true) (o : Nat) (l : List Nat) :
    (assert b).run o l = .ok ((), o, l) := by subst h; rfl

/-- `for (i = 0; i < n; ++i) v.push_back(p)` -/
def many (p : P α) : Nat → P (List α)
  | 0 => pure []
  | n + 1 => do
    let a ← p
    let r ← many p n
    pure (a :: r)

theorem run_many (p : P α) (f : α → List Nat) (xs : List α) (o : Nat) (l : List Nat)
    (h : ∀ a ∈ xs, ∀ o l, p.run o (f a ++ l) = .ok (a, o + (f a).length, l)) :
    (many p xs.length).run o (xs.flatMap f ++ l) = .ok (xs, o + (xs.flatMap f).length, l) := by
  induction xs generalizing o with
  | nil => simp [many]
  | cons a xs ih =>
    simp only [List.length_cons, many, List.flatMap_cons, List.append_assoc, List.length_append]
    refine step (h a (by simp) _ _) ?_
    refine step (ih _ fun b hb => h b (by simp [hb])) ?_
    simp [Nat.add_assoc]

theorem Mono.many {p : P α} (n : Nat) (hp : Mono p) : Mono (many p n) := by
  induction n with
  | zero => exact Mono.pure _
  | succ n ih => exact hp.bind fun a => ih.bind fun r => Mono.pure _

/-- `p`, started at `o` in a buffer of `N` bytes, succeeds with a result and an offset satisfying
`Q`. -/
def WP (p : P α) (N o : Nat) (Q : α → Nat → Prop) : Prop :=
  ∀ l, Bytes l → o + l.length = N → ∃ a o' l', p.run o l = .ok (a, o', l') ∧ Bytes l' ∧
    o' + l'.length = N ∧ Q a o'

theorem WP.pure {a : α} {N o : Nat} {Q : α → Nat → Prop} (h : Q a o) : WP (pure a) N o Q :=
  fun l hl hn => ⟨a, o, l, rfl, hl, hn, h⟩

theorem WP.bind {p : P α} {f : α → P β} {N o : Nat} {Q : β → Nat → Prop}
    (h : WP p N o fun a o' => WP (f a) N o' Q) : WP (p >>= f) N o Q := by
  intro l hl hn
  obtain ⟨a, o1, l1, e, hl1, hn1, h1⟩ := h l hl hn
  obtain ⟨b, o2, l2, e2, h2⟩ := h1 l1 hl1 hn1
  exact ⟨b, o2, l2, step e e2, h2⟩

theorem WP.byte {N o : Nat} {Q : Nat → Nat → Prop} (ho : o < N) (h : ∀ b < 256, Q b (o + 1)) :
    WP byte N o Q := by
  intro l hl hn
  match l, hn with
  | [], hn => simp at hn; omega
  | b :: l, hn =>
    refine ⟨b, o + 1, l, rfl, fun c hc => hl c (by simp [hc]), by simp at hn; omega,
      h b (hl b (by simp))⟩

theorem WP.be {N o w n : Nat} {Q : Nat → Nat → Prop} (hw : n ≤ w) (ho : o + n ≤ N)
    (h : ∀ x < 256 ^ n, Q x (o + n)) : WP (be w n) N o Q := by
  intro l hl hn
  obtain ⟨a, ha, e⟩ := Reads.be hw o l hl (by omega)
  exact ⟨a, _, _, e, Bytes.drop hl n, by simp; omega, h a ha⟩

theorem WP.offset {N o : Nat} {Q : Nat → Nat → Prop} (h : Q o o) : WP offset N o Q :=
  fun l hl hn => ⟨o, o, l, rfl, hl, hn, h⟩

theorem WP.assert {N o : Nat} {b : Bool} {Q : Unit → Nat → Prop} (hb : b = true) (h : Q () o) :
    WP (assert b) N o Q :=
  fun l hl hn => ⟨(), o, l, run_assert_true hb o l, hl, hn, h⟩

theorem WP.mono {p : P α} {N o : Nat} {Q R : α → Nat → Prop} (h : WP p N o Q)
    (hi : ∀ a o', Q a o' → R a o') : WP p N o R := by
  intro l hl hn
  obtain ⟨a, o', l', e, h1, h2, h3⟩ := h l hl hn
  exact ⟨a, o', l', e, h1, h2, hi _ _ h3⟩

theorem WP.ofReads {p : P α} {N o k : Nat} {R : α → Prop} {Q : α → Nat → Prop} (hr : Reads p k R)
    (ho : o + k ≤ N) (h : ∀ a, R a → Q a (o + k)) : WP p N o Q := by
  intro l hl hn
  obtain ⟨a, ha, e⟩ := hr o l hl (by omega)
  exact ⟨a, _, _, e, Bytes.drop hl k, by simp; omega, h a ha⟩

theorem WP.opt {p : P α} {N o k : Nat} {b : Bool} {R : α → Prop} {Q : Option α → Nat → Prop}
    (hr : Reads p k R) (ho : o + b.toNat * k ≤ N)
    (h : ∀ x : Option α, x.isSome = b → (∀ a, x = some a → R a) → Q x (o + b.toNat * k)) :
    WP (opt b p) N o Q :=
  WP.ofReads (Reads.opt b hr) ho fun x hx => h x hx.1 hx.2

theorem Reads.many {p : P α} {k : Nat} {R : α → Prop} (n : Nat) (hp : Reads p k R) :
    Reads (many p n) (n * k) (fun xs => xs.length = n ∧ ∀ a ∈ xs, R a) := by
  induction n with
  | zero => exact (Reads.pure (by simp)).congr (by omega)
  | succ n ih =>
    refine ((hp.bind fun a ha => ih.bind fun r hr => Reads.pure (Q := fun xs : List α =>
      xs.length = n + 1 ∧ ∀ a ∈ xs, R a) ⟨by simp [hr.1], ?_⟩)).congr ?_
    · intro b hb
      rcases List.mem_cons.1 hb with rfl | hb
      · exact ha
      · exact hr.2 b hb
    · rw [Nat.add_mul]; omega

theorem WP.eval {p : P α} {N : Nat} {Q : α → Nat → Prop} (h : WP p N 0 Q) (l : List Nat)
    (hl : Bytes l) (hn : l.length = N) : ∃ a o, p.eval l = .ok a ∧ Q a o := by
  obtain ⟨a, o, l', e, _, _, hq⟩ := h l hl (by omega)
  exact ⟨a, o, by simp [P.eval, e], hq⟩

theorem WP.run {p : P α} {N o : Nat} {Q : α → Nat → Prop} (h : WP p N o Q) {l : List Nat}
    (hl : Bytes l) (hn : o + l.length = N) : ∃ a o' l', p.run o l = .ok (a, o', l') ∧ Q a o' := by
  obtain ⟨a, o', l', e, _, _, hq⟩ := h l hl hn
  exact ⟨a, o', l', e, hq⟩

theorem run_step {p : P α} {f : α → P β} {o o1 : Nat} {l l1 : List Nat} {a : α}
    {Q : β → Nat → Prop} (h : p.run o l = .ok (a, o1, l1))
    (k : ∃ b o' l', (f a).run o1 l1 = .ok (b, o', l') ∧ Q b o') :
    ∃ b o' l', (p >>= f).run o l = .ok (b, o', l') ∧ Q b o' := by
  obtain ⟨b, o', l', e, hq⟩ := k
  exact ⟨b, o', l', step h e, hq⟩

theorem Mono.eval_of_run {p : P α} (hp : Mono p) {l l' : List Nat} {a : α} {o : Nat}
    (h : p.run 0 l = .ok (a, o, l')) (q : List Nat) : p.eval (l ++ q) = .ok a := by
  rw [hp.eval l q (by simp [P.eval, h])]
  simp [P.eval, h]

end Verif.P

/-- Proves `P.Mono` goals for parsers built from the basic ones. -/
macro "pmono" : tactic => `(tactic| repeat' first
  | exact Verif.P.Mono.pure _
  | exact Verif.P.Mono.byte
  | exact Verif.P.Mono.be _ _
  | exact Verif.P.Mono.offset
  | exact Verif.P.Mono.assert _
  | assumption
  | refine Verif.P.Mono.bind ?_ fun _ => ?_
  | refine Verif.P.Mono.opt _ ?_
  | refine Verif.P.Mono.many _ ?_
  | refine Verif.P.Mono.ite ?_ ?_)
