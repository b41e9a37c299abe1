import Verif.Base.Res

/-!
# Objects protected by one mutex

Threads call operations of an object; every operation takes the mutex, executes its statements one by
one and releases the mutex. Any thread may take the mutex whenever it is free, and statements of the
holder may be interleaved with anything other threads do outside the mutex. A thread that fails in
`try_lock` does not touch the object.

`Locked.Reach` contains all states reachable under all schedules. `reach_replay` shows that each of
them is explained by executing the calls one after the other in the order in which the mutex was
taken, each one as a whole. The theorems about objects with a mutex therefore treat every operation
as one step.
-/

namespace Verif.Locked

/-- One statement: works on the shared object and the locals of the call. -/
abbrev Micro (σ ℓ : Type) := σ → ℓ → Res (σ × ℓ)

/-- A call of an operation: its statements and the initial values of its locals (arguments). -/
structure Call (σ ℓ : Type) where
  steps : List (Micro σ ℓ)
  init : ℓ

/-- Statements one after the other. -/
def exec {σ ℓ : Type} : List (Micro σ ℓ) → σ → ℓ → Res (σ × ℓ)
  | [], s, l => .ok (s, l)
  | m :: ms, s, l => do
    let (s, l) ← m s l
    exec ms s l

/-- The holder of the mutex with its remaining statements, and the calls completed so far with the
final values of their locals (results). -/
structure Sys (σ ℓ : Type) where
  shared : σ
  holder : Option (Nat × Call σ ℓ × List (Micro σ ℓ) × ℓ)
  hist : List (Nat × Call σ ℓ × ℓ)

/-- What can happen next. -/
inductive Step {σ ℓ : Type} : Sys σ ℓ → Sys σ ℓ → Prop
  /-- `lock()` returns, or `try_lock()` succeeds -/
  | acquire (s h) (t : Nat) (c : Call σ ℓ) : Step ⟨s, none, h⟩ ⟨s, some (t, c, c.steps, c.init), h⟩
  /-- the holder executes one statement -/
  | micro (s h t c m ms l s' l') : m s l = .ok (s', l') →
      Step ⟨s, some (t, c, m :: ms, l), h⟩ ⟨s', some (t, c, ms, l'), h⟩
  /-- `unlock()` -/
  | release (s h t c l) : Step ⟨s, some (t, c, [], l), h⟩ ⟨s, none, h ++ [(t, c, l)]⟩

/-- All states reachable from a free object. -/
inductive Reach {σ ℓ : Type} (s0 : σ) : Sys σ ℓ → Prop
  | init : Reach s0 ⟨s0, none, []⟩
  | step {a b} : Reach s0 a → Step a b → Reach s0 b

/-- `Replay s h s'`: executing the calls of `h` as a whole, one after the other, leads from `s` to `s'`
with the recorded results. -/
inductive Replay {σ ℓ : Type} : σ → List (Nat × Call σ ℓ × ℓ) → σ → Prop
  | nil (s) : Replay s [] s
  | snoc {s h s' t c l s''} : Replay s h s' → exec c.steps s' c.init = .ok (s'', l) →
      Replay s (h ++ [(t, c, l)]) s''

theorem exec_append {σ ℓ : Type} (a b : List (Micro σ ℓ)) (s : σ) (l : ℓ) :
    exec (a ++ b) s l = (exec a s l >>= fun x => exec b x.1 x.2) := by
  induction a generalizing s l with
  | nil => rfl
  | cons m a ih =>
    simp only [List.cons_append, exec]
    cases m s l with
    | ok x => exact ih _ _
    | abort => rfl
    | ub => rfl

theorem reach_replay {σ ℓ : Type} {s0 : σ} {s : Sys σ ℓ} (h : Reach s0 s) :
    match s.holder with
    | none => Replay s0 s.hist s.shared
    | some (_, c, ms, l) => ∃ s1 done, Replay s0 s.hist s1 ∧ c.steps = done ++ ms ∧
        exec done s1 c.init = .ok (s.shared, l) := by
  induction h with
  | init => exact .nil _
  | step _ hs ih =>
    cases hs with
    | acquire s h t c => exact ⟨s, [], ih, rfl, rfl⟩
    | micro s h t c m ms l s' l' hm =>
      obtain ⟨s1, done, h1, h2, h3⟩ := ih
      refine ⟨s1, done ++ [m], h1, by rw [h2]; simp, ?_⟩
      rw [exec_append, h3]
      simp [exec, hm]
    | release s h t c l =>
      obtain ⟨s1, done, h1, h2, h3⟩ := ih
      rw [List.append_nil] at h2
      exact .snoc h1 (by rw [h2]; exact h3)

end Verif.Locked
