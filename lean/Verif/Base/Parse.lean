import Verif.Model.BitByte
import Verif.Lemma.BitByte
import Verif.Model.Enum

/-!
# Sequential reading of a byte buffer

Most `unpack` functions of Part 4 keep a local `offset`, read `mac_pdu_offset[offset]` or
`mac_pdu_offset[offset + 1]` and add to it. `P` is that pattern: the state is `offset` and the part
of the buffer from `offset` on; reading past the buffer is undefined behaviour.
-/

namespace Verif
open BitByte

structure P (α : Type) where
  run : Nat → List Nat → Res (α × Nat × List Nat)

namespace P

instance : Monad P where
  pure a := ⟨fun o l => .ok (a, o, l)⟩
  bind p f := ⟨fun o l => p.run o l >>= fun x => (f x.1).run x.2.1 x.2.2⟩

/-- `mac_pdu_offset[offset]; offset += 1` -/
def byte : P Nat := ⟨fun o l => match l with
  | [] => .ub
  | b :: l => .ok (b, o + 1, l)⟩

/-- `b2l_lower<T>(&mac_pdu_offset[offset], n); offset += n` with `w = sizeof(T)` -/
def be (w n : Nat) : P Nat := ⟨fun o l => do
  let x ← b2lLower w l n
  pure (x, o + n, l.drop n)⟩

/-- The current `offset`. -/
def offset : P Nat := ⟨fun o l => .ok (o, o, l)⟩

def assert (b : Bool) : P Unit := ⟨fun o l => Res.assert b >>= fun _ => .ok ((), o, l)⟩

/-- `if (flag) { x = ...; }` for a field of type `std::optional`. -/
def opt (flag : Bool) (p : P α) : P (Option α) :=
  if flag then p >>= fun a => pure (some a) else pure none

/-- The result of a function that starts at `offset = 0`. -/
def eval (p : P α) (l : List Nat) : Res α := p.run 0 l >>= fun x => .ok x.1

@[simp] theorem run_pure (a : α) (o : Nat) (l : List Nat) : (pure a : P α).run o l = .ok (a, o, l) := rfl
@[simp] theorem run_bind (p : P α) (f : α → P β) (o : Nat) (l : List Nat) :
    (p >>= f).run o l = (p.run o l >>= fun x => (f x.1).run x.2.1 x.2.2) := rfl
@[simp] theorem run_byte (b o : Nat) (l : List Nat) : byte.run o (b :: l) = .ok (b, o + 1, l) := rfl
@[simp] theorem run_offset (o : Nat) (l : List Nat) : offset.run o l = .ok (o, o, l) := rfl
theorem run_assert (b : Bool) (o : Nat) (l : List Nat) :
    (assert b).run o l = Res.assert b >>= fun _ => .ok ((), o, l) := rfl

theorem run_be (w n x o : Nat) (l : List Nat) (hn : n ≤ w) (hx : x < 256 ^ n) :
    (be w n).run o (beBytes n x ++ l) = .ok (x, o + n, l) := by
  have h1 : b2lLower w (beBytes n x ++ l) n = .ok x := by
    rw [b2lLower_eq _ hn (by simp [beBytes_length])]
    rw [List.take_append_of_le_length (by simp [beBytes_length]),
      List.take_of_length_le (by simp [beBytes_length]), ofBE_beBytes, Nat.mod_eq_of_lt hx]
  simp [be, h1, beBytes_length]

/-- Bytes written for an optional field. -/
def wr (x : Option α) (f : α → List Nat) : List Nat :=
  match x with
  | none => []
  | some a => f a

/-- Bytes written for an optional field by a function that may fail. -/
def wrM (x : Option α) (f : α → Res (List Nat)) : Res (List Nat) :=
  match x with
  | none => .ok []
  | some a => f a

/-- `x.has_value() && !valid(x.value())` is false. -/
def all (x : Option α) (f : α → Bool) : Bool :=
  match x with
  | none => true
  | some a => f a

theorem all_iff (x : Option α) (f : α → Bool) : all x f = true ↔ ∀ a, x = some a → f a = true := by
  cases x <;> simp [all]

theorem wrM_eq (x : Option α) (f : α → Res (List Nat)) (g : α → List Nat)
    (h : ∀ a, x = some a → f a = .ok (g a)) : wrM x f = .ok (wr x g) := by
  cases x with
  | none => rfl
  | some a => exact h a rfl

theorem wr_congr (x : Option α) (f g : α → List Nat) (h : ∀ a, x = some a → f a = g a) :
    wr x f = wr x g := by
  cases x with
  | none => rfl
  | some a => exact h a rfl

theorem wr_bytes (x : Option α) (f : α → List Nat) (h : ∀ a, x = some a → Bytes (f a)) :
    Bytes (wr x f) := by
  cases x with
  | none => simp [wr, Bytes]
  | some a => exact h a rfl

theorem run_opt (p : P α) (f : α → List Nat) (x : Option α) (o : Nat) (l : List Nat)
    (h : ∀ a, x = some a → p.run o (f a ++ l) = .ok (a, o + (f a).length, l)) :
    (opt x.isSome p).run o (wr x f ++ l) = .ok (x, o + (wr x f).length, l) := by
  cases x with
  | none => simp [opt, wr]
  | some a => simp [opt, wr, h a rfl]

/-- Reading more bytes behind the end does not change a defined outcome. -/
def Mono (p : P α) : Prop :=
  ∀ o l q, p.run o l ≠ .ub → p.run o (l ++ q) = (p.run o l >>= fun x => .ok (x.1, x.2.1, x.2.2 ++ q))

theorem Mono.pure (a : α) : Mono (pure a) := by intro o l q _; rfl

theorem Mono.bind {p : P α} {f : α → P β} (hp : Mono p) (hf : ∀ a, Mono (f a)) :
    Mono (p >>= f) := by
  intro o l q h
  rw [run_bind] at h ⊢
  have h1 : p.run o l ≠ .ub := by intro hc; rw [hc] at h; exact h rfl
  rw [hp o l q h1, run_bind]
  cases hr : p.run o l with
  | ok x =>
    rw [hr] at h
    simp only [Res.ok_bind] at h ⊢
    exact hf _ _ _ _ h
  | abort => rfl
  | ub => exact absurd hr h1

theorem Mono.byte : Mono byte := by
  intro o l q h
  cases l with
  | nil => exact absurd rfl h
  | cons b l => rfl

theorem Mono.be (w n : Nat) : Mono (be w n) := by
  intro o l q h
  have hb : n ≤ w ∧ n ≤ l.length := by
    by_contra hc
    exact h (by simp [P.be, b2lLower, hc])
  have hb' : n ≤ w ∧ n ≤ (l ++ q).length := by simp; omega
  simp only [P.be, b2lLower, if_pos hb, if_pos hb', Res.ok_bind, Res.pure_eq]
  rw [List.take_append_of_le_length hb.2, List.drop_append_of_le_length hb.2]

theorem Mono.offset : Mono offset := by intro o l q _; rfl

theorem Mono.assert (b : Bool) : Mono (assert b) := by
  intro o l q _; cases b <;> rfl

theorem Mono.ite {c : Prop} [Decidable c] {p r : P α} (hp : Mono p) (hr : Mono r) :
    Mono (if c then p else r) := by
  split <;> assumption

theorem Mono.opt {p : P α} (b : Bool) (hp : Mono p) : Mono (opt b p) := by
  unfold P.opt; split
  · exact hp.bind fun a => Mono.pure _
  · exact Mono.pure _

theorem Mono.eval {p : P α} (hp : Mono p) (l q : List Nat) (h : p.eval l ≠ .ub) :
    p.eval (l ++ q) = p.eval l := by
  have h1 : p.run 0 l ≠ .ub := by intro hc; exact h (by simp [P.eval, hc])
  unfold P.eval
  rw [hp 0 l q h1]
  cases p.run 0 l <;> rfl

/-- With `k` bytes available, `p` reads exactly `k` bytes and succeeds with a result satisfying `Q`. -/
def Reads (p : P α) (k : Nat) (Q : α → Prop) : Prop :=
  ∀ o l, Bytes l → k ≤ l.length → ∃ a, Q a ∧ p.run o l = .ok (a, o + k, l.drop k)

theorem Bytes.drop {l : List Nat} (h : Bytes l) (n : Nat) : Bytes (l.drop n) :=
  fun b hb => h b (List.mem_of_mem_drop hb)

theorem Reads.pure {a : α} {Q : α → Prop} (h : Q a) : Reads (pure a) 0 Q :=
  fun o l _ _ => ⟨a, h, by simp⟩

theorem Reads.bind {p : P α} {f : α → P β} {k j : Nat} {Q : α → Prop} {R : β → Prop}
    (hp : Reads p k Q) (hf : ∀ a, Q a → Reads (f a) j R) : Reads (p >>= f) (k + j) R := by
  intro o l hl hk
  obtain ⟨a, ha, e⟩ := hp o l hl (by omega)
  obtain ⟨b, hb, e'⟩ := hf a ha (o + k) (l.drop k) (Bytes.drop hl k) (by simp; omega)
  refine ⟨b, hb, ?_⟩
  rw [run_bind, e, Res.ok_bind, e', List.drop_drop, Nat.add_assoc]

theorem Reads.byte : Reads byte 1 (fun b => b < 256) := by
  intro o l hl hk
  match l, hk with
  | b :: l, _ => exact ⟨b, hl b (by simp), rfl⟩

theorem Reads.be {w n : Nat} (hn : n ≤ w) : Reads (be w n) n (fun x => x < 256 ^ n) := by
  intro o l hl hk
  refine ⟨ofBE (l.take n), ?_, ?_⟩
  · have := ofBE_lt (l.take n) fun b hb => hl b (List.mem_of_mem_take hb)
    rwa [List.length_take, Nat.min_eq_left hk] at this
  · simp [P.be, b2lLower_eq l hn hk]

theorem Reads.opt {p : P α} {k : Nat} {Q : α → Prop} (b : Bool) (hp : Reads p k Q) :
    Reads (opt b p) (b.toNat * k) (fun x => x.isSome = b ∧ ∀ a, x = some a → Q a) := by
  cases b with
  | true =>
    have := hp.bind (f := fun a => (Pure.pure (some a) : P (Option α)))
      (R := fun x => x.isSome = true ∧ ∀ a, x = some a → Q a) (j := 0)
      fun a ha => Reads.pure ⟨rfl, by rintro _ ⟨⟩; exact ha⟩
    simpa [P.opt] using this
  | false => simpa [P.opt] using (Reads.pure (a := (none : Option α)) (by simp))

theorem Reads.weaken {p : P α} {k : Nat} {Q R : α → Prop} (hp : Reads p k Q) (h : ∀ a, Q a → R a) :
    Reads p k R := by
  intro o l hl hk
  obtain ⟨a, ha, e⟩ := hp o l hl hk
  exact ⟨a, h a ha, e⟩

theorem Reads.congr {p : P α} {k j : Nat} {Q : α → Prop} (hp : Reads p k Q) (h : k = j) :
    Reads p j Q := h ▸ hp

theorem Reads.eval {p : P α} {k : Nat} {Q : α → Prop} (hp : Reads p k Q) (l : List Nat)
    (hl : Bytes l) (hk : k ≤ l.length) : ∃ a, Q a ∧ p.eval l = .ok a := by
  obtain ⟨a, ha, e⟩ := hp 0 l hl hk
  exact ⟨a, ha, by simp [P.eval, e]⟩

end P
end Verif
