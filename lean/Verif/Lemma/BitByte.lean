import Verif.Model.BitByte
import Mathlib.Data.List.Induction

namespace Verif.BitByte

theorem beBytes_length (w x : Nat) : (beBytes w x).length = w := by
  induction w generalizing x with
  | zero => rfl
  | succ w ih => simp [beBytes, ih]

theorem ofBE_append (l m : List Nat) : ofBE (l ++ m) = ofBE l * 256 ^ m.length + ofBE m := by
  suffices h : ∀ (m : List Nat) (a : Nat), m.foldl (fun acc b => acc * 256 + b) a =
      a * 256 ^ m.length + m.foldl (fun acc b => acc * 256 + b) 0 by
    simp only [ofBE, List.foldl_append]; exact h m _
  intro m
  induction m with
  | nil => intro a; simp
  | cons b m ih =>
    intro a
    simp only [List.foldl_cons, List.length_cons]
    rw [ih (a * 256 + b), ih (0 * 256 + b), Nat.pow_succ]
    ring

theorem ofBE_replicate_zero (k : Nat) : ofBE (List.replicate k 0) = 0 := by
  induction k with
  | zero => rfl
  | succ k ih => rw [List.replicate_succ', ofBE_append, ih]; rfl

theorem ofBE_beBytes (w x : Nat) : ofBE (beBytes w x) = x % 256 ^ w := by
  induction w generalizing x with
  | zero => simp [beBytes, ofBE, Nat.mod_one]
  | succ w ih =>
    rw [beBytes, ofBE_append, ih, Nat.pow_succ, Nat.mul_comm (256 ^ w) 256, Nat.mod_mul]
    simp [ofBE]; omega

theorem beBytes_bytes (w x : Nat) : Bytes (beBytes w x) := by
  induction w generalizing x with
  | zero => simp [beBytes, Bytes]
  | succ w ih =>
    intro b hb
    rw [beBytes, List.mem_append] at hb
    rcases hb with hb | hb
    · exact ih _ b hb
    · simp at hb; omega

theorem beBytes_split (a n x : Nat) :
    beBytes (a + n) x = beBytes a (x / 256 ^ n) ++ beBytes n x := by
  induction n generalizing x with
  | zero => simp [beBytes]
  | succ n ih =>
    rw [← Nat.add_assoc, beBytes, ih, beBytes, List.append_assoc, Nat.div_div_eq_div_mul,
      Nat.pow_succ, Nat.mul_comm 256]

theorem beBytes_drop {w n : Nat} (x : Nat) (h : n ≤ w) :
    (beBytes w x).drop (w - n) = beBytes n x := by
  obtain ⟨a, rfl⟩ := Nat.exists_eq_add_of_le' h
  rw [beBytes_split, Nat.add_sub_cancel]
  exact List.drop_left' (beBytes_length _ _)

theorem beBytes_take {w n : Nat} (x : Nat) (h : n ≤ w) :
    (beBytes w x).take n = beBytes n (x / 256 ^ (w - n)) := by
  obtain ⟨a, rfl⟩ := Nat.exists_eq_add_of_le h
  rw [beBytes_split, Nat.add_sub_cancel_left]
  exact List.take_left' (beBytes_length _ _)

theorem beBytes_ofBE (l : List Nat) (h : Bytes l) : beBytes l.length (ofBE l) = l := by
  induction l using List.reverseRecOn with
  | nil => rfl
  | append_singleton l b ih =>
    have hb : b < 256 := h b (by simp)
    have hl : Bytes l := fun c hc => h c (by simp [hc])
    have e : ofBE (l ++ [b]) = ofBE l * 256 + b := by rw [ofBE_append]; simp [ofBE]
    rw [List.length_append, List.length_singleton, beBytes, e,
      show (ofBE l * 256 + b) / 256 = ofBE l by omega, show (ofBE l * 256 + b) % 256 = b by omega,
      ih hl]

theorem ofBE_lt (l : List Nat) (h : Bytes l) : ofBE l < 256 ^ l.length := by
  have := ofBE_beBytes l.length (ofBE l)
  rw [beBytes_ofBE l h] at this
  rw [this]; exact Nat.mod_lt _ (Nat.pow_pos (by omega))

theorem beBytes_get (w x i : Nat) (h : i < w) :
    (beBytes w x)[i]? = some (x / 256 ^ (w - 1 - i) % 256) := by
  induction w generalizing x with
  | zero => omega
  | succ w ih =>
    rw [beBytes]
    by_cases hi : i < w
    · rw [List.getElem?_append_left (by rw [beBytes_length]; exact hi), ih _ hi,
        Nat.div_div_eq_div_mul, ← Nat.pow_succ']
      congr 4; omega
    · have : i = w := by omega
      subst this
      rw [List.getElem?_append_right (by rw [beBytes_length]), beBytes_length]
      simp

theorem l2bLower_eq {w n : Nat} (x : Nat) (h : n ≤ w) : l2bLower w x n = .ok (beBytes n x) := by
  rw [l2bLower, if_pos h, beBytes_drop x h]

theorem l2bUpper_eq {w n : Nat} (x : Nat) (h : n ≤ w) :
    l2bUpper w x n = .ok (beBytes n (x / 256 ^ (w - n))) := by
  rw [l2bUpper, if_pos h, beBytes_take x h]

theorem b2lLower_eq {w n : Nat} (l : List Nat) (h : n ≤ w) (hl : n ≤ l.length) :
    b2lLower w l n = .ok (ofBE (l.take n)) := by
  rw [b2lLower, if_pos ⟨h, hl⟩, ofBE_append, ofBE_replicate_zero]
  simp

theorem b2lUpper_eq {w n : Nat} (l : List Nat) (h : n ≤ w) (hl : n ≤ l.length) :
    b2lUpper w l n = .ok (ofBE (l.take n) * 256 ^ (w - n)) := by
  rw [b2lUpper, if_pos ⟨h, hl⟩, ofBE_append, ofBE_replicate_zero]
  simp

/-- The loop of `bitmask` for a type of at most 32 bits. -/
theorem bitmask_eq (w msb lsb : Nat) (hw : w ≤ 32) (h1 : lsb ≤ msb) (h2 : msb ≤ w) :
    bitmask w msb lsb = .ok (2 ^ msb - 2 ^ lsb) := by
  obtain ⟨n, rfl⟩ := Nat.exists_eq_add_of_le h1
  unfold bitmask
  rw [Nat.add_sub_cancel_left]
  clear h1
  induction n with
  | zero => simp
  | succ n ih =>
    rw [List.range'_1_concat, List.foldlM_append, ih (by omega)]
    have e : ¬ (32 ≤ lsb + n) := by omega
    have e' : ¬ (lsb + n = 31 ∧ 32 < w) := by omega
    simp only [Res.ok_bind, List.foldlM_cons, List.foldlM_nil, if_neg e, if_neg e',
      Res.pure_eq, Nat.one_shiftLeft]
    have p1 : 2 ^ lsb ≤ 2 ^ (lsb + n) := Nat.pow_le_pow_right (by omega) (by omega)
    have p2 : 2 ^ (lsb + n + 1) ≤ 2 ^ w := Nat.pow_le_pow_right (by omega) (by omega)
    have p3 : 0 < 2 ^ lsb := Nat.two_pow_pos _
    rw [Nat.or_comm, or_eq_add_of_lt (k := lsb + n) (Nat.mod_self _) (by omega),
      ← Nat.add_assoc, Nat.pow_succ] at *
    rw [Nat.mod_eq_of_lt (by omega)]
    congr 1; omega

end Verif.BitByte
