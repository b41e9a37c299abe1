import Verif.Model.LinkAdapt

/-!
# What a packet should be adapted to

In terms of the history of a contact. -/

namespace Verif.Link.Spec

/-- MCS suggested by the peer (feedback format 4), and when -/
def suggested : Event → Option (Nat × Int)
  | .plcf 4 pool t => some (pool.f4.mcs, t)
  | _ => none

/-- MCS the peer could have used for a packet received here, and when -/
def measured (l : Cqi) : Event → Option (Nat × Int)
  | .snr p t => some (l.highest p, t)
  | _ => none

/-- Codebook index recommended to the peer -/
def recommended : Event → Option (Nat × Int)
  | .report idx _ t => some (idx, t)
  | _ => none

/-- Codebook index to use for packets to the peer: recommended by it (feedback format 5) or found here for the reciprocal channel -/
def own : Event → Option (Nat × Int)
  | .plcf 5 pool t => some (pool.f5.codebook, t)
  | .report _ recip t => some (recip, t)
  | _ => none

/-- The last value in a history -/
def last (f : Event → Option (Nat × Int)) (h : List Event) : Option (Nat × Int) := (h.filterMap f).getLast?

/-- A value not older than `latest`, or the fallback -/
def fresh (v : Option (Nat × Int)) (latest : Int) (fallback : Nat) : Nat :=
  match v with
  | some (x, t) => if latest ≤ t then x else fallback
  | none => fallback

/-- SNR in dB an MCS needs -/
def needs : Nat → ℚ
  | 0 => -1
  | 1 => 1
  | 2 => 4
  | 3 => 7
  | 4 => 11
  | 5 => 14
  | 6 => 15
  | 7 => 17.5
  | 8 => 21
  | 9 => 24
  | 10 => 27
  | _ => 30

/-- `m` is the highest MCS allowed that needs at most the SNR `p`, or the lowest MCS allowed if there is none -/
def Highest (l : Cqi) (p : Option ℚ) (m : Nat) : Prop :=
  (l.min ≤ m ∧ m ≤ l.max) ∧ (m = l.min ∨ ∃ q, p = some q ∧ needs m ≤ q) ∧
    ∀ k, m < k → k ≤ l.max → ∀ q, p = some q → q < needs k

/-- The feedback info of formats 4 and 5 can be packed -/
def Packable (q : Feedback.Pool) : Prop :=
  (q.f4.bitmap ≤ 255 ∧ q.f4.mcs ≤ 11) ∧ q.f5.harq ≤ 7 ∧ q.f5.tf ≠ .undef ∧ q.f5.mimo ≠ .undef ∧ q.f5.codebook ≤ 63

/-- What can happen to a contact: only formats that pass the check of the PLCF, times of transmission that are defined -/
def Regular (n : Nat) : Event → Prop
  | .plcf fmt _ _ => fmt ≤ 6
  | .snr _ _ => True
  | .report idx recip _ => idx ≤ 63 ∧ recip ≤ 63
  | .send tx _ _ => -1152921504606846976 < tx - n ∧ tx < 9223372036854775808
  | .other q => Packable q

end Verif.Link.Spec
