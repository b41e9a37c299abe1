import Verif.Model.Channel
import Verif.Spec.Channel
import Verif.Lemma.MacHeader
import Verif.Model.ClusterBeacon

namespace Verif.Channel

theorem inRange_iff (n : Nat) : inRange n = true ↔ Assigned n := by
  unfold inRange Assigned
  rw [mask13]
  by_cases h : 8191 < n
  · simp [h]; omega
  · simp only [h, if_false, scan, band]
    simp
    omega

theorem lt_of_assigned {n : Nat} (h : Assigned n) : n < 8192 := by unfold Assigned at h; omega

end Verif.Channel

namespace Verif.Mac

theorem wrChannel_eq {x : Nat} (h : x < 8192) : wrChannel x = [x / 256, x % 256] := by
  unfold wrChannel
  rw [show bitmaskLsb 8 = 255 by decide]
  bits
  simp; omega

theorem run_rdChannel {x : Nat} (h : x < 8192) (o : Nat) (l : List Nat) :
    rdChannel.run o (wrChannel x ++ l) = .ok (x, o + 2, l) := by
  rw [wrChannel_eq h]
  have : (x % 256 ||| (x / 256 &&& bitmaskLsb 5) <<< 8) = x := by
    rw [show bitmaskLsb 5 = 31 by decide, Nat.or_comm]
    bits
    omega
  simp [rdChannel, this]

theorem rdChannel_reads : P.Reads rdChannel 2 (fun x => x < 8192) := by
  refine P.Reads.bind (j := 1) P.Reads.byte fun a ha => ?_
  refine P.Reads.bind (j := 0) P.Reads.byte fun b hb => P.Reads.pure ?_
  rw [show bitmaskLsb 5 = 31 by decide, Nat.or_comm]
  bitsg
  omega

theorem rdChannel_mono : P.Mono rdChannel :=
  P.Mono.byte.bind fun _ => P.Mono.byte.bind fun _ => P.Mono.pure _

end Verif.Mac
