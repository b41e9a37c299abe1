import Verif.Model.Rtt

/-!
# What is expected of the measurement of the round-trip time
-/

namespace Verif.Upper.Rtt

/-- The packet carries the datagram: its transport block has the full size and begins with the datagram. -/
def Carries (c : Cfg) (t : Tx) (d : List Nat) : Prop := d <+: t.tb ∧ t.tb.length = c.nTb

/-- 1 if the server thread is about to announce a datagram for transmission. -/
def Srv.pending : Srv → Nat
  | .written 0 _ => 1
  | .enqueuing 0 _ => 1
  | _ => 0

/-- Datagrams for transmission that are announced by a job, or are about to be. -/
def announced (s : Sys) : Nat := s.jobs.countP (fun j => j.1 = 0) + s.srv.pending

/-- Datagrams for transmission in the queue. -/
def queued (s : Sys) : Nat := (s.q 0).used

/-- Value of bytes, least significant first. -/
def value : List Nat → Nat
  | [] => 0
  | b :: l => b + 256 * value l

/-- Events under normal conditions: datagrams for transmission fit into a packet, packets received fit into the buffer of
the firmware, and there is a HARQ process for every transmission. -/
def Normal (c : Cfg) : Ev → Prop
  | .recv conn d => conn = 0 → d.length ≤ c.nTb
  | .work _ hp _ => ∃ buf, hp = some buf ∧ c.nTb ≤ buf.length
  | .pdc mem cnt _ _ hp _ _ => verLen ≤ mem.length ∧ cnt ≤ mem.length ∧ cnt ≤ stageLen ∧ ∃ buf, hp = some buf ∧ c.nTb ≤ buf.length
  | _ => True

/-- The start of a device to which nobody sends datagrams yet. -/
def start : List Ev := [.boot, .boot, .boot]

end Verif.Upper.Rtt
