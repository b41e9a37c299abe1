import Verif.Model.Resampler

/-!
# Vocabulary for C47: rational resampling of a whole stream

The stream `x` is preceded by zeros (one filter history), the first `skip` positions are skipped to compensate the
filter delay, and position number `i` produces one output for each subfilter in entry `i % M` of the table. -/

namespace Verif.Phy.Resampler.Spec

variable {α β : Type}

/-- Outputs at position `i` when the stream with its leading zeros is `w` -/
def outputsAt (c : Cfg α β) (w : List α) (i : Nat) : List β :=
  (c.idx (i % c.M)).map (fun f => c.dot f ((w.drop (c.skip + i)).take (c.h + 1)))

/-- Output after the samples `x` have been fed in -/
def output (c : Cfg α β) (x : List α) : List β :=
  (List.range (x.length - c.skip)).flatMap (outputsAt c (List.replicate c.h c.zero ++ x))

/-- Output after the samples `x` have been fed in and the filter has been flushed with zeros -/
def outputFlushed (c : Cfg α β) (x : List α) : List β :=
  (List.range (c.h + x.length - c.skip)).flatMap
    (outputsAt c (List.replicate c.h c.zero ++ x ++ List.replicate c.h c.zero))

/-- Unrolled version of the table: pairs of input offset and subfilter for one period -/
def table {α β : Type} (c : Cfg α β) : List (Nat × Nat) := (List.range c.M).flatMap (fun i => (c.idx i).map (fun f => (i, f)))

end Verif.Phy.Resampler.Spec
