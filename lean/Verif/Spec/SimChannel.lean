import Verif.Model.SimChannel

/-! # What the simulated channels do to a signal -/

namespace Verif.Sim.Wireless.Spec

section
variable {F : Type} [Field F]

/-- Cosine and sine: angles add up, `tp` is a full turn -/
def Turn (cis : F → Cx F) (tp : F) : Prop := (∀ a b, cis (a + b) = cis a * cis b) ∧ cis tp = ⟨1, 0⟩

def Root [LinearOrder F] (sqrt : F → F) : Prop := ∀ x, 0 ≤ x → sqrt x * sqrt x = x

/-- Multiplication with a real number -/
def real (c : F) (x : Cx F) : Cx F := ⟨c * x.re, c * x.im⟩

/-- Gain of a tap at time `t`: the sum of sinusoids that turn once per period -/
def gain (sqrt : F → F) (cis : F → Cx F) (tp : F) (p : Tap F) (t : F) : Cx F :=
  real (sqrt p.power / sqrt 40) ((p.sines.map fun s => cis (s.phase + tp * t / (s.period : F))).sum)

/-- Output of a linear time-variant channel at time `t`: `x d` is the input `d` samples before -/
def response (sqrt : F → F) (cis : F → Cx F) (tp : F) (taps : List (Tap F)) (t : F) (x : Nat → Cx F) : Cx F :=
  (taps.map fun p => x p.delay * gain sqrt cis tp p t).sum

/-- Sample `n` of what was sent so far; nothing was sent before time 0 -/
def stream (chunks : List (List (Cx F))) (n : Int) : Cx F := if n < 0 then 0 else chunks.flatten.getD n.toNat 0

/-- One use of a link -/
structure Use (F : Type) where
  inp : List (Cx F)
  primary : Bool
  t : Int

/-- The outputs of a link for a history of uses -/
def outputs (sqrt : F → F) (cis : F → Cx F) (tp : F) (spp : Nat) : Link F → List (Use F) → Res (List (List (Cx F)))
  | _, [] => .ok []
  | l, u :: us => do
    let r ← l.pass sqrt cis tp spp u.inp u.primary u.t
    let q ← outputs sqrt cis tp spp r.1 us
    .ok (r.2 :: q)

/-- The chunks sent in one direction -/
def sent (us : List (Use F)) (primary : Bool) : List (List (Cx F)) := (us.filter fun u => u.primary == primary).map (·.inp)

/-- Taps that fit in the history and sinusoids with a period -/
def GoodTap (spp : Nat) (p : Tap F) : Prop := p.delay ≤ spp ∧ ∀ s ∈ p.sines, s.period ≠ 0

/-- The signal on antenna `a`, sample `k` -/
def at2 (x : List (List (Cx F))) (a k : Nat) : Cx F := (x.getD a []).getD k 0

/-- What the channel makes of the samples `y` of antenna pair `idx`, sample `k` -/
def pairOut (sqrt : F → F) (cis : F → Cx F) (tp : F) (spp : Nat) (c : Chan F) (idx : Nat) (primary : Bool) (t : Int) (y : Nat → Cx F) (k : Nat) : Cx F :=
  match c with
  | .awgn => y k
  | .flat z => y k * z.getD idx 0
  | .doubly links =>
    let l := links.getD idx ⟨[], [], []⟩
    let before := if primary then l.hist0 else l.hist1
    response sqrt cis tp l.taps ((t : F) + k) fun d => if d ≤ k then y (k - d) else before.getD (spp + k - d) 0

/-- The channel has an entry for each pair of antennas -/
def Fits (spp nPairs : Nat) : Chan F → Prop
  | .awgn => True
  | .flat z => z.length = nPairs
  | .doubly links => links.length = nPairs ∧ ∀ l ∈ links, (∀ p ∈ l.taps, GoodTap spp p) ∧ l.hist0.length = spp ∧ l.hist1.length = spp

/-- The channel after one use: links remember what was sent over them in this direction -/
def pairNext (c : Chan F) (y : Nat → List (Cx F)) (primary : Bool) : Chan F :=
  match c with
  | .doubly links => .doubly (links.mapIdx fun idx l => if primary then { l with hist0 := y idx } else { l with hist1 := y idx })
  | c => c

/-- The samples that enter pair `idx` of a channel: the signal of its transmit antenna after large scale fading -/
def faded (g : Nat → Nat → F) (x : List (List (Cx F))) (nRx idx : Nat) : List (Cx F) :=
  (x.getD (idx / nRx) []).map fun z => ⟨z.re * g (idx / nRx) (idx % nRx), z.im * g (idx / nRx) (idx % nRx)⟩

/-- `n` antennas with `spp` samples each -/
def Frame (n spp : Nat) (x : List (List (Cx F))) : Prop := x.length = n ∧ ∀ l ∈ x, l.length = spp

/-- The power delay profiles: delay in ns and power in dB -/
def profile : Nat → List (Nat × ℚ)
  | 0 => [(0, 0), (30, -1), (70, -2), (90, -3), (110, -8), (190, -17.2), (410, -20.8)]
  | 1 => [(0, 0), (30, -1.5), (150, -1.4), (310, -3.6), (370, -0.6), (710, -9.1), (1090, -7), (1730, -12), (2510, -16.9)]
  | _ => [(0, -1), (50, -1), (120, -1), (200, 0), (230, 0), (500, 0), (1600, -3), (2300, -5), (5000, -7)]

/-- Delay of the last tap of a profile in ns -/
def lastDelay : Nat → Nat
  | 0 => 410
  | 1 => 2510
  | _ => 5000

end
end Verif.Sim.Wireless.Spec
