import Verif.Base.Res

/-!
# Bidirectional map (inc/common/adt/bimap.hpp:35-118)

The `boost::bimap` inside is the list of its pairs. Hashing is not modelled: `find` looks through the
list. `insert` and `replace_data` of `boost::bimap` refuse a pair that would collide on a side that is a
set; the left side is always a set, the right side only if `unique`.

`get_v_as_opt` and `get_k_as_opt` (lines 74-76, 92-96) cannot be instantiated (no common type of `V` and
`std::nullopt_t`) and are not modelled; `reserve` has no observable effect.
-/

namespace Verif.Adt

/-- `bimap_t<K, V, unique>` -/
structure Bimap (K V : Type) where
  pairs : List (K × V)

namespace Bimap
variable {K V : Type} [DecidableEq K] [DecidableEq V]

def empty : Bimap K V := ⟨[]⟩

/-- bimap.hpp:83 -/
def isKKnown (m : Bimap K V) (k : K) : Bool := m.pairs.any fun p => p.1 = k

/-- bimap.hpp:56-58 -/
def isVKnown (m : Bimap K V) (v : V) : Bool := m.pairs.any fun p => p.2 = v

/-- bimap.hpp:39-46 -/
def insert (unique : Bool) (m : Bimap K V) (k : K) (v : V) : Res (Bimap K V) := do
  Res.assert (!m.isKKnown k)
  if unique then Res.assert (!m.isVKnown v)
  -- boost: inserted if no collision
  let ok := !m.isKKnown k && (!unique || !m.isVKnown v)
  let m' : Bimap K V := if ok then ⟨m.pairs ++ [(k, v)]⟩ else m
  Res.assert ok
  pure m'

/-- bimap.hpp:48-51: erases the pair found for `k`. -/
def erase (m : Bimap K V) (k : K) : Res (Bimap K V) := do
  Res.assert (m.isKKnown k)
  pure ⟨m.pairs.eraseP fun p => p.1 = k⟩

/-- `replace_data` on the pair found for `k`. -/
def replaceData : List (K × V) → K → V → List (K × V)
  | [], _, _ => []
  | p :: l, k, v => if p.1 = k then (k, v) :: l else p :: replaceData l k v

/-- bimap.hpp:60-67 -/
def setV (unique : Bool) (m : Bimap K V) (k : K) (v : V) : Res (Bimap K V) := do
  Res.assert (m.isKKnown k)
  if unique then Res.assert (!m.isVKnown v)
  -- boost: replaced if no other pair has the value
  let ok := !unique || !(m.pairs.any fun p => p.1 ≠ k && p.2 = v)
  let m' : Bimap K V := if ok then ⟨replaceData m.pairs k v⟩ else m
  Res.assert ok
  pure m'

/-- bimap.hpp:69-72 -/
def getV (m : Bimap K V) (k : K) : Res V := do
  Res.assert (m.isKKnown k)
  match m.pairs.find? fun p => p.1 = k with
  | some p => pure p.2
  | none => .abort

/-- bimap.hpp:85-90 -/
def getK (m : Bimap K V) (v : V) : Res K := do
  Res.assert (m.isVKnown v)
  match m.pairs.find? fun p => p.2 = v with
  | some p => pure p.1
  | none => .abort

/-- bimap.hpp:98-103: the keys of the range. -/
def getKRange (m : Bimap K V) (v : V) : Res (List K) := do
  Res.assert (m.isVKnown v)
  pure ((m.pairs.filter fun p => p.2 = v).map Prod.fst)

/-- bimap.hpp:78, 105 -/
def cnt (m : Bimap K V) : Nat := m.pairs.length

end Bimap

/-- Calls that change the map. -/
inductive BCall (K V : Type) where
  | insert (k : K) (v : V)
  | erase (k : K)
  | setV (k : K) (v : V)

variable {K V : Type} [DecidableEq K] [DecidableEq V]

def Bimap.call (unique : Bool) (m : Bimap K V) : BCall K V → Res (Bimap K V)
  | .insert k v => m.insert unique k v
  | .erase k => m.erase k
  | .setV k v => m.setV unique k v

def Bimap.run (unique : Bool) (m : Bimap K V) : List (BCall K V) → Res (Bimap K V)
  | [] => .ok m
  | c :: cs => do (← m.call unique c).run unique cs

end Verif.Adt
