import Verif.Model.Bimap

/-!
# Contact list (inc/mac/contact_list.hpp:30-107)

The type `T` of contacts is a parameter; `dflt` is `T{}`. The unordered map is the list of its pairs. `reserve` has no
observable effect. A failing `at` of map or vector is an exception in a `noexcept` function, which ends the program. -/

namespace Verif.Mac

open Verif.Adt

/-- contact_list.hpp:93-105 -/
structure ContactList (T : Type) where
  srdid : Bimap Nat Nat
  server : Bimap Nat Nat
  client : Bimap Nat Nat
  idx : List (Nat × Nat)
  contacts : List T

namespace ContactList
variable {T : Type}

def empty : ContactList T := ⟨Bimap.empty, Bimap.empty, Bimap.empty, [], []⟩

/-- `std::unordered_map::insert`: an element whose key is present already is not inserted. -/
def umInsert (m : List (Nat × Nat)) (k v : Nat) : List (Nat × Nat) := if m.any (fun p => p.1 = k) then m else m ++ [(k, v)]

/-- contact_list.hpp:43-53 -/
def add (dflt : T) (c : ContactList T) (lrdid srdid server client : Nat) : Res (ContactList T) := do
  let s ← c.srdid.insert true lrdid srdid
  let a ← c.server.insert true lrdid server
  let b ← c.client.insert true lrdid client
  pure ⟨s, a, b, umInsert c.idx lrdid c.contacts.length, c.contacts ++ [dflt]⟩

/-- contact_list.hpp:57-63 -/
def isLrdidKnown (c : ContactList T) (l : Nat) : Bool := c.srdid.isKKnown l

def isSrdidKnown (c : ContactList T) (s : Nat) : Bool := c.srdid.isVKnown s

/-- contact_list.hpp:65-79 -/
def lrdidFromSrdid (c : ContactList T) (s : Nat) : Res Nat := c.srdid.getK s

def srdidFromLrdid (c : ContactList T) (l : Nat) : Res Nat := c.srdid.getV l

def lrdidFromServer (c : ContactList T) (s : Nat) : Res Nat := c.server.getK s

def clientFromLrdid (c : ContactList T) (l : Nat) : Res Nat := c.client.getV l

/-- `contact_idx_um.at(lrdid)` -/
def position (c : ContactList T) (l : Nat) : Res Nat :=
  match c.idx.find? fun p => p.1 = l with
  | some p => .ok p.2
  | none => .abort

/-- contact_list.hpp:81-83 -/
def getContact (c : ContactList T) (l : Nat) : Res T := do
  let i ← c.position l
  match c.contacts[i]? with
  | some x => .ok x
  | none => .abort

/-- An assignment through the reference of contact_list.hpp:85-87 -/
def write (c : ContactList T) (l : Nat) (x : T) : Res (ContactList T) := do
  let i ← c.position l
  if i < c.contacts.length then .ok { c with contacts := c.contacts.set i x } else .abort

end ContactList

/-- Calls that change the list -/
inductive ContactCall (T : Type) where
  | add (lrdid srdid server client : Nat)
  | write (lrdid : Nat) (x : T)

def ContactList.call {T : Type} (dflt : T) (c : ContactList T) : ContactCall T → Res (ContactList T)
  | .add l s a b => c.add dflt l s a b
  | .write l x => c.write l x

def ContactList.run {T : Type} (dflt : T) (c : ContactList T) : List (ContactCall T) → Res (ContactList T)
  | [] => .ok c
  | x :: xs => do (← c.call dflt x).run dflt xs

end Verif.Mac
