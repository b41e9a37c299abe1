/-!
# Contact list: a list of contacts with four identifiers each -/

namespace Verif.Spec

structure Contact (T : Type) where
  lrdid : Nat
  srdid : Nat
  server : Nat
  client : Nat
  entry : T

/-- No identifier of the new contact is in use -/
def Contact.Fresh {T : Type} (l : List (Contact T)) (lrdid srdid server client : Nat) : Prop :=
  ∀ c ∈ l, c.lrdid ≠ lrdid ∧ c.srdid ≠ srdid ∧ c.server ≠ server ∧ c.client ≠ client

/-- The entry of one contact changes, nothing else -/
def Contact.assign {T : Type} (l : List (Contact T)) (lrdid : Nat) (x : T) : List (Contact T) :=
  l.map fun c => if c.lrdid = lrdid then { c with entry := x } else c

/-- History of the contact list, and the contacts it leads to -/
inductive Contact.History {T : Type} (dflt : T) : List (Contact T) → Prop where
  | nil : History dflt []
  | add {l : List (Contact T)} (lrdid srdid server client : Nat) : History dflt l → Fresh l lrdid srdid server client →
      History dflt (l ++ [⟨lrdid, srdid, server, client, dflt⟩])
  | assign {l : List (Contact T)} (lrdid : Nat) (x : T) : History dflt l → (∃ c ∈ l, c.lrdid = lrdid) →
      History dflt (assign l lrdid x)

end Verif.Spec
