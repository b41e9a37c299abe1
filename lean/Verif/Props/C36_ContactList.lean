import Verif.Model.ContactList
import Verif.Spec.ContactList
import Mathlib.Data.List.Nodup

/-!
# C36: Contact list indexes stay consistent -/

namespace Verif.Props.C36

open Verif.Mac Verif.Adt Verif.Spec

set_option linter.unusedSimpArgs false

variable {T : Type}

/-- The list stores exactly the contacts `l`. -/
structure Stores (c : ContactList T) (l : List (Contact T)) : Prop where
  srdid : c.srdid.pairs = l.map fun x => (x.lrdid, x.srdid)
  server : c.server.pairs = l.map fun x => (x.lrdid, x.server)
  client : c.client.pairs = l.map fun x => (x.lrdid, x.client)
  idx : c.idx = l.zipIdx.map fun x => (x.1.lrdid, x.2)
  contacts : c.contacts = l.map fun x => x.entry
  nodup : (l.map fun x => x.lrdid).Nodup
  nodupS : (l.map fun x => x.srdid).Nodup
  nodupA : (l.map fun x => x.server).Nodup
  nodupB : (l.map fun x => x.client).Nodup

theorem find_fst (l : List (Contact T)) (f : Contact T → Nat) (hn : (l.map fun x => x.lrdid).Nodup) (x : Contact T) (hx : x ∈ l) :
    (l.map fun y => (y.lrdid, f y)).find? (fun p => decide (p.1 = x.lrdid)) = some (x.lrdid, f x) := by
  induction l with
  | nil => exact absurd hx (by simp)
  | cons y l ih =>
    simp only [List.map_cons, List.nodup_cons, List.mem_map, not_exists, not_and] at hn ⊢
    rw [List.find?_cons]
    by_cases h : y.lrdid = x.lrdid
    · have : y = x := by
        rcases List.mem_cons.1 hx with h' | h'
        · exact h'.symm
        · exact absurd h.symm (hn.1 x h')
      subst this
      simp
    · have : x ∈ l := by
        rcases List.mem_cons.1 hx with rfl | h'
        · exact absurd rfl h
        · exact h'
      simp only [h, decide_false]
      exact ih hn.2 this

theorem find_snd (l : List (Contact T)) (f : Contact T → Nat) (hn : (l.map f).Nodup) (x : Contact T) (hx : x ∈ l) :
    (l.map fun y => (y.lrdid, f y)).find? (fun p => decide (p.2 = f x)) = some (x.lrdid, f x) := by
  induction l with
  | nil => exact absurd hx (by simp)
  | cons y l ih =>
    simp only [List.map_cons, List.nodup_cons, List.mem_map, not_exists, not_and] at hn ⊢
    rw [List.find?_cons]
    by_cases h : f y = f x
    · have : y = x := by
        rcases List.mem_cons.1 hx with h' | h'
        · exact h'.symm
        · exact absurd h.symm (hn.1 x h')
      subst this
      simp
    · have : x ∈ l := by
        rcases List.mem_cons.1 hx with rfl | h'
        · exact absurd rfl h
        · exact h'
      simp only [h, decide_false]
      exact ih hn.2 this

theorem isK_iff (m : Bimap Nat Nat) (l : List (Contact T)) (f : Contact T → Nat) (h : m.pairs = l.map fun x => (x.lrdid, f x)) (k : Nat) :
    m.isKKnown k = true ↔ ∃ x ∈ l, x.lrdid = k := by
  unfold Bimap.isKKnown
  rw [h]
  simp

theorem isV_iff (m : Bimap Nat Nat) (l : List (Contact T)) (f : Contact T → Nat) (h : m.pairs = l.map fun x => (x.lrdid, f x)) (k : Nat) :
    m.isVKnown k = true ↔ ∃ x ∈ l, f x = k := by
  unfold Bimap.isVKnown
  rw [h]
  simp

theorem getV_ok (m : Bimap Nat Nat) (l : List (Contact T)) (f : Contact T → Nat) (h : m.pairs = l.map fun x => (x.lrdid, f x))
    (hn : (l.map fun x => x.lrdid).Nodup) (x : Contact T) (hx : x ∈ l) : m.getV x.lrdid = .ok (f x) := by
  unfold Bimap.getV
  rw [(isK_iff m l f h x.lrdid).2 ⟨x, hx, rfl⟩, h, find_fst l f hn x hx]
  rfl

theorem getK_ok (m : Bimap Nat Nat) (l : List (Contact T)) (f : Contact T → Nat) (h : m.pairs = l.map fun x => (x.lrdid, f x))
    (hn : (l.map f).Nodup) (x : Contact T) (hx : x ∈ l) : m.getK (f x) = .ok x.lrdid := by
  unfold Bimap.getK
  rw [(isV_iff m l f h (f x)).2 ⟨x, hx, rfl⟩, h, find_snd l f hn x hx]
  rfl

theorem find_idx (l : List (Contact T)) (hn : (l.map fun x => x.lrdid).Nodup) :
    ∀ (s i : Nat) (hi : i < l.length),
      ((l.zipIdx s).map fun x => (x.1.lrdid, x.2)).find? (fun p => decide (p.1 = l[i].lrdid)) = some (l[i].lrdid, s + i) := by
  induction l with
  | nil => intro s i hi; exact absurd hi (by simp)
  | cons y l ih =>
    intro s i hi
    simp only [List.map_cons, List.nodup_cons, List.mem_map, not_exists, not_and] at hn
    rw [List.zipIdx_cons, List.map_cons, List.find?_cons]
    cases i with
    | zero => simp
    | succ i =>
      have hi' : i < l.length := by simpa using hi
      have hne : ¬ y.lrdid = l[i].lrdid := fun h => hn.1 l[i] (List.getElem_mem _) h.symm
      simp only [List.getElem_cons_succ, hne, decide_false]
      rw [ih hn.2 (s + 1) i hi']
      congr 2
      omega

theorem Stores.position {c : ContactList T} {l : List (Contact T)} (h : Stores c l) (i : Nat) (hi : i < l.length) :
    c.position l[i].lrdid = .ok i := by
  unfold ContactList.position
  rw [h.idx, find_idx l h.nodup 0 i hi, Nat.zero_add]

theorem Stores.unknown {c : ContactList T} {l : List (Contact T)} (h : Stores c l) (k : Nat) (hk : ¬ ∃ x ∈ l, x.lrdid = k) :
    c.position k = .abort := by
  unfold ContactList.position
  have : c.idx.find? (fun p => decide (p.1 = k)) = none := by
    rw [h.idx, List.find?_eq_none]
    intro p hp
    obtain ⟨x, hx, rfl⟩ := List.mem_map.1 hp
    simp only [decide_eq_true_eq]
    intro hx'
    exact hk ⟨x.1, List.fst_mem_of_mem_zipIdx hx, hx'⟩
  rw [this]

theorem insert_ok (m : Bimap Nat Nat) (k v : Nat) (hk : m.isKKnown k = false) (hv : m.isVKnown v = false) :
    m.insert true k v = .ok ⟨m.pairs ++ [(k, v)]⟩ := by
  simp [Bimap.insert, hk, hv, Res.assert]

theorem insert_abort (m : Bimap Nat Nat) (k v : Nat) (h : m.isKKnown k = true ∨ m.isVKnown v = true) :
    m.insert true k v = .abort := by
  by_cases hk : m.isKKnown k = true
  · simp [Bimap.insert, hk, Res.assert]
  · rw [Bool.not_eq_true] at hk
    have hv : m.isVKnown v = true := by simpa [hk] using h
    simp [Bimap.insert, hk, hv, Res.assert]

theorem stores_empty : Stores (ContactList.empty : ContactList T) [] :=
  ⟨rfl, rfl, rfl, rfl, rfl, List.nodup_nil, List.nodup_nil, List.nodup_nil, List.nodup_nil⟩

/-- A new contact with identifiers that are not in use is added; if one of them is in use the addition is rejected. -/
theorem stores_add (dflt : T) {c : ContactList T} {l : List (Contact T)} (h : Stores c l) (lr s a b : Nat) :
    (Contact.Fresh l lr s a b → ∃ c', c.add dflt lr s a b = .ok c' ∧ Stores c' (l ++ [⟨lr, s, a, b, dflt⟩])) ∧
      (¬ Contact.Fresh l lr s a b → c.add dflt lr s a b = .abort) := by
  have eS := isK_iff c.srdid l _ h.srdid lr
  have eA := isK_iff c.server l _ h.server lr
  have eB := isK_iff c.client l _ h.client lr
  have vS := isV_iff c.srdid l _ h.srdid s
  have vA := isV_iff c.server l _ h.server a
  have vB := isV_iff c.client l _ h.client b
  constructor
  · intro hf
    have nk : ¬ ∃ x ∈ l, x.lrdid = lr := fun ⟨x, hx, e⟩ => (hf x hx).1 e
    have nS : ¬ ∃ x ∈ l, x.srdid = s := fun ⟨x, hx, e⟩ => (hf x hx).2.1 e
    have nA : ¬ ∃ x ∈ l, x.server = a := fun ⟨x, hx, e⟩ => (hf x hx).2.2.1 e
    have nB : ¬ ∃ x ∈ l, x.client = b := fun ⟨x, hx, e⟩ => (hf x hx).2.2.2 e
    have toF : ∀ {p : Bool} {P : Prop}, (p = true ↔ P) → ¬ P → p = false := fun hp hn => by
      rw [← Bool.not_eq_true]; exact fun h => hn (hp.1 h)
    have hum : ContactList.umInsert c.idx lr c.contacts.length = c.idx ++ [(lr, c.contacts.length)] := by
      unfold ContactList.umInsert
      rw [if_neg]
      rw [h.idx]
      simp only [List.any_eq_true, decide_eq_true_eq, List.mem_map]
      rintro ⟨p, ⟨x, hx, rfl⟩, e⟩
      exact nk ⟨x.1, List.fst_mem_of_mem_zipIdx hx, e⟩
    refine ⟨⟨⟨c.srdid.pairs ++ [(lr, s)]⟩, ⟨c.server.pairs ++ [(lr, a)]⟩, ⟨c.client.pairs ++ [(lr, b)]⟩,
      c.idx ++ [(lr, c.contacts.length)], c.contacts ++ [dflt]⟩, ?_, ?_⟩
    · unfold ContactList.add
      rw [insert_ok _ _ _ (toF eS nk) (toF vS nS), insert_ok _ _ _ (toF eA nk) (toF vA nA),
        insert_ok _ _ _ (toF eB nk) (toF vB nB), hum]
      rfl
    · have hlen : c.contacts.length = l.length := by rw [h.contacts]; simp
      have nd : ∀ (f : Contact T → Nat) (v : Nat), (l.map f).Nodup → (¬ ∃ x ∈ l, f x = v) → (l.map f ++ [v]).Nodup := by
        intro f v hn hv
        rw [List.nodup_append]
        refine ⟨hn, List.nodup_singleton _, ?_⟩
        intro x hx y hy e
        obtain ⟨z, hz, rfl⟩ := List.mem_map.1 hx
        rw [List.mem_singleton.1 hy] at e
        exact hv ⟨z, hz, e⟩
      refine ⟨?_, ?_, ?_, ?_, ?_, ?_, ?_, ?_, ?_⟩
      · simp [h.srdid]
      · simp [h.server]
      · simp [h.client]
      · simp [h.idx, hlen, List.zipIdx_append]
      · simp [h.contacts]
      · rw [List.map_append]; exact nd (fun x => x.lrdid) lr h.nodup nk
      · rw [List.map_append]; exact nd (fun x => x.srdid) s h.nodupS nS
      · rw [List.map_append]; exact nd (fun x => x.server) a h.nodupA nA
      · rw [List.map_append]; exact nd (fun x => x.client) b h.nodupB nB
  · intro hf
    unfold ContactList.add
    by_cases h1 : c.srdid.isKKnown lr = true ∨ c.srdid.isVKnown s = true
    · rw [insert_abort _ _ _ h1]; rfl
    · have k1 : c.srdid.isKKnown lr = false := by rw [← Bool.not_eq_true]; exact fun e => h1 (Or.inl e)
      have k2 : c.srdid.isVKnown s = false := by rw [← Bool.not_eq_true]; exact fun e => h1 (Or.inr e)
      rw [insert_ok _ _ _ k1 k2, Res.ok_bind]
      by_cases h2 : c.server.isVKnown a = true
      · rw [insert_abort _ _ _ (Or.inr h2)]; rfl
      · have nk : ¬ ∃ x ∈ l, x.lrdid = lr := fun e => by rw [eS.2 e] at k1; exact absurd k1 (by simp)
        have k3 : c.server.isKKnown lr = false := by rw [← Bool.not_eq_true]; exact fun e => nk (eA.1 e)
        rw [insert_ok _ _ _ k3 (by rw [← Bool.not_eq_true]; exact h2), Res.ok_bind]
        have h3 : c.client.isVKnown b = true := by
          rw [vB]
          by_contra hnb
          apply hf
          intro x hx
          refine ⟨fun e => nk ⟨x, hx, e⟩, fun e => ?_, fun e => h2 (vA.2 ⟨x, hx, e⟩), fun e => hnb ⟨x, hx, e⟩⟩
          rw [vS.2 ⟨x, hx, e⟩] at k2
          exact absurd k2 (by simp)
        rw [insert_abort _ _ _ (Or.inr h3)]
        rfl

theorem assign_set (l : List (Contact T)) (hn : (l.map fun x => x.lrdid).Nodup) (i : Nat) (hi : i < l.length) (x : T) :
    (Contact.assign l l[i].lrdid x).map (fun y => y.entry) = (l.map fun y => y.entry).set i x := by
  induction l generalizing i with
  | nil => exact absurd hi (by simp)
  | cons y l ih =>
    simp only [List.map_cons, List.nodup_cons, List.mem_map, not_exists, not_and] at hn
    cases i with
    | zero =>
      simp only [List.getElem_cons_zero, Contact.assign, List.map_cons, if_true, List.set_cons_zero, List.map_map]
      congr 1
      apply List.map_congr_left
      intro z hz
      simp [hn.1 z hz]
    | succ i =>
      have hi' : i < l.length := by simpa using hi
      have hne : ¬ y.lrdid = l[i].lrdid := fun h => hn.1 l[i] (List.getElem_mem _) h.symm
      have := ih hn.2 i hi'
      simp only [Contact.assign] at this
      simp only [List.getElem_cons_succ, Contact.assign, List.map_cons, hne, if_false, List.set_cons_succ, this]

theorem stores_write {c : ContactList T} {l : List (Contact T)} (h : Stores c l) (lr : Nat) (x : T) :
    ((∃ y ∈ l, y.lrdid = lr) → ∃ c', c.write lr x = .ok c' ∧ Stores c' (Contact.assign l lr x)) ∧
      ((¬ ∃ y ∈ l, y.lrdid = lr) → c.write lr x = .abort) := by
  constructor
  · rintro ⟨y, hy, rfl⟩
    obtain ⟨i, hi, rfl⟩ := List.getElem_of_mem hy
    have hlen : c.contacts.length = l.length := by rw [h.contacts]; simp
    refine ⟨{ c with contacts := c.contacts.set i x }, ?_, ?_⟩
    · unfold ContactList.write
      rw [h.position i hi, Res.ok_bind, if_pos (by omega)]
    · have hk : ∀ f : Contact T → Nat, (∀ z w, f { z with entry := w } = f z) →
          (Contact.assign l l[i].lrdid x).map f = l.map f := by
        intro f hf
        unfold Contact.assign
        rw [List.map_map]
        apply List.map_congr_left
        intro z _
        simp only [Function.comp]
        split
        · exact hf z x
        · rfl
      have hp : ∀ f : Contact T → Nat × Nat, (∀ z w, f { z with entry := w } = f z) →
          (Contact.assign l l[i].lrdid x).map f = l.map f := by
        intro f hf
        unfold Contact.assign
        rw [List.map_map]
        apply List.map_congr_left
        intro z _
        simp only [Function.comp]
        split
        · exact hf z x
        · rfl
      refine ⟨?_, ?_, ?_, ?_, ?_, ?_, ?_, ?_, ?_⟩
      · rw [hp _ fun _ _ => rfl]; exact h.srdid
      · rw [hp _ fun _ _ => rfl]; exact h.server
      · rw [hp _ fun _ _ => rfl]; exact h.client
      · show c.idx = _
        rw [h.idx]
        unfold Contact.assign
        rw [List.zipIdx_map, List.map_map]
        apply List.map_congr_left
        intro z _
        simp only [Function.comp, Prod.map]
        split <;> rfl
      · show c.contacts.set i x = _
        rw [h.contacts, assign_set l h.nodup i hi x]
      · rw [hk _ fun _ _ => rfl]; exact h.nodup
      · rw [hk _ fun _ _ => rfl]; exact h.nodupS
      · rw [hk _ fun _ _ => rfl]; exact h.nodupA
      · rw [hk _ fun _ _ => rfl]; exact h.nodupB
  · intro hn
    unfold ContactList.write
    rw [h.unknown lr hn]
    rfl

/-- A change of the contact list, seen as a change of the list of contacts -/
def Change (dflt : T) (l : List (Contact T)) (x : ContactCall T) (l' : List (Contact T)) : Prop :=
  (∃ lr s a b, x = .add lr s a b ∧ Contact.Fresh l lr s a b ∧ l' = l ++ [⟨lr, s, a, b, dflt⟩]) ∨
    ∃ lr v, x = .write lr v ∧ (∃ y ∈ l, y.lrdid = lr) ∧ l' = Contact.assign l lr v

/-- Every call either changes the list of contacts as described, or is rejected, if an identifier is in use already or
the contact to be changed is unknown. -/
theorem C36_call (dflt : T) {c : ContactList T} {l : List (Contact T)} (h : Stores c l) (x : ContactCall T) :
    (∃ l', Change dflt l x l') ∧ (∀ l', Change dflt l x l' → ∃ c', c.call dflt x = .ok c' ∧ Stores c' l') ∨
      (¬ ∃ l', Change dflt l x l') ∧ c.call dflt x = .abort := by
  cases x with
  | add lr s a b =>
    have hs := stores_add dflt h lr s a b
    by_cases hf : Contact.Fresh l lr s a b
    · left
      refine ⟨⟨_, Or.inl ⟨lr, s, a, b, rfl, hf, rfl⟩⟩, ?_⟩
      rintro l' (⟨lr', s', a', b', e, -, rfl⟩ | ⟨lr', v, e, -⟩)
      · injection e with e1 e2 e3 e4
        subst e1 e2 e3 e4
        exact hs.1 hf
      · exact ContactCall.noConfusion rfl (heq_of_eq e)
    · right
      refine ⟨?_, hs.2 hf⟩
      rintro ⟨l', ⟨lr', s', a', b', e, hf', -⟩ | ⟨lr', v, e, -⟩⟩
      · injection e with e1 e2 e3 e4
        subst e1 e2 e3 e4
        exact hf hf'
      · exact ContactCall.noConfusion rfl (heq_of_eq e)
  | write lr v =>
    have hs := stores_write h lr v
    by_cases hf : ∃ y ∈ l, y.lrdid = lr
    · left
      refine ⟨⟨_, Or.inr ⟨lr, v, rfl, hf, rfl⟩⟩, ?_⟩
      rintro l' (⟨lr', s', a', b', e, -⟩ | ⟨lr', v', e, -, rfl⟩)
      · exact ContactCall.noConfusion rfl (heq_of_eq e)
      · injection e with e1 e2
        subst e1 e2
        exact hs.1 hf
    · right
      refine ⟨?_, hs.2 hf⟩
      rintro ⟨l', ⟨lr', s', a', b', e, -⟩ | ⟨lr', v', e, hf', -⟩⟩
      · exact ContactCall.noConfusion rfl (heq_of_eq e)
      · injection e with e1 e2
        subst e1 e2
        exact hf hf'

theorem run_stores (dflt : T) : ∀ (xs : List (ContactCall T)) (c : ContactList T) (l : List (Contact T)), Stores c l →
    Contact.History dflt l →
    (∃ c' l', c.run dflt xs = .ok c' ∧ Stores c' l' ∧ Contact.History dflt l') ∨ c.run dflt xs = .abort := by
  intro xs
  induction xs with
  | nil => intro c l h hh; exact Or.inl ⟨c, l, rfl, h, hh⟩
  | cons x xs ih =>
    intro c l h hh
    rcases C36_call dflt h x with ⟨⟨l', hl'⟩, hall⟩ | ⟨-, hab⟩
    · obtain ⟨c', hc', hs'⟩ := hall l' hl'
      have hh' : Contact.History dflt l' := by
        rcases hl' with ⟨lr, s, a, b, -, hf, rfl⟩ | ⟨lr, v, -, hf, rfl⟩
        · exact .add lr s a b hh hf
        · exact .assign lr v hh hf
      have := ih c' l' hs' hh'
      rw [ContactList.run, hc']
      exact this
    · right
      rw [ContactList.run, hab]
      rfl

/-- C36. After every sequence of additions and changes that are accepted, there is a list of contacts such that: for each
contact, long ID, short ID, server and client connection index lead to each other and to its entry; other identifiers are
unknown; identifiers of different contacts differ, and each contact has its own entry. -/
theorem C36_contact_list (dflt : T) (xs : List (ContactCall T)) :
    (∃ (c : ContactList T) (l : List (Contact T)), ContactList.run dflt ContactList.empty xs = .ok c ∧ Contact.History dflt l ∧
      (∀ x ∈ l, c.lrdidFromSrdid x.srdid = .ok x.lrdid ∧ c.srdidFromLrdid x.lrdid = .ok x.srdid ∧
        c.lrdidFromServer x.server = .ok x.lrdid ∧ c.clientFromLrdid x.lrdid = .ok x.client ∧
        c.getContact x.lrdid = .ok x.entry) ∧
      (∀ k, c.isLrdidKnown k = true ↔ ∃ x ∈ l, x.lrdid = k) ∧
      (∀ k, c.isSrdidKnown k = true ↔ ∃ x ∈ l, x.srdid = k) ∧
      (l.Pairwise fun x y => x.lrdid ≠ y.lrdid ∧ x.srdid ≠ y.srdid ∧ x.server ≠ y.server ∧ x.client ≠ y.client) ∧
      c.contacts = l.map (fun x => x.entry) ∧
      (∀ i (hi : i < l.length), c.position l[i].lrdid = .ok i)) ∨
    ContactList.run dflt (ContactList.empty : ContactList T) xs = .abort := by
  rcases run_stores dflt xs ContactList.empty [] stores_empty .nil with ⟨c, l, hr, h, hh⟩ | hab
  · left
    refine ⟨c, l, hr, hh, ?_, isK_iff _ l _ h.srdid, isV_iff _ l _ h.srdid, ?_, h.contacts, fun i hi => h.position i hi⟩
    · intro x hx
      refine ⟨getK_ok _ l _ h.srdid h.nodupS x hx, getV_ok _ l _ h.srdid h.nodup x hx, getK_ok _ l _ h.server h.nodupA x hx,
        getV_ok _ l _ h.client h.nodup x hx, ?_⟩
      obtain ⟨i, hi, rfl⟩ := List.getElem_of_mem hx
      unfold ContactList.getContact
      rw [h.position i hi, Res.ok_bind, h.contacts]
      have : (l.map fun x => x.entry)[i]? = some l[i].entry := by simp [hi]
      rw [this]
    · have d1 := List.pairwise_map.1 h.nodup
      have d2 := List.pairwise_map.1 h.nodupS
      have d3 := List.pairwise_map.1 h.nodupA
      have d4 := List.pairwise_map.1 h.nodupB
      exact (d1.and (d2.and (d3.and d4))).imp fun h => h
  · exact Or.inr hab

/-- Unknown identifiers are rejected, they do not lead to a contact. -/
theorem C36_unknown {c : ContactList T} {l : List (Contact T)} (h : Stores c l) (k : Nat) :
    ((¬ ∃ x ∈ l, x.lrdid = k) → c.getContact k = .abort ∧ c.srdidFromLrdid k = .abort ∧ c.clientFromLrdid k = .abort) ∧
      ((¬ ∃ x ∈ l, x.srdid = k) → c.lrdidFromSrdid k = .abort) ∧ ((¬ ∃ x ∈ l, x.server = k) → c.lrdidFromServer k = .abort) := by
  have toF : ∀ {p : Bool} {P : Prop}, (p = true ↔ P) → ¬ P → p = false := fun hp hn => by
    rw [← Bool.not_eq_true]; exact fun h => hn (hp.1 h)
  refine ⟨fun hn => ⟨?_, ?_, ?_⟩, fun hn => ?_, fun hn => ?_⟩
  · unfold ContactList.getContact
    rw [h.unknown k hn]
    rfl
  · unfold ContactList.srdidFromLrdid Bimap.getV
    rw [toF (isK_iff _ l _ h.srdid k) hn]
    rfl
  · unfold ContactList.clientFromLrdid Bimap.getV
    rw [toF (isK_iff _ l _ h.client k) hn]
    rfl
  · unfold ContactList.lrdidFromSrdid Bimap.getK
    rw [toF (isV_iff _ l _ h.srdid k) hn]
    rfl
  · unfold ContactList.lrdidFromServer Bimap.getK
    rw [toF (isV_iff _ l _ h.server k) hn]
    rfl

/-- Non-vacuity: two contacts, one of them changed; a third one with a short ID in use is rejected. -/
theorem C36_example :
    (do
      let c ← ContactList.run 0 ContactList.empty [.add 10000001 1001 0 5, .add 10000002 1002 1 4, .write 10000001 77]
      let l ← c.lrdidFromServer 1
      let s ← c.lrdidFromSrdid 1001
      let x ← c.getContact s
      let y ← c.getContact l
      let k ← c.clientFromLrdid l
      pure [l, s, x, y, k]) = .ok [10000002, 10000001, 77, 0, 4] ∧
    (ContactList.run 0 ContactList.empty [.add 10000001 1001 0 5, .add 10000002 1001 1 4]).isOk = false := by
  decide +kernel

end Verif.Props.C36
