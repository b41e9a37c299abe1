import Verif.Spec.PartialMap
import Mathlib.Data.List.Basic

set_option linter.unusedSimpArgs false
set_option linter.unusedSectionVars false

/-!
# C14: the bidirectional map stays one-to-one
-/

namespace Verif.Adt
variable {K V : Type} [DecidableEq K] [DecidableEq V]
open Bimap

/-- The map stores exactly the pairs of `f`, each once. -/
structure Stores (unique : Bool) (m : Bimap K V) (f : K → Option V) : Prop where
  nodup : (m.pairs.map Prod.fst).Nodup
  mem : ∀ k v, (k, v) ∈ m.pairs ↔ f k = some v
  inj : unique = true → ∀ k k' v, f k = some v → f k' = some v → k = k'

theorem Stores.isK {u : Bool} {m : Bimap K V} {f : K → Option V} (h : Stores u m f) (k : K) :
    m.isKKnown k = true ↔ f k ≠ none := by
  simp only [isKKnown, List.any_eq_true, decide_eq_true_eq]
  constructor
  · rintro ⟨⟨k', v⟩, h1, rfl⟩
    rw [(h.mem _ _).1 h1]; simp
  · intro hk
    obtain ⟨v, hv⟩ := Option.ne_none_iff_exists'.1 hk
    exact ⟨(k, v), (h.mem _ _).2 hv, rfl⟩

theorem Stores.isV {u : Bool} {m : Bimap K V} {f : K → Option V} (h : Stores u m f) (v : V) :
    m.isVKnown v = true ↔ ∃ k, f k = some v := by
  simp only [isVKnown, List.any_eq_true, decide_eq_true_eq]
  constructor
  · rintro ⟨⟨k', v'⟩, h1, rfl⟩
    exact ⟨k', (h.mem _ _).1 h1⟩
  · rintro ⟨k, hk⟩
    exact ⟨(k, v), (h.mem _ _).2 hk, rfl⟩

theorem replaceData_keys (l : List (K × V)) (k : K) (v : V) :
    (replaceData l k v).map Prod.fst = l.map Prod.fst := by
  induction l with
  | nil => rfl
  | cons p l ih =>
    simp only [replaceData]
    split
    · rename_i h; simp [h]
    · simp [ih]

theorem replaceData_mem (l : List (K × V)) (k : K) (v : V) (hn : (l.map Prod.fst).Nodup)
    (hk : k ∈ l.map Prod.fst) (x : K × V) :
    x ∈ replaceData l k v ↔ x = (k, v) ∨ (x ∈ l ∧ x.1 ≠ k) := by
  induction l with
  | nil => simp at hk
  | cons p l ih =>
    simp only [List.map_cons, List.nodup_cons, List.mem_map, not_exists, not_and] at hn
    simp only [replaceData]
    split
    · rename_i hp
      simp only [List.mem_cons]
      constructor
      · rintro (rfl | h)
        · exact Or.inl rfl
        · exact Or.inr ⟨Or.inr h, fun e => hn.1 x h (e.trans hp.symm)⟩
      · rintro (rfl | ⟨rfl | h, hne⟩)
        · exact Or.inl rfl
        · exact absurd hp hne
        · exact Or.inr h
    · rename_i hp
      have hk' : k ∈ l.map Prod.fst := by
        simp only [List.map_cons, List.mem_cons] at hk
        rcases hk with rfl | h
        · exact absurd rfl hp
        · exact h
      simp only [List.mem_cons, ih hn.2 hk']
      constructor
      · rintro (rfl | rfl | ⟨h, hne⟩)
        · exact Or.inr ⟨Or.inl rfl, hp⟩
        · exact Or.inl rfl
        · exact Or.inr ⟨Or.inr h, hne⟩
      · rintro (rfl | ⟨rfl | h, hne⟩)
        · exact Or.inr (Or.inl rfl)
        · exact Or.inl rfl
        · exact Or.inr (Or.inr ⟨h, hne⟩)

theorem eraseP_mem (l : List (K × V)) (k : K) (hn : (l.map Prod.fst).Nodup) (x : K × V) :
    x ∈ l.eraseP (fun p => decide (p.1 = k)) ↔ x ∈ l ∧ x.1 ≠ k := by
  induction l with
  | nil => simp
  | cons p l ih =>
    simp only [List.map_cons, List.nodup_cons, List.mem_map, not_exists, not_and] at hn
    by_cases hp : p.1 = k
    · rw [List.eraseP_cons_of_pos (by simpa using hp)]
      simp only [List.mem_cons]
      constructor
      · intro h; exact ⟨Or.inr h, fun e => hn.1 x h (e.trans hp.symm)⟩
      · rintro ⟨rfl | h, hne⟩
        · exact absurd hp hne
        · exact h
    · rw [List.eraseP_cons_of_neg (by simpa using hp)]
      simp only [List.mem_cons, ih hn.2]
      constructor
      · rintro (rfl | ⟨h, hne⟩)
        · exact ⟨Or.inl rfl, hp⟩
        · exact ⟨Or.inr h, hne⟩
      · rintro ⟨rfl | h, hne⟩
        · exact Or.inl rfl
        · exact Or.inr ⟨h, hne⟩

/-- Every allowed call has its effect, every other call aborts. -/
theorem call_stores {u : Bool} {m : Bimap K V} {f : K → Option V} (h : Stores u m f) (c : BCall K V) :
    (Allowed u f c → ∃ m', m.call u c = .ok m' ∧ Stores u m' (effect f c)) ∧
    (¬ Allowed u f c → m.call u c = .abort) := by
  have hkeys : ∀ k, k ∈ m.pairs.map Prod.fst ↔ f k ≠ none := by
    intro k
    rw [← h.isK k]
    simp [isKKnown]
  cases c with
  | insert k v =>
    have e1 := h.isK k
    have e2 := h.isV v
    constructor
    · rintro ⟨h1, h2⟩
      have hk : m.isKKnown k = false := by
        rw [← Bool.not_eq_true, e1]; simp [h1]
      have hv : u = true → m.isVKnown v = false := by
        intro hu
        rw [← Bool.not_eq_true, e2]
        rintro ⟨k', hk'⟩; exact h2 hu k' hk'
      refine ⟨⟨m.pairs ++ [(k, v)]⟩, ?_, ?_⟩
      · cases u with
        | true => simp [call, Bimap.insert, hk, hv rfl]
        | false => simp [call, Bimap.insert, hk]
      · refine ⟨?_, ?_, ?_⟩
        · rw [List.map_append, List.nodup_append]
          refine ⟨h.nodup, by simp, ?_⟩
          intro a ha b hb
          simp only [List.map_cons, List.map_nil, List.mem_singleton] at hb
          rintro rfl
          rw [hkeys, hb] at ha
          exact ha h1
        · intro k' v'
          simp only [effect, List.mem_append, List.mem_singleton, Prod.mk.injEq, h.mem]
          by_cases hkk : k' = k
          · subst hkk; simp [h1, eq_comm]
          · simp [hkk]
        · intro hu a b w ha hb
          simp only [effect] at ha hb
          by_cases ha' : a = k <;> by_cases hb' : b = k
          · rw [ha', hb']
          · subst ha'
            rw [Function.update_self] at ha
            rw [Function.update_of_ne hb'] at hb
            simp only [Option.some.injEq] at ha
            subst ha
            exact absurd hb (h2 hu b)
          · subst hb'
            rw [Function.update_self] at hb
            rw [Function.update_of_ne ha'] at ha
            simp only [Option.some.injEq] at hb
            subst hb
            exact absurd ha (h2 hu a)
          · rw [Function.update_of_ne ha'] at ha
            rw [Function.update_of_ne hb'] at hb
            exact h.inj hu a b w ha hb
    · intro hn
      by_cases hk : f k = none
      · have hk' : m.isKKnown k = false := by rw [← Bool.not_eq_true, e1]; simp [hk]
        have hu : u = true ∧ ∃ k', f k' = some v := by
          by_contra hc
          apply hn
          refine ⟨hk, fun hu k' hk' => hc ⟨hu, k', hk'⟩⟩
        have hv := e2.2 hu.2
        simp [call, Bimap.insert, hk', hu.1, hv]
      · have hk' := e1.2 hk
        simp [call, Bimap.insert, hk']
  | erase k =>
    have e1 := h.isK k
    constructor
    · intro h1
      refine ⟨_, by simp [call, erase, e1.2 h1]; rfl, ?_⟩
      refine ⟨(h.nodup.sublist (List.Sublist.map _ (List.eraseP_sublist))), ?_, ?_⟩
      · intro k' v'
        rw [eraseP_mem _ _ h.nodup, h.mem]
        simp only [effect]
        by_cases hkk : k' = k
        · subst hkk; simp
        · simp [hkk]
      · intro hu a b w ha hb
        simp only [effect] at ha hb
        have ha' : a ≠ k := by rintro rfl; simp at ha
        have hb' : b ≠ k := by rintro rfl; simp at hb
        rw [Function.update_of_ne ha'] at ha
        rw [Function.update_of_ne hb'] at hb
        exact h.inj hu a b w ha hb
    · intro h1
      have hk' : m.isKKnown k = false := by
        rw [← Bool.not_eq_true, e1]; exact h1
      simp [call, erase, hk']
  | setV k v =>
    have e1 := h.isK k
    have e2 := h.isV v
    constructor
    · rintro ⟨h1, h2⟩
      have hv : u = true → m.isVKnown v = false := by
        intro hu
        rw [← Bool.not_eq_true, e2]
        rintro ⟨k', hk'⟩; exact h2 hu k' hk'
      have hany : u = true → (m.pairs.any fun p => p.1 ≠ k && p.2 = v) = false := by
        intro hu
        rw [List.any_eq_false]
        intro p hp
        have := hv hu
        simp only [isVKnown, List.any_eq_false] at this
        have := this p hp
        simp at this
        simp [this]
      refine ⟨⟨replaceData m.pairs k v⟩, ?_, ?_⟩
      · cases u with
        | true => simp only [call, setV, e1.2 h1, hv rfl, hany rfl]; rfl
        | false => simp [call, setV, e1.2 h1]
      · refine ⟨by rw [replaceData_keys]; exact h.nodup, ?_, ?_⟩
        · intro k' v'
          rw [replaceData_mem _ _ _ h.nodup ((hkeys k).2 h1), h.mem]
          simp only [effect, Prod.mk.injEq]
          by_cases hkk : k' = k
          · subst hkk; simp [eq_comm]
          · simp [hkk]
        · intro hu a b w ha hb
          simp only [effect] at ha hb
          by_cases ha' : a = k <;> by_cases hb' : b = k
          · rw [ha', hb']
          · subst ha'
            rw [Function.update_self] at ha
            rw [Function.update_of_ne hb'] at hb
            simp only [Option.some.injEq] at ha
            subst ha
            exact absurd hb (h2 hu b)
          · subst hb'
            rw [Function.update_self] at hb
            rw [Function.update_of_ne ha'] at ha
            simp only [Option.some.injEq] at hb
            subst hb
            exact absurd ha (h2 hu a)
          · rw [Function.update_of_ne ha'] at ha
            rw [Function.update_of_ne hb'] at hb
            exact h.inj hu a b w ha hb
    · intro hn
      by_cases hk : f k = none
      · have hk' : m.isKKnown k = false := by rw [← Bool.not_eq_true, e1]; simp [hk]
        simp [call, setV, hk']
      · have hu : u = true ∧ ∃ k', f k' = some v := by
          by_contra hc
          apply hn
          refine ⟨hk, fun hu k' hk' => hc ⟨hu, k', hk'⟩⟩
        have hv := e2.2 hu.2
        simp [call, setV, e1.2 hk, hu.1, hv]

theorem stores_empty (u : Bool) : Stores u (Bimap.empty : Bimap K V) (fun _ => none) :=
  ⟨by simp [Bimap.empty], by simp [Bimap.empty], by simp⟩

/-- The partial map after a sequence of calls, if every one of them is allowed. -/
def effects (u : Bool) : (K → Option V) → List (BCall K V) → (K → Option V) → Prop
  | f, [], g => f = g
  | f, c :: cs, g => Allowed u f c ∧ effects u (effect f c) cs g

theorem run_stores {u : Bool} : ∀ (cs : List (BCall K V)) (m : Bimap K V) (f : K → Option V), Stores u m f →
    (∀ g, effects u f cs g → ∃ m', m.run u cs = .ok m' ∧ Stores u m' g) ∧
    ((∀ g, ¬ effects u f cs g) → m.run u cs = .abort) := by
  intro cs
  induction cs with
  | nil =>
    intro m f h
    exact ⟨fun g hg => ⟨m, rfl, hg ▸ h⟩, fun hn => absurd rfl (hn f)⟩
  | cons c cs ih =>
    intro m f h
    obtain ⟨h1, h2⟩ := call_stores h c
    constructor
    · rintro g ⟨hg1, hg2⟩
      obtain ⟨m', e1, e2⟩ := h1 hg1
      obtain ⟨m'', e3, e4⟩ := (ih m' _ e2).1 g hg2
      exact ⟨m'', by simp [run, e1, e3], e4⟩
    · intro hn
      by_cases ha : Allowed u f c
      · obtain ⟨m', e1, e2⟩ := h1 ha
        have := (ih m' _ e2).2 (fun g hg => hn g ⟨ha, hg⟩)
        simp [run, e1, this]
      · simp [run, h2 ha]

theorem find_fst {l : List (K × V)} {k : K} {v : V} (hn : (l.map Prod.fst).Nodup) (h : (k, v) ∈ l) :
    l.find? (fun p => decide (p.1 = k)) = some (k, v) := by
  induction l with
  | nil => simp at h
  | cons p l ih =>
    simp only [List.map_cons, List.nodup_cons, List.mem_map, not_exists, not_and] at hn
    simp only [List.mem_cons] at h
    rcases h with rfl | h
    · simp
    · rw [List.find?_cons_of_neg (by
        simp only [decide_eq_true_eq]; intro e; exact hn.1 _ h e.symm)]
      exact ih hn.2 h

/-- C14: sequences of calls do to the map what they do to the partial map, and abort exactly if one
of them is not allowed. After any allowed sequence a key is known exactly if it has a value,
`get_v` returns this value, and the number of pairs is the number of keys. -/
theorem C14_partial_map (u : Bool) (cs : List (BCall K V)) :
    (∀ f, effects u (fun _ => none) cs f → ∃ m, (Bimap.empty : Bimap K V).run u cs = .ok m ∧
      (∀ k, m.isKKnown k = true ↔ f k ≠ none) ∧ (∀ v, m.isVKnown v = true ↔ ∃ k, f k = some v) ∧
      (∀ k v, f k = some v → m.getV k = .ok v) ∧ (∀ k, f k = none → m.getV k = .abort) ∧
      ∃ keys : List K, keys.Nodup ∧ (∀ k, k ∈ keys ↔ f k ≠ none) ∧ m.cnt = keys.length) ∧
    ((∀ f, ¬ effects u (fun _ => none) cs f) → (Bimap.empty : Bimap K V).run u cs = .abort) := by
  obtain ⟨h1, h2⟩ := run_stores cs _ _ (stores_empty (K := K) (V := V) u)
  refine ⟨fun f hf => ?_, h2⟩
  obtain ⟨m, e1, hs⟩ := h1 f hf
  refine ⟨m, e1, hs.isK, hs.isV, ?_, ?_, m.pairs.map Prod.fst, hs.nodup, ?_, by simp [cnt]⟩
  · intro k v hv
    have hk : m.isKKnown k = true := (hs.isK k).2 (by simp [hv])
    simp [getV, hk, find_fst hs.nodup ((hs.mem k v).2 hv)]
  · intro k hk
    have hk : m.isKKnown k = false := by rw [← Bool.not_eq_true, hs.isK]; simp [hk]
    simp [getV, hk]
  · intro k
    rw [← hs.isK k]; simp [isKKnown]

/-- C14: with unique values, after every sequence of calls that does not abort, key and value
determine each other. -/
theorem C14_one_to_one (cs : List (BCall K V)) (m : Bimap K V)
    (h : (Bimap.empty : Bimap K V).run true cs = .ok m) (k : K) (v : V) :
    m.getV k = .ok v ↔ m.getK v = .ok k := by
  obtain ⟨h1, h2⟩ := run_stores cs _ _ (stores_empty (K := K) (V := V) true)
  have : ∃ f, Stores true m f := by
    by_contra hn
    by_cases he : ∃ f, effects true (fun _ => none) cs f
    · obtain ⟨f, hf⟩ := he
      obtain ⟨m', e1, e2⟩ := h1 f hf
      rw [h] at e1
      simp only [Res.ok.injEq] at e1
      subst e1
      exact hn ⟨f, e2⟩
    · rw [h2 (fun f hf => he ⟨f, hf⟩)] at h
      exact absurd h (by simp)
  obtain ⟨f, hs⟩ := this
  have hv : m.getV k = .ok v ↔ f k = some v := by
    constructor
    · intro hg
      cases hk : f k with
      | none =>
        have hk : m.isKKnown k = false := by rw [← Bool.not_eq_true, hs.isK]; simp [hk]
        simp [getV, hk] at hg
      | some w =>
        have hk' : m.isKKnown k = true := (hs.isK k).2 (by simp [hk])
        simp [getV, hk', find_fst hs.nodup ((hs.mem k w).2 hk)] at hg
        rw [hg]
    · intro hk
      have hk' : m.isKKnown k = true := (hs.isK k).2 (by simp [hk])
      simp [getV, hk', find_fst hs.nodup ((hs.mem k v).2 hk)]
  have hk : m.getK v = .ok k ↔ f k = some v := by
    constructor
    · intro hg
      by_cases hv : m.isVKnown v = true
      · simp only [getK, hv, Res.assert_true, Res.ok_bind] at hg
        split at hg
        · rename_i p hp
          simp only [Res.pure_eq, Res.ok.injEq] at hg
          have h3 := List.mem_of_find?_eq_some hp
          have h4 := List.find?_some hp
          simp only [decide_eq_true_eq] at h4
          subst h4; subst hg
          exact (hs.mem _ _).1 h3
        · exact absurd hg (by simp)
      · simp [getK, hv] at hg
    · intro hk
      have hv : m.isVKnown v = true := (hs.isV v).2 ⟨k, hk⟩
      cases hp : m.pairs.find? (fun p => decide (p.2 = v)) with
      | none =>
        rw [List.find?_eq_none] at hp
        have := hp _ ((hs.mem k v).2 hk)
        simp at this
      | some p =>
        have h3 := List.mem_of_find?_eq_some hp
        have h4 := List.find?_some hp
        simp only [decide_eq_true_eq] at h4
        have h5 := (hs.mem p.1 p.2).1 h3
        rw [h4] at h5
        have := hs.inj rfl p.1 k v h5 hk
        simp only [getK, hv, Res.assert_true, Res.ok_bind, hp, Res.pure_eq, this]
  rw [hv, hk]

/-- C14: with shared values, the keys of a value are exactly those for which `get_v` returns it, each
of them once. -/
theorem C14_range (cs : List (BCall K V)) (f : K → Option V) (m : Bimap K V)
    (hf : effects false (fun _ => none) cs f) (h : (Bimap.empty : Bimap K V).run false cs = .ok m) (v : V) :
    (∀ l, m.getKRange v = .ok l → l.Nodup ∧ l ≠ [] ∧ ∀ k, k ∈ l ↔ f k = some v) ∧
    (m.getKRange v = .abort ↔ ∀ k, f k ≠ some v) := by
  obtain ⟨h1, -⟩ := run_stores cs _ _ (stores_empty (K := K) (V := V) false)
  obtain ⟨m', e1, hs⟩ := h1 f hf
  rw [h] at e1
  simp only [Res.ok.injEq] at e1
  subst e1
  by_cases hv : m.isVKnown v = true
  · obtain ⟨k0, hk0⟩ := (hs.isV v).1 hv
    constructor
    · intro l hl
      simp only [getKRange, hv, Res.assert_true, Res.ok_bind, Res.pure_eq, Res.ok.injEq] at hl
      subst hl
      have hm : ∀ k, k ∈ (m.pairs.filter fun p => p.2 = v).map Prod.fst ↔ f k = some v := by
        intro k
        simp only [List.mem_map, List.mem_filter, decide_eq_true_eq]
        constructor
        · rintro ⟨⟨a, b⟩, ⟨h3, rfl⟩, rfl⟩
          exact (hs.mem _ _).1 h3
        · intro hk; exact ⟨(k, v), ⟨(hs.mem _ _).2 hk, rfl⟩, rfl⟩
      refine ⟨hs.nodup.sublist (List.Sublist.map _ List.filter_sublist), ?_, hm⟩
      intro hnil
      have := (hm k0).2 hk0
      rw [hnil] at this
      simp at this
    · simp only [getKRange, hv, Res.assert_true, Res.ok_bind, Res.pure_eq]
      constructor
      · intro h; exact absurd h (by simp)
      · intro h; exact absurd hk0 (h k0)
  · have hno : ∀ k, f k ≠ some v := fun k hk => hv ((hs.isV v).2 ⟨k, hk⟩)
    simp only [Bool.not_eq_true] at hv
    constructor
    · intro l hl; simp [getKRange, hv] at hl
    · simp [getKRange, hv, hno]

/-- Two insertions, a change of the first value, an erasure, and the freed value used again. -/
example : ∃ m, (Bimap.empty : Bimap Nat Nat).run true
      [.insert 1 10, .insert 2 20, .setV 1 30, .erase 2, .insert 3 20] = .ok m ∧
      m.getV 1 = .ok 30 ∧ m.getK 20 = .ok 3 ∧ m.getV 2 = .abort ∧ m.getK 10 = .abort :=
  ⟨_, rfl, rfl, rfl, rfl, rfl⟩

end Verif.Adt
