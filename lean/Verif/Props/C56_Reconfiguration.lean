import Verif.Model.Reconfiguration
import Verif.Props.C54_RandomAccess
import Verif.Props.C12_AssociationRequest

set_option linter.unusedSimpArgs false

/-!
# C56: reconfiguration request and response

Both messages have optional HARQ configurations for both directions. A message that lacks one of them
aborts the sender and the receiver. Messages with both round trip.
-/

namespace Verif.Mac
open BitByte

/-- Flow IDs from 1 to 6. -/
def FlowIdsOk (l : List (Nat × Bool)) : Prop := ∀ f ∈ l, 1 ≤ f.1 ∧ f.1 ≤ 6

/-- A set lists its elements in ascending order of the flow ID. -/
def FlowsSorted (l : List (Nat × Bool)) : Prop := (l.map Prod.fst).Pairwise (· < ·)

/-- Field ranges (Table 6.4.2.7-1). -/
structure RequestOk (m : ReconfRequest) : Prop where
  tx : ∀ h, m.tx = some h → HarqOk h
  rx : ∀ h, m.rx = some h → HarqOk h
  flows : FlowIdsOk m.flows
  change : m.change ≤ 3

/-- Field ranges (Table 6.4.2.8-1). The flows are listed exactly if the message says so. -/
structure ReconfResponseOk (m : ReconfResponse) : Prop where
  tx : ∀ h, m.tx = some h → HarqOk h
  rx : ∀ h, m.rx = some h → HarqOk h
  accepted : m.accepted = 0 ∨ m.accepted = 1 ∨ m.accepted = 7
  listed : m.accepted = 1 ↔ m.flows ≠ []
  flows : FlowIdsOk m.flows
  change : m.change ≤ 3

/-- Values the members can hold. -/
structure ReconfTyped (tx rx : Option HarqConfig) (flows : List (Nat × Bool)) (change : Nat) :
    Prop where
  tx : ∀ h, tx = some h → EnumVal 31 h.delay
  rx : ∀ h, rx = some h → EnumVal 31 h.delay
  sorted : FlowsSorted flows
  flows : ∀ f ∈ flows, EnumValL 0 7 f.1
  change : EnumVal 4 change

/-! ## The set of flows -/

theorem flowInsert_fst (x : Nat × Bool) (l : List (Nat × Bool)) :
    (flowInsert x l).map Prod.fst = setInsert x.1 (l.map Prod.fst) := by
  induction l with
  | nil => rfl
  | cons y l ih =>
    simp only [flowInsert, List.map_cons, setInsert]
    split
    · rfl
    · split
      · rfl
      · rw [List.map_cons, ih]

/-- The set of the listed flows. -/
def flowsOf (l : List (Nat × Bool)) : List (Nat × Bool) := l.foldl (fun s x => flowInsert x s) []

theorem flowsOf_fst (l : List (Nat × Bool)) :
    (flowsOf l).map Prod.fst = setOf' (l.map Prod.fst) := by
  have key : ∀ (l acc : List (Nat × Bool)),
      (l.foldl (fun s x => flowInsert x s) acc).map Prod.fst =
      (l.map Prod.fst).foldl (fun s x => setInsert x s) (acc.map Prod.fst) := by
    intro l
    induction l with
    | nil => intro acc; rfl
    | cons x l ih => intro acc; rw [List.foldl_cons, ih, flowInsert_fst]; rfl
  exact key l []

theorem flowInsert_mem {x y : Nat × Bool} {l : List (Nat × Bool)} (h : y ∈ flowInsert x l) :
    y = x ∨ y ∈ l := by
  induction l with
  | nil => simpa [flowInsert] using h
  | cons z l ih =>
    unfold flowInsert at h
    split at h
    · simpa using h
    · split at h
      · exact Or.inr h
      · rcases List.mem_cons.1 h with rfl | h
        · exact Or.inr (by simp)
        · rcases ih h with e | e
          · exact Or.inl e
          · exact Or.inr (by simp [e])

theorem flowsOf_mem {y : Nat × Bool} {l : List (Nat × Bool)} (h : y ∈ flowsOf l) : y ∈ l := by
  have key : ∀ (l acc : List (Nat × Bool)), y ∈ l.foldl (fun s x => flowInsert x s) acc →
      y ∈ acc ∨ y ∈ l := by
    intro l
    induction l with
    | nil => intro acc h; exact Or.inl h
    | cons x l ih =>
      intro acc h
      rw [List.foldl_cons] at h
      rcases ih _ h with e | e
      · rcases flowInsert_mem e with rfl | e
        · exact Or.inr (by simp)
        · exact Or.inl e
      · exact Or.inr (by simp [e])
  rcases key l [] h with e | e
  · simp at e
  · exact e

theorem flowInsert_last {x : Nat × Bool} {l : List (Nat × Bool)} (h : ∀ y ∈ l, y.1 < x.1) :
    flowInsert x l = l ++ [x] := by
  induction l with
  | nil => rfl
  | cons y l ih =>
    have := h y (by simp)
    rw [flowInsert, if_neg (by omega), if_neg (by omega), ih fun z hz => h z (by simp [hz])]
    rfl

theorem flowsOf_sorted {l : List (Nat × Bool)} (h : FlowsSorted l) : flowsOf l = l := by
  have key : ∀ (l acc : List (Nat × Bool)), FlowsSorted (acc ++ l) →
      l.foldl (fun s x => flowInsert x s) acc = acc ++ l := by
    intro l
    induction l with
    | nil => intro acc _; simp
    | cons x l ih =>
      intro acc h
      rw [List.foldl_cons, flowInsert_last, ih]
      · simp
      · simpa [FlowsSorted] using h
      · intro y hy
        unfold FlowsSorted at h
        rw [List.map_append, List.pairwise_append] at h
        exact h.2.2 y.1 (List.mem_map_of_mem hy) x.1 (by simp)
  exact key l [] (by simpa using h)

theorem flowsOf_isSorted (l : List (Nat × Bool)) : FlowsSorted (flowsOf l) := by
  unfold FlowsSorted
  rw [flowsOf_fst]
  exact (setOf_spec _).1

theorem reconf_flows_length {l : List (Nat × Bool)} (hs : FlowsSorted l) (h : FlowIdsOk l) :
    l.length ≤ 6 := by
  have := flows_length hs (by
    intro x hx
    obtain ⟨f, hf, rfl⟩ := List.mem_map.1 hx
    exact h f hf)
  simpa using this

/-! ## Validity -/

theorem harqTest_some (c : HarqConfig) : harqTest (some c) = .ok c.isValid := by
  simp [harqTest, HarqConfig.isValid]

theorem harqTest_none : harqTest none = .abort := rfl

theorem flowsAll_iff {l : List (Nat × Bool)} (h : ∀ f ∈ l, EnumValL 0 7 f.1) :
    l.all (fun f => enumValidL 0 7 f.1) = true ↔ FlowIdsOk l := by
  rw [List.all_eq_true]
  refine forall_congr' fun x => forall_congr' fun hx => ?_
  rw [enumValidL_iff (h x hx) (by omega)]; omega

theorem ReconfRequest.isValid_iff {m : ReconfRequest}
    (ht : ReconfTyped m.tx m.rx m.flows m.change) :
    m.isValid = .ok true ↔ m.tx.isSome = true ∧ m.rx.isSome = true ∧ RequestOk m := by
  obtain ⟨tx, rx, cap, flows, change⟩ := m
  cases tx with
  | none => simp [isValid, harqTest_none]
  | some a =>
    have ha := HarqConfig.isValid_iff (ht.tx a rfl)
    cases rx with
    | none =>
      simp only [isValid, harqTest_none, harqTest_some, Res.ok_bind]
      cases a.isValid <;> simp
    | some b =>
      have hb := HarqConfig.isValid_iff (ht.rx b rfl)
      have hf := flowsAll_iff ht.flows
      have hc := enumValid_iff ht.change (by omega)
      have : RequestOk ⟨some a, some b, cap, flows, change⟩ ↔
          a.isValid = true ∧ b.isValid = true ∧
          (flows.all (fun f => enumValidL 0 7 f.1) && enumValid 4 change) = true := by
        rw [Bool.and_eq_true, hf, hc, ha, hb]
        constructor
        · rintro ⟨h1, h2, h3, h4⟩
          exact ⟨h1 _ rfl, h2 _ rfl, h3, Nat.lt_succ_of_le h4⟩
        · rintro ⟨h1, h2, h3, h4⟩
          exact ⟨by rintro _ ⟨⟩; exact h1, by rintro _ ⟨⟩; exact h2, h3, Nat.le_of_lt_succ h4⟩
      rw [this]
      simp only [isValid, harqTest_some, Res.ok_bind]
      cases a.isValid <;> cases b.isValid <;> simp

theorem ReconfResponse.isValid_iff {m : ReconfResponse} (ha : EnumVal 8 m.accepted)
    (ht : ReconfTyped m.tx m.rx m.flows m.change) :
    m.isValid = .ok true ↔ ∃ a b, m.tx = some a ∧ m.rx = some b ∧ HarqOk a ∧ HarqOk b ∧
      m.accepted < 8 ∧ (m.accepted = 1 → m.flows ≠ []) ∧ FlowIdsOk m.flows ∧ m.change ≤ 3 := by
  obtain ⟨tx, rx, cap, acc, flows, change⟩ := m
  cases tx with
  | none => simp [isValid, harqTest_none]
  | some a =>
    have h1 := HarqConfig.isValid_iff (ht.tx a rfl)
    cases rx with
    | none =>
      simp only [isValid, harqTest_none, harqTest_some, Res.ok_bind]
      cases a.isValid <;> simp
    | some b =>
      have h2 := HarqConfig.isValid_iff (ht.rx b rfl)
      have hf := flowsAll_iff ht.flows
      have hc := enumValid_iff ht.change (by omega)
      have hv := enumValid_iff ha (by omega)
      have he : (acc == 1 && flows.isEmpty) = false ↔ (acc = 1 → flows ≠ []) := by
        cases flows <;> simp
      simp only at hf hc hv
      have : (∃ a' b', some a = some a' ∧ some b = some b' ∧ HarqOk a' ∧ HarqOk b' ∧
          acc < 8 ∧ (acc = 1 → flows ≠ []) ∧ FlowIdsOk flows ∧ change ≤ 3) ↔
          a.isValid = true ∧ b.isValid = true ∧
          (!(!enumValid 8 acc || (acc == 1 && flows.isEmpty)) &&
          flows.all (fun f => enumValidL 0 7 f.1) && enumValid 4 change) = true := by
        rw [Bool.and_eq_true, Bool.and_eq_true, hf, hc, h1, h2, Bool.not_or, Bool.and_eq_true,
          Bool.not_not, hv, Bool.not_eq_true', he]
        constructor
        · rintro ⟨_, _, ⟨⟩, ⟨⟩, a1, a2, a3, a4, a5, a6⟩
          exact ⟨a1, a2, ⟨⟨a3, a4⟩, a5⟩, by omega⟩
        · rintro ⟨a1, a2, ⟨⟨a3, a4⟩, a5⟩, a6⟩
          exact ⟨a, b, rfl, rfl, a1, a2, a3, a4, a5, by omega⟩
      rw [this]
      simp only [isValid, harqTest_some, Res.ok_bind]
      cases a.isValid <;> cases b.isValid <;> simp

theorem harqTest_ne_ub (h : Option HarqConfig) : harqTest h ≠ .ub := by
  cases h <;> simp [harqTest]

theorem ReconfRequest.isValid_cases (m : ReconfRequest) :
    m.isValid = .abort ∨ ∃ v, m.isValid = .ok v := by
  obtain ⟨tx, rx, cap, flows, change⟩ := m
  cases tx with
  | none => exact Or.inl rfl
  | some a =>
    simp only [isValid, harqTest_some, Res.ok_bind]
    cases a.isValid with
    | false => exact Or.inr ⟨_, rfl⟩
    | true =>
      cases rx with
      | none => exact Or.inl rfl
      | some b =>
        simp only [harqTest_some, Res.ok_bind]
        cases b.isValid <;> exact Or.inr ⟨_, rfl⟩

theorem ReconfResponse.isValid_cases (m : ReconfResponse) :
    m.isValid = .abort ∨ ∃ v, m.isValid = .ok v := by
  obtain ⟨tx, rx, cap, acc, flows, change⟩ := m
  cases tx with
  | none => exact Or.inl rfl
  | some a =>
    simp only [isValid, harqTest_some, Res.ok_bind]
    cases a.isValid with
    | false => exact Or.inr ⟨_, rfl⟩
    | true =>
      cases rx with
      | none => exact Or.inl rfl
      | some b =>
        simp only [harqTest_some, Res.ok_bind]
        cases b.isValid <;> exact Or.inr ⟨_, rfl⟩

/-! ## Layout -/

/-- The octets: flags, number code and change, then the configurations, then the flows. -/
def reconfBytes (tx rx : Option HarqConfig) (cap : Bool) (code change : Nat)
    (flows : List (Nat × Bool)) : List Nat :=
  [tx.isSome.toNat * 128 + rx.isSome.toNat * 64 + cap.toNat * 32 + code * 4 + change] ++
  (P.wr tx (fun h => [h.n * 32 + h.delay]) ++ (P.wr rx (fun h => [h.n * 32 + h.delay]) ++
    flows.map (fun f => f.2.toNat * 128 + f.1)))

def reconfSize (tx rx : Option HarqConfig) (flows : List (Nat × Bool)) : Nat :=
  1 + tx.isSome.toNat + rx.isSome.toNat + flows.length

theorem reconfBytes_length (tx rx : Option HarqConfig) (cap : Bool) (code change : Nat)
    (flows : List (Nat × Bool)) :
    (reconfBytes tx rx cap code change flows).length = reconfSize tx rx flows := by
  simp only [reconfBytes, reconfSize, List.length_append, List.length_cons, List.length_nil,
    wr_length tx (fun h => [h.n * 32 + h.delay]) 1 (fun _ => rfl),
    wr_length rx (fun h => [h.n * 32 + h.delay]) 1 (fun _ => rfl), List.length_map]
  omega

theorem flatMap_flowByte {l : List (Nat × Bool)} (h : FlowIdsOk l) :
    l.flatMap (fun f => [flowByte f]) = l.map (fun f => f.2.toNat * 128 + f.1) := by
  induction l with
  | nil => rfl
  | cons a l ih =>
    have ha := h a (by simp)
    have hb := toNat_le a.2
    have e : flowByte a = a.2.toNat * 128 + a.1 := by unfold flowByte; bitsg; omega
    rw [List.flatMap_cons, ih fun x hx => h x (by simp [hx]), e]
    rfl

theorem reconfWritten_eq {tx rx : Option HarqConfig} (cap : Bool) {code change : Nat}
    {flows : List (Nat × Bool)} (ht : ∀ h, tx = some h → HarqOk h) (hr : ∀ h, rx = some h → HarqOk h)
    (hk : code ≤ 7) (hc : change ≤ 3) (hf : FlowIdsOk flows) :
    reconfWritten tx rx cap code change flows = reconfBytes tx rx cap code change flows := by
  have e : ∀ (a b c : Bool), ∀ k < 8, ∀ d < 4,
      u8 (u8 (u8 (u8 (u8 (a.toNat <<< 7) ||| b.toNat <<< 6) ||| c.toNat <<< 5) ||| k <<< 2) ||| d) =
      a.toNat * 128 + b.toNat * 64 + c.toNat * 32 + k * 4 + d := by decide +kernel
  simp only [reconfWritten, reconfBytes]
  rw [e tx.isSome rx.isSome cap code (by omega) change (by omega), flatMap_flowByte hf,
    P.wr_congr tx (fun h => [h.byte]) (fun h => [h.n * 32 + h.delay])
      (fun h hh => by rw [harqByte (ht h hh)]),
    P.wr_congr rx (fun h => [h.byte]) (fun h => [h.n * 32 + h.delay])
      (fun h hh => by rw [harqByte (hr h hh)])]

theorem reconf_bits (a b c : Bool) {k d : Nat} (hk : k ≤ 7) (hd : d ≤ 3) :
    let x := a.toNat * 128 + b.toNat * 64 + c.toNat * 32 + k * 4 + d
    x >>> 7 = a.toNat ∧ (x >>> 6) &&& 1 = b.toNat ∧ ((x >>> 5) &&& 1 != 0) = c ∧
      (x >>> 2) &&& 7 = k ∧ x &&& 3 = d ∧ x < 256 := by
  have : ∀ (a b c : Bool), ∀ k < 8, ∀ d < 4,
      let x := a.toNat * 128 + b.toNat * 64 + c.toNat * 32 + k * 4 + d
      x >>> 7 = a.toNat ∧ (x >>> 6) &&& 1 = b.toNat ∧ ((x >>> 5) &&& 1 != 0) = c ∧
      (x >>> 2) &&& 7 = k ∧ x &&& 3 = d ∧ x < 256 := by decide +kernel
  exact this a b c k (by omega) d (by omega)

theorem reconfBytes_bytes {tx rx : Option HarqConfig} (cap : Bool) {code change : Nat}
    {flows : List (Nat × Bool)} (ht : ∀ h, tx = some h → HarqOk h) (hr : ∀ h, rx = some h → HarqOk h)
    (hk : code ≤ 7) (hc : change ≤ 3) (hf : FlowIdsOk flows) :
    Bytes (reconfBytes tx rx cap code change flows) := by
  intro b hb
  simp only [reconfBytes, List.mem_append, List.mem_cons, List.not_mem_nil, or_false] at hb
  rcases hb with rfl | hb | hb | hb
  · exact (reconf_bits tx.isSome rx.isSome cap hk hc).2.2.2.2.2
  · refine P.wr_bytes tx _ (fun h hh => ?_) b hb
    intro c hc
    have := (ht h hh).n
    have := (ht h hh).delay
    simp at hc; omega
  · refine P.wr_bytes rx _ (fun h hh => ?_) b hb
    intro c hc
    have := (hr h hh).n
    have := (hr h hh).delay
    simp at hc; omega
  · obtain ⟨f, hf', rfl⟩ := List.mem_map.1 hb
    have := hf f hf'
    have := toNat_le f.2
    omega

/-! ## Reading -/

theorem run_rdHarq {h : HarqConfig} (hh : HarqOk h) (o : Nat) (l : List Nat) :
    rdHarq.run o ([h.n * 32 + h.delay] ++ l) = .ok (h, o + 1, l) := by
  unfold rdHarq
  refine P.step (P.run_byte _ _ _) ?_
  rw [P.run_pure, harq_ofByte hh]
  rfl

theorem run_rdFlow {f : Nat × Bool} (hf : 1 ≤ f.1 ∧ f.1 ≤ 6) (o : Nat) (l : List Nat) :
    rdFlow.run o ([f.2.toNat * 128 + f.1] ++ l) = .ok (f, o + 1, l) := by
  unfold rdFlow
  refine P.step (P.run_byte _ _ _) ?_
  have : ∀ (a : Bool), ∀ k < 7, 1 ≤ k → enumFromL 0 7 ((a.toNat * 128 + k) &&& bitmaskLsb 6) = k ∧
    ((a.toNat * 128 + k) >>> 7 != 0) = a := by decide +kernel
  obtain ⟨e1, e2⟩ := this f.2 f.1 (by omega) (by omega)
  rw [P.run_pure, e1, e2]
  rfl

theorem flatMap_single (l : List (Nat × Bool)) (g : Nat × Bool → Nat) :
    l.flatMap (fun f => [g f]) = l.map g := by
  induction l with
  | nil => rfl
  | cons a l ih => rw [List.flatMap_cons, ih]; rfl

theorem run_rdReconf {tx rx : Option HarqConfig} {b : Nat} {flows : List (Nat × Bool)}
    (ht : ∀ h, tx = some h → HarqOk h) (hr : ∀ h, rx = some h → HarqOk h) (hf : FlowIdsOk flows)
    (hs : FlowsSorted flows) (e1 : b >>> 7 = tx.isSome.toNat)
    (e2 : (b >>> 6) &&& 1 = rx.isSome.toNat) (rest : List Nat) :
    (rdReconf b flows.length).run 1 (P.wr tx (fun h => [h.n * 32 + h.delay]) ++
      (P.wr rx (fun h => [h.n * 32 + h.delay]) ++
        (flows.map (fun f => f.2.toNat * 128 + f.1) ++ rest))) =
      .ok ((tx, rx, flows, reconfSize tx rx flows), reconfSize tx rx flows, rest) := by
  have g : ∀ c : Bool, (c.toNat != 0) = c := by decide
  unfold rdReconf
  rw [e1, e2, g, g]
  refine P.step (P.run_opt rdHarq _ tx 1 _ fun h hh => run_rdHarq (ht h hh) _ _) ?_
  refine P.step (P.run_opt rdHarq _ rx _ _ fun h hh => run_rdHarq (hr h hh) _ _) ?_
  rw [← flatMap_single]
  refine P.step (P.run_many rdFlow (fun f => [f.2.toNat * 128 + f.1]) flows _ _
    fun f hf' o l => run_rdFlow (hf f hf') o l) ?_
  refine P.step (P.run_offset _ _) ?_
  rw [P.run_pure, flatMap_single]
  have : 1 + (P.wr tx (fun h => [h.n * 32 + h.delay])).length +
      (P.wr rx (fun h => [h.n * 32 + h.delay])).length +
      (flows.map (fun f => f.2.toNat * 128 + f.1)).length = reconfSize tx rx flows := by
    rw [wr_length tx (fun h => [h.n * 32 + h.delay]) 1 (fun _ => rfl),
      wr_length rx (fun h => [h.n * 32 + h.delay]) 1 (fun _ => rfl), List.length_map, reconfSize]
    omega
  rw [this]
  have := flowsOf_sorted hs
  unfold flowsOf at this
  rw [this]

theorem eval_byte {α : Type} {f : Nat → P α} {g : P α} {b o : Nat} {q l : List Nat} {x : α}
    (hfg : f b = g) (h : g.run 1 q = .ok (x, o, l)) : (P.byte >>= f).eval (b :: q) = .ok x := by
  subst hfg
  unfold P.eval
  rw [P.run_bind, P.run_byte, Res.ok_bind]
  simp only [Nat.zero_add]
  rw [h]
  rfl

theorem rdHarq_reads : P.Reads rdHarq 1 (fun h => EnumVal 31 h.delay ∧ h.n ≤ 7) := by
  refine (P.Reads.byte.bind fun b hb => P.Reads.pure ⟨enumVal_from _ _, ?_⟩).congr rfl
  simp only [HarqConfig.ofByte]
  bitsg; omega

theorem rdFlow_reads : P.Reads rdFlow 1 (fun f => EnumValL 0 7 f.1) :=
  (P.Reads.byte.bind (f := fun x => pure (enumFromL 0 7 (x &&& bitmaskLsb 6), x >>> 7 != 0))
    fun b _ => P.Reads.pure (enumValL_from 0 7 _)).congr rfl

/-- What is read from any octets: as many configurations and flows as announced. -/
theorem rdReconf_wp {b : Nat} (k N : Nat)
    (hN : 1 + (b >>> 7 != 0).toNat + ((b >>> 6) &&& 1 != 0).toNat + k ≤ N) :
    P.WP (rdReconf b k) N 1 (fun x _ => x.1.isSome = (b >>> 7 != 0) ∧
      x.2.1.isSome = ((b >>> 6) &&& 1 != 0) ∧ (∀ h, x.1 = some h → EnumVal 31 h.delay) ∧
      (∀ h, x.2.1 = some h → EnumVal 31 h.delay) ∧ FlowsSorted x.2.2.1 ∧
      (∀ f ∈ x.2.2.1, EnumValL 0 7 f.1) ∧
      x.2.2.2 = 1 + (b >>> 7 != 0).toNat + ((b >>> 6) &&& 1 != 0).toNat + k) := by
  unfold rdReconf
  refine P.WP.bind (P.WP.opt rdHarq_reads (by omega) fun tx h1 h2 => ?_)
  refine P.WP.bind (P.WP.opt rdHarq_reads (by omega) fun rx h3 h4 => ?_)
  refine P.WP.bind (P.WP.ofReads (P.Reads.many k rdFlow_reads) (by omega) fun fl h5 => ?_)
  refine P.WP.bind (P.WP.offset ?_)
  refine P.WP.pure ⟨h1, h3, fun h hh => (h2 h hh).1, fun h hh => (h4 h hh).1,
    flowsOf_isSorted fl, fun f hf => h5.2 f (flowsOf_mem hf), by simp only [Nat.mul_one]⟩

theorem rdReconf_mono (b k : Nat) : P.Mono (rdReconf b k) := by
  have h1 : P.Mono rdHarq := by unfold rdHarq; pmono
  have h2 : P.Mono rdFlow := by unfold rdFlow; pmono
  unfold rdReconf
  pmono

/-! ## The request -/

/-- The octets of a request. -/
def requestBytes (m : ReconfRequest) : List Nat :=
  reconfBytes m.tx m.rx m.capability m.flows.length m.change m.flows

/-- C56 (partial): layout and size of a request with both HARQ configurations. The size can be told
from the first octet. -/
theorem C56_request_pack_partial (m : ReconfRequest) (h : RequestOk m) (hs : FlowsSorted m.flows)
    (htx : m.tx.isSome = true) (hrx : m.rx.isSome = true) :
    m.pack = .ok (requestBytes m) ∧ (requestBytes m).length = reconfSize m.tx m.rx m.flows ∧
      m.packedSize = .ok (reconfSize m.tx m.rx m.flows) ∧ Bytes (requestBytes m) ∧
      ∀ rest, ReconfRequest.peek (requestBytes m ++ rest) =
        .ok (some (reconfSize m.tx m.rx m.flows)) := by
  have hfl := reconf_flows_length hs h.flows
  have hch := h.change
  have ht : ReconfTyped m.tx m.rx m.flows m.change :=
    ⟨fun c hc => Or.inl (by have := (h.tx c hc).delay; omega),
      fun c hc => Or.inl (by have := (h.rx c hc).delay; omega), hs,
      fun f hf => Or.inl (by have := h.flows f hf; omega), Or.inl (by omega)⟩
  have hv := (ReconfRequest.isValid_iff ht).2 ⟨htx, hrx, h⟩
  have hpk : ∀ rest, ReconfRequest.peek (requestBytes m ++ rest) =
        .ok (some (reconfSize m.tx m.rx m.flows)) := by
    intro rest
    obtain ⟨e1, e2, -, e4, -, -⟩ := reconf_bits m.tx.isSome m.rx.isSome m.capability
      (show m.flows.length ≤ 7 by omega) hch
    simp only [ReconfRequest.peek, requestBytes, reconfBytes, List.cons_append, List.nil_append,
      rd_zero, Res.ok_bind, e1, e2, e4]
    rw [if_pos (by omega)]
    rfl
  have hpk0 := hpk []
  rw [List.append_nil] at hpk0
  have hlen : (requestBytes m).length = reconfSize m.tx m.rx m.flows := reconfBytes_length ..
  refine ⟨?_, hlen, ?_, reconfBytes_bytes _ h.tx h.rx (by omega) hch h.flows, hpk⟩
  · simp only [ReconfRequest.pack, hv, Res.ok_bind, Res.assert_true]
    rw [reconfWritten_eq m.capability h.tx h.rx (by omega) hch h.flows]
    change (ReconfRequest.peek (requestBytes m) >>= fun n => Res.assert n.isSome >>= fun _ =>
      Res.assert (decide (n = some (requestBytes m).length)) >>= fun _ =>
        pure (requestBytes m)) = _
    rw [hpk0, hlen]
    simp
  · simp [ReconfRequest.packedSize, hv, reconfSize]

/-- C56, the code does not meet the claim: a request is sent only if it has both HARQ configurations.
One that lacks a configuration aborts the sender, as does one with a field out of range. -/
theorem C56_request_abort (m : ReconfRequest) (ht : ReconfTyped m.tx m.rx m.flows m.change)
    (h : ¬ (m.tx.isSome = true ∧ m.rx.isSome = true ∧ RequestOk m)) : m.pack = .abort := by
  have hv : m.isValid ≠ .ok true := fun hc => h ((ReconfRequest.isValid_iff ht).1 hc)
  unfold ReconfRequest.pack
  rcases m.isValid_cases with e | ⟨v, e⟩
  · rw [e]; rfl
  · cases v with
    | true => exact absurd e hv
    | false => rw [e]; rfl

/-- C56 (partial): a request with both HARQ configurations is recovered unchanged, whatever
follows. -/
theorem C56_request_roundtrip_partial (m : ReconfRequest) (h : RequestOk m)
    (hs : FlowsSorted m.flows) (htx : m.tx.isSome = true) (hrx : m.rx.isSome = true)
    (rest : List Nat) :
    ∃ l, m.pack = .ok l ∧ ReconfRequest.unpack (l ++ rest) = .ok (m, true) := by
  obtain ⟨hp, hlen, hsz, -, -⟩ := C56_request_pack_partial m h hs htx hrx
  refine ⟨_, hp, ?_⟩
  have hfl := reconf_flows_length hs h.flows
  have hch := h.change
  have ht : ReconfTyped m.tx m.rx m.flows m.change :=
    ⟨fun c hc => Or.inl (by have := (h.tx c hc).delay; omega),
      fun c hc => Or.inl (by have := (h.rx c hc).delay; omega), hs,
      fun f hf => Or.inl (by have := h.flows f hf; omega), Or.inl (by omega)⟩
  have hv := (ReconfRequest.isValid_iff ht).2 ⟨htx, hrx, h⟩
  obtain ⟨e1, e2, e3, e4, e5, -⟩ := reconf_bits m.tx.isSome m.rx.isSome m.capability
    (show m.flows.length ≤ 7 by omega) hch
  have hrun := run_rdReconf h.tx h.rx h.flows hs e1 e2 rest
  simp only [requestBytes, reconfBytes, List.cons_append, List.nil_append, List.append_assoc]
  unfold ReconfRequest.unpack
  simp only [rd_zero, Res.ok_bind]
  have hev : (P.byte >>= fun b => rdReconf b ((b >>> 2) &&& bitmaskLsb 3)).eval
      ((m.tx.isSome.toNat * 128 + m.rx.isSome.toNat * 64 + m.capability.toNat * 32 +
        m.flows.length * 4 + m.change) :: (P.wr m.tx (fun h => [h.n * 32 + h.delay]) ++
      (P.wr m.rx (fun h => [h.n * 32 + h.delay]) ++
        (m.flows.map (fun f => f.2.toNat * 128 + f.1) ++ rest)))) =
      .ok (m.tx, m.rx, m.flows, reconfSize m.tx m.rx m.flows) := by
    refine eval_byte ?_ hrun
    rw [show bitmaskLsb 3 = 7 by decide, e4]
  rw [hev, Res.ok_bind]
  have hm : ReconfRequest.mk m.tx m.rx
      (((m.tx.isSome.toNat * 128 + m.rx.isSome.toNat * 64 + m.capability.toNat * 32 +
        m.flows.length * 4 + m.change) >>> 5) &&& 1 != 0) m.flows
      (enumFrom 4 ((m.tx.isSome.toNat * 128 + m.rx.isSome.toNat * 64 + m.capability.toNat * 32 +
        m.flows.length * 4 + m.change) &&& bitmaskLsb 2)) = m := by
    rw [e3, show bitmaskLsb 2 = 3 by decide, e5, enumFrom_of_lt (by omega)]
  simp only [hm, hsz, Res.ok_bind, decide_true, Res.assert_true, hv]
  rfl

/-- The size announced by the first octet. -/
def reconfAnnounced (b : Nat) (k : Nat) : Nat := 1 + b / 128 + b / 64 % 2 + k

theorem flag7 {b : Nat} (hb : b < 256) : (b >>> 7 != 0).toNat = b / 128 ∧
    ((b >>> 6) &&& 1 != 0).toNat = b / 64 % 2 ∧ (b >>> 2) &&& 7 = b / 4 % 8 := by
  have : ∀ b < 256, (b >>> 7 != 0).toNat = b / 128 ∧
    ((b >>> 6) &&& 1 != 0).toNat = b / 64 % 2 ∧ (b >>> 2) &&& 7 = b / 4 % 8 := by decide +kernel
  exact this b hb

/-- C56: what the receiver does with arbitrary octets, as many as the first one announces: it returns
a valid request that has both HARQ configurations, or aborts. -/
theorem C56_request_receive (b : Nat) (q : List Nat) (hb : Bytes (b :: q))
    (hn : reconfAnnounced b (b / 4 % 8) ≤ 1 + q.length) :
    ReconfRequest.unpack (b :: q) = .abort ∨ ∃ m, ReconfRequest.unpack (b :: q) = .ok (m, true) ∧
      RequestOk m ∧ FlowsSorted m.flows ∧ m.tx.isSome = true ∧ m.rx.isSome = true ∧
      reconfSize m.tx m.rx m.flows = reconfAnnounced b (b / 4 % 8) := by
  have hb0 : b < 256 := hb b (by simp)
  obtain ⟨f1, f2, f3⟩ := flag7 hb0
  obtain ⟨x, o', l', hrun, hq⟩ := (rdReconf_wp (b := b) (b / 4 % 8) (1 + q.length)
    (by rw [f1, f2]; exact hn)).run (l := q) (fun c hc => hb c (by simp [hc])) rfl
  obtain ⟨h1, h2, h3, h4, h5, h6, h7⟩ := hq
  have hev : (P.byte >>= fun b => rdReconf b ((b >>> 2) &&& bitmaskLsb 3)).eval (b :: q) = .ok x := by
    exact eval_byte (by rw [show bitmaskLsb 3 = 7 by decide, f3]) hrun
  unfold ReconfRequest.unpack
  simp only [rd_zero, Res.ok_bind, hev]
  generalize hm : ReconfRequest.mk x.1 x.2.1 ((b >>> 5) &&& 1 != 0) x.2.2.1
    (enumFrom 4 (b &&& bitmaskLsb 2)) = m
  have ht : ReconfTyped m.tx m.rx m.flows m.change := by
    subst hm
    exact ⟨h3, h4, h5, h6, enumVal_from _ _⟩
  have hx : x.1 = m.tx ∧ x.2.1 = m.rx ∧ x.2.2.1 = m.flows := by subst hm; exact ⟨rfl, rfl, rfl⟩
  unfold ReconfRequest.packedSize
  rcases m.isValid_cases with e | ⟨v, e⟩
  · left; rw [e]; rfl
  · cases v with
    | false => left; rw [e]; rfl
    | true =>
      rw [e]
      simp only [Res.ok_bind, Res.assert_true, Res.pure_eq]
      by_cases hc : 1 + m.tx.isSome.toNat + m.rx.isSome.toNat + m.flows.length = x.2.2.2
      · right
        obtain ⟨a1, a2, a3⟩ := (ReconfRequest.isValid_iff ht).1 e
        refine ⟨m, ?_, a3, ht.sorted, a1, a2, ?_⟩
        · rw [decide_eq_true hc]; rfl
        · unfold reconfSize reconfAnnounced
          rw [hc, h7, f1, f2]
      · left
        rw [decide_eq_false hc]; rfl

/-- C56, the code does not meet the claim: octets that announce only one HARQ configuration, or none,
abort the receiver, whatever they are. -/
theorem C56_request_finding_receiver (b : Nat) (q : List Nat) (hb : Bytes (b :: q))
    (hn : reconfAnnounced b (b / 4 % 8) ≤ 1 + q.length) (hc : b < 192) :
    ReconfRequest.unpack (b :: q) = .abort := by
  rcases C56_request_receive b q hb hn with h | ⟨m, -, -, h4, h2, h3, hs⟩
  · exact h
  · have hb0 : b < 256 := hb b (by simp)
    obtain ⟨f1, f2, f3⟩ := flag7 hb0
    obtain ⟨x, o', l', hrun, hq⟩ := (rdReconf_wp (b := b) (b / 4 % 8) (1 + q.length)
      (by rw [f1, f2]; exact hn)).run (l := q) (fun c hc => hb c (by simp [hc])) rfl
    obtain ⟨h1, h2, h3, h4, h5, h6, h7⟩ := hq
    have hev : (P.byte >>= fun b => rdReconf b ((b >>> 2) &&& bitmaskLsb 3)).eval (b :: q) =
        .ok x := by
      exact eval_byte (by rw [show bitmaskLsb 3 = 7 by decide, f3]) hrun
    unfold ReconfRequest.unpack
    simp only [rd_zero, Res.ok_bind, hev]
    have hno : ReconfRequest.isValid ⟨x.1, x.2.1, (b >>> 5) &&& 1 != 0, x.2.2.1,
        enumFrom 4 (b &&& bitmaskLsb 2)⟩ ≠ .ok true := by
      intro hv
      obtain ⟨a1, a2, -⟩ := (ReconfRequest.isValid_iff ⟨h3, h4, h5, h6, enumVal_from _ _⟩).1 hv
      simp only at a1 a2
      rw [h1] at a1
      rw [h2] at a2
      rw [a1] at f1
      rw [a2] at f2
      simp at f1 f2
      omega
    unfold ReconfRequest.packedSize
    rcases (ReconfRequest.mk x.1 x.2.1 ((b >>> 5) &&& 1 != 0) x.2.2.1
        (enumFrom 4 (b &&& bitmaskLsb 2))).isValid_cases with e | ⟨v, e⟩
    · rw [e]; rfl
    · cases v with
      | true => exact absurd e hno
      | false => rw [e]; rfl

/-! ## The response -/

/-- The number code of a response. -/
def responseCode (m : ReconfResponse) : Nat := if m.accepted = 1 then m.flows.length else m.accepted

/-- The octets of a response. -/
def reconfResponseBytes (m : ReconfResponse) : List Nat :=
  reconfBytes m.tx m.rx m.capability (responseCode m) m.change m.flows

theorem ReconfResponseOk.typed {m : ReconfResponse} (h : ReconfResponseOk m)
    (hs : FlowsSorted m.flows) : ReconfTyped m.tx m.rx m.flows m.change :=
  have hch := h.change
  ⟨fun c hc => Or.inl (by have := (h.tx c hc).delay; omega),
      fun c hc => Or.inl (by have := (h.rx c hc).delay; omega), hs,
      fun f hf => Or.inl (by have := h.flows f hf; omega), Or.inl (by omega)⟩

theorem ReconfResponseOk.valid {m : ReconfResponse} (h : ReconfResponseOk m)
    (hs : FlowsSorted m.flows) (htx : m.tx.isSome = true) (hrx : m.rx.isSome = true) :
    m.isValid = .ok true := by
  have ha := h.accepted
  obtain ⟨a, hta⟩ := Option.isSome_iff_exists.1 htx
  obtain ⟨b, hrb⟩ := Option.isSome_iff_exists.1 hrx
  exact (ReconfResponse.isValid_iff (Or.inl (by omega)) (h.typed hs)).2
    ⟨a, b, hta, hrb, h.tx a hta, h.rx b hrb, by omega, h.listed.1, h.flows, h.change⟩

theorem responseCode_le {m : ReconfResponse} (h : ReconfResponseOk m) (hs : FlowsSorted m.flows) :
    responseCode m ≤ 7 := by
  have hfl := reconf_flows_length hs h.flows
  have ha := h.accepted
  unfold responseCode
  split <;> omega

theorem responseCode_flows {m : ReconfResponse} (h : ReconfResponseOk m)
    (hs : FlowsSorted m.flows) :
    (if responseCode m = 0 ∨ responseCode m = 7 then 0 else responseCode m) = m.flows.length ∧
    (if responseCode m < 7 then responseCode m else 0) = m.flows.length ∧
    (if responseCode m = 0 ∨ responseCode m = 7 then enumFrom 8 (responseCode m) else 1) =
      m.accepted := by
  have hfl := reconf_flows_length hs h.flows
  have ha := h.accepted
  have hl := h.listed
  by_cases e : m.accepted = 1
  · have hne := hl.1 e
    have : 0 < m.flows.length := List.length_pos_iff.2 hne
    have hc : responseCode m = m.flows.length := by simp [responseCode, e]
    rw [hc, if_neg (by omega), if_pos (by omega), if_neg (by omega), e]
    exact ⟨rfl, rfl, rfl⟩
  · have hnil : m.flows = [] := by
      by_contra hc; exact e (hl.2 hc)
    have hc : responseCode m = m.accepted := by simp [responseCode, e]
    have hcc : m.accepted = 0 ∨ m.accepted = 7 := by omega
    rw [hc, hnil, if_pos hcc, if_pos hcc, enumFrom_of_lt (by omega)]
    refine ⟨rfl, ?_, rfl⟩
    simp only [List.length_nil]
    split <;> omega

/-- C56 (partial): layout and size of a response with both HARQ configurations. The size can be told
from the first octet. -/
theorem C56_response_pack_partial (m : ReconfResponse) (h : ReconfResponseOk m)
    (hs : FlowsSorted m.flows) (htx : m.tx.isSome = true) (hrx : m.rx.isSome = true) :
    m.pack = .ok (reconfResponseBytes m) ∧
      (reconfResponseBytes m).length = reconfSize m.tx m.rx m.flows ∧
      m.packedSize = .ok (reconfSize m.tx m.rx m.flows) ∧ Bytes (reconfResponseBytes m) ∧
      ∀ rest, ReconfResponse.peek (reconfResponseBytes m ++ rest) =
        .ok (some (reconfSize m.tx m.rx m.flows)) := by
  have hk := responseCode_le h hs
  have hch := h.change
  have hv := h.valid hs htx hrx
  obtain ⟨-, g2, -⟩ := responseCode_flows h hs
  have hpk : ∀ rest, ReconfResponse.peek (reconfResponseBytes m ++ rest) =
        .ok (some (reconfSize m.tx m.rx m.flows)) := by
    intro rest
    obtain ⟨e1, e2, -, e4, -, -⟩ := reconf_bits m.tx.isSome m.rx.isSome m.capability hk hch
    simp only [ReconfResponse.peek, reconfResponseBytes, reconfBytes, List.cons_append,
      List.nil_append, rd_zero, Res.ok_bind, e1, e2, e4, g2]
    rfl
  have hpk0 := hpk []
  rw [List.append_nil] at hpk0
  have hlen : (reconfResponseBytes m).length = reconfSize m.tx m.rx m.flows :=
    reconfBytes_length ..
  refine ⟨?_, hlen, ?_, reconfBytes_bytes _ h.tx h.rx hk hch h.flows, hpk⟩
  · simp only [ReconfResponse.pack, hv, Res.ok_bind, Res.assert_true]
    change (ReconfResponse.peek (reconfWritten m.tx m.rx m.capability (responseCode m) m.change
      m.flows) >>= fun n => Res.assert n.isSome >>= fun _ =>
      Res.assert (decide (n = some (reconfWritten m.tx m.rx m.capability (responseCode m) m.change
        m.flows).length)) >>= fun _ => pure (reconfWritten m.tx m.rx m.capability (responseCode m)
        m.change m.flows)) = _
    rw [reconfWritten_eq m.capability h.tx h.rx hk hch h.flows]
    change (ReconfResponse.peek (reconfResponseBytes m) >>= fun n => Res.assert n.isSome >>= fun _ =>
      Res.assert (decide (n = some (reconfResponseBytes m).length)) >>= fun _ =>
        pure (reconfResponseBytes m)) = _
    rw [hpk0, hlen]
    simp
  · simp only [ReconfResponse.packedSize, hv, Res.ok_bind, Res.assert_true, Res.pure_eq, reconfSize]
    by_cases e : m.accepted = 1
    · rw [if_pos e]
    · have hnil : m.flows = [] := by
        by_contra hc; exact e (h.listed.2 hc)
      rw [if_neg e, hnil]; rfl

/-- C56, the code does not meet the claim: a response that lacks a HARQ configuration aborts the
sender. -/
theorem C56_response_finding_sender (m : ReconfResponse)
    (h : m.tx = none ∨ (∃ a, m.tx = some a ∧ HarqOk a) ∧ m.rx = none) : m.pack = .abort := by
  obtain ⟨tx, rx, cap, acc, flows, change⟩ := m
  rcases h with h | ⟨⟨a, ha, hok⟩, hr⟩
  · simp only at h
    subst h; rfl
  · simp only at ha hr
    subst ha; subst hr
    have : a.isValid = true := (HarqConfig.isValid_iff (Or.inl (by have := hok.delay; omega))).2 hok
    simp [ReconfResponse.pack, ReconfResponse.isValid, harqTest_some, harqTest_none, this]

/-- C56: flows that are not announced as included abort the sender. -/
theorem C56_response_abort_flows (m : ReconfResponse) (hs : FlowsSorted m.flows)
    (ht : ReconfTyped m.tx m.rx m.flows m.change)
    (ha : m.accepted = 0 ∨ m.accepted = 7) (hf : m.flows ≠ []) : m.pack = .abort := by
  by_cases hv : m.isValid = .ok true
  · obtain ⟨a, b, h1, h2, h3, h4, -, -, h5, h6⟩ :=
      (ReconfResponse.isValid_iff (Or.inl (by omega)) ht).1 hv
    have hlt : 0 < m.flows.length := List.length_pos_iff.2 hf
    have htx : ∀ c, m.tx = some c → HarqOk c := by
      intro c hc
      rw [h1, Option.some.injEq] at hc; rw [← hc]; exact h3
    have hrx : ∀ c, m.rx = some c → HarqOk c := by
      intro c hc
      rw [h2, Option.some.injEq] at hc; rw [← hc]; exact h4
    simp only [ReconfResponse.pack, hv, Res.ok_bind, Res.assert_true]
    rw [if_neg (by omega), reconfWritten_eq m.capability htx hrx (by omega) h6 h5]
    obtain ⟨e1, e2, -, e4, -, -⟩ := reconf_bits m.tx.isSome m.rx.isSome m.capability
      (show m.accepted ≤ 7 by omega) h6
    have hz : (if m.accepted < 7 then m.accepted else 0) = 0 := by split <;> omega
    have hpk : ReconfResponse.peek (reconfBytes m.tx m.rx m.capability m.accepted m.change m.flows) =
        .ok (some (1 + m.tx.isSome.toNat + m.rx.isSome.toNat)) := by
      simp only [ReconfResponse.peek, reconfBytes, List.cons_append, List.nil_append, rd_zero,
        Res.ok_bind, e1, e2, e4, hz]
      rfl
    rw [hpk, Res.ok_bind, reconfBytes_length]
    have : decide (some (1 + m.tx.isSome.toNat + m.rx.isSome.toNat) =
        some (reconfSize m.tx m.rx m.flows)) = false := by
      rw [decide_eq_false_iff_not, Option.some.injEq]
      unfold reconfSize; omega
    rw [this]; rfl
  · unfold ReconfResponse.pack
    rcases m.isValid_cases with e | ⟨v, e⟩
    · rw [e]; rfl
    · cases v with
      | true => exact absurd e hv
      | false => rw [e]; rfl

/-- C56 (partial): a response with both HARQ configurations is recovered unchanged, whatever
follows. -/
theorem C56_response_roundtrip_partial (m : ReconfResponse) (h : ReconfResponseOk m)
    (hs : FlowsSorted m.flows) (htx : m.tx.isSome = true) (hrx : m.rx.isSome = true)
    (rest : List Nat) :
    ∃ l, m.pack = .ok l ∧ ReconfResponse.unpack (l ++ rest) = .ok (m, true) := by
  obtain ⟨hp, hlen, hsz, -, -⟩ := C56_response_pack_partial m h hs htx hrx
  refine ⟨_, hp, ?_⟩
  have hk := responseCode_le h hs
  have hch := h.change
  have hv := h.valid hs htx hrx
  obtain ⟨g1, -, g3⟩ := responseCode_flows h hs
  obtain ⟨e1, e2, e3, e4, e5, -⟩ := reconf_bits m.tx.isSome m.rx.isSome m.capability hk hch
  have hrun := run_rdReconf h.tx h.rx h.flows hs e1 e2 rest
  simp only [reconfResponseBytes, reconfBytes, List.cons_append, List.nil_append, List.append_assoc]
  unfold ReconfResponse.unpack
  simp only [rd_zero, Res.ok_bind]
  have hev : (P.byte >>= fun b => rdReconf b (if (b >>> 2) &&& 7 = 0 ∨ (b >>> 2) &&& 7 = 7 then 0
      else (b >>> 2) &&& 7)).eval
      ((m.tx.isSome.toNat * 128 + m.rx.isSome.toNat * 64 + m.capability.toNat * 32 +
        responseCode m * 4 + m.change) :: (P.wr m.tx (fun h => [h.n * 32 + h.delay]) ++
      (P.wr m.rx (fun h => [h.n * 32 + h.delay]) ++
        (m.flows.map (fun f => f.2.toNat * 128 + f.1) ++ rest)))) =
      .ok (m.tx, m.rx, m.flows, reconfSize m.tx m.rx m.flows) := by
    exact eval_byte (by rw [e4, g1]) hrun
  rw [hev, Res.ok_bind]
  have hm : ReconfResponse.mk m.tx m.rx
      (((m.tx.isSome.toNat * 128 + m.rx.isSome.toNat * 64 + m.capability.toNat * 32 +
        responseCode m * 4 + m.change) >>> 5) &&& 1 != 0) m.accepted m.flows
      (enumFrom 4 ((m.tx.isSome.toNat * 128 + m.rx.isSome.toNat * 64 + m.capability.toNat * 32 +
        responseCode m * 4 + m.change) &&& 3)) = m := by
    rw [e3, e5, enumFrom_of_lt (by omega)]
  simp only [e4, g3, hm, hsz, Res.ok_bind, decide_true, Res.assert_true, hv]
  rfl

/-- C56: what the receiver does with arbitrary octets, as many as the first one announces: it returns
a valid response that has both HARQ configurations, or aborts. -/
theorem C56_response_receive (b : Nat) (q : List Nat) (hb : Bytes (b :: q))
    (hn : reconfAnnounced b (if b / 4 % 8 < 7 then b / 4 % 8 else 0) ≤ 1 + q.length) :
    ReconfResponse.unpack (b :: q) = .abort ∨ ∃ m, ReconfResponse.unpack (b :: q) = .ok (m, true) ∧
      ReconfResponseOk m ∧ FlowsSorted m.flows ∧ m.tx.isSome = true ∧ m.rx.isSome = true ∧
      reconfSize m.tx m.rx m.flows =
        reconfAnnounced b (if b / 4 % 8 < 7 then b / 4 % 8 else 0) := by
  have hb0 : b < 256 := hb b (by simp)
  obtain ⟨f1, f2, f3⟩ := flag7 hb0
  have hk : (if b / 4 % 8 = 0 ∨ b / 4 % 8 = 7 then 0 else b / 4 % 8) =
      (if b / 4 % 8 < 7 then b / 4 % 8 else 0) := by split_ifs <;> omega
  rw [← hk] at hn ⊢
  generalize hkk : (if b / 4 % 8 = 0 ∨ b / 4 % 8 = 7 then 0 else b / 4 % 8) = k at hn ⊢
  obtain ⟨x, o', l', hrun, hq⟩ := (rdReconf_wp (b := b) k (1 + q.length)
    (by rw [f1, f2]; exact hn)).run (l := q) (fun c hc => hb c (by simp [hc])) rfl
  obtain ⟨h1, h2, h3, h4, h5, h6, h7⟩ := hq
  have hev : (P.byte >>= fun b => rdReconf b (if (b >>> 2) &&& 7 = 0 ∨ (b >>> 2) &&& 7 = 7 then 0
      else (b >>> 2) &&& 7)).eval (b :: q) = .ok x := by
    exact eval_byte (by rw [f3, hkk]) hrun
  unfold ReconfResponse.unpack
  simp only [rd_zero, Res.ok_bind, hev, f3]
  generalize hm : ReconfResponse.mk x.1 x.2.1 ((b >>> 5) &&& 1 != 0)
    (if b / 4 % 8 = 0 ∨ b / 4 % 8 = 7 then enumFrom 8 (b / 4 % 8) else 1) x.2.2.1
    (enumFrom 4 (b &&& 3)) = m
  have ht : ReconfTyped m.tx m.rx m.flows m.change := by
    subst hm
    exact ⟨h3, h4, h5, h6, enumVal_from _ _⟩
  have hacc : (b / 4 % 8 = 0 ∧ m.accepted = 0 ∧ k = 0) ∨ (b / 4 % 8 = 7 ∧ m.accepted = 7 ∧ k = 0) ∨
      (m.accepted = 1 ∧ 1 ≤ k) := by
    subst hm
    simp only
    rw [← hkk]
    by_cases c1 : b / 4 % 8 = 0
    · left; rw [c1]; decide
    · by_cases c2 : b / 4 % 8 = 7
      · right; left; rw [c2]; decide
      · right; right
        rw [if_neg (by omega), if_neg (by omega)]
        omega
  unfold ReconfResponse.packedSize
  rcases m.isValid_cases with e | ⟨v, e⟩
  · left; rw [e]; rfl
  · cases v with
    | false => left; rw [e]; rfl
    | true =>
      obtain ⟨a, c, a1, a2, a3, a4, a5, a6, a7, a8⟩ :=
        (ReconfResponse.isValid_iff (Or.inl (by omega)) ht).1 e
      rw [e]
      simp only [Res.ok_bind, Res.assert_true, Res.pure_eq]
      by_cases hc : 1 + m.tx.isSome.toNat + m.rx.isSome.toNat +
          (if m.accepted = 1 then m.flows.length else 0) = x.2.2.2
      · right
        have htx : m.tx.isSome = (b >>> 7 != 0) := by rw [← hm]; exact h1
        have hrx : m.rx.isSome = ((b >>> 6) &&& 1 != 0) := by rw [← hm]; exact h2
        rw [htx, hrx, h7] at hc
        have hfl : k = 0 → m.flows = [] := by
          intro hk0
          have : x.2.2.1 = [] := by
            subst hk0
            have hh := hrun
            unfold rdReconf at hh
            simp only [P.run_bind, Res.bind_eq_ok] at hh
            obtain ⟨y1, -, y2, -, y3, hy3, hh⟩ := hh
            simp only [P.many, P.run_pure, Res.ok.injEq] at hy3
            subst hy3
            obtain ⟨y4, hy4, hh⟩ := hh
            simp only [P.run_pure, Res.ok.injEq, Prod.mk.injEq] at hh
            rw [← hh.1]; rfl
          rw [← hm]; exact this
        have hlen : m.flows.length = k := by
          rcases hacc with ⟨-, z1, z2⟩ | ⟨-, z1, z2⟩ | ⟨z1, z2⟩
          · rw [hfl z2, z2]; rfl
          · rw [hfl z2, z2]; rfl
          · rw [if_pos z1] at hc; omega
        refine ⟨m, ?_, ⟨?_, ?_, ?_, ?_, a7, a8⟩, ht.sorted, by rw [a1]; rfl, by rw [a2]; rfl, ?_⟩
        · rw [decide_eq_true (by rw [htx, hrx, h7]; exact hc)]; rfl
        · intro h hh
          rw [a1, Option.some.injEq] at hh; rw [← hh]; exact a3
        · intro h hh
          rw [a2, Option.some.injEq] at hh; rw [← hh]; exact a4
        · omega
        · refine ⟨a6, fun hne => ?_⟩
          rcases hacc with ⟨-, z1, z2⟩ | ⟨-, z1, z2⟩ | ⟨z1, z2⟩
          · exact absurd (hfl z2) hne
          · exact absurd (hfl z2) hne
          · exact z1
        · unfold reconfSize reconfAnnounced
          rw [htx, hrx, f1, f2, hlen]
      · left
        rw [decide_eq_false hc]; rfl

/-! ## Examples -/

/-- A request that sets up flow 2 and releases flow 5. -/
def sampleRequest : ReconfRequest :=
  ⟨some ⟨4, 10⟩, some ⟨2, 30⟩, true, [(2, false), (5, true)], 3⟩

theorem C56_example : RequestOk sampleRequest ∧
    sampleRequest.pack = .ok [235, 138, 94, 2, 133] ∧
    ReconfRequest.unpack [235, 138, 94, 2, 133] = .ok (sampleRequest, true) := by
  refine ⟨⟨?_, ?_, ?_, by decide⟩, by decide +kernel, by decide +kernel⟩
  · rintro _ ⟨⟩; exact ⟨by decide, by decide⟩
  · rintro _ ⟨⟩; exact ⟨by decide, by decide⟩
  · intro f hf
    simp [sampleRequest] at hf
    rcases hf with rfl | rfl <;> decide

/-- C56, negation: a request and a response with all fields in range that abort the sender, and
received octets as the standard has them that abort the receiver. -/
theorem C56_negation :
    RequestOk ⟨some ⟨4, 10⟩, none, false, [(2, false)], 0⟩ ∧
    ReconfRequest.pack ⟨some ⟨4, 10⟩, none, false, [(2, false)], 0⟩ = .abort ∧
    ReconfResponse.pack ⟨none, none, false, 7, [], 0⟩ = .abort ∧
    ReconfRequest.unpack [132, 138, 2] = .abort ∧ ReconfResponse.unpack [28] = .abort := by
  refine ⟨⟨?_, ?_, ?_, by decide⟩, by decide +kernel, by decide +kernel, by decide +kernel,
    by decide +kernel⟩
  · rintro _ ⟨⟩; exact ⟨by decide, by decide⟩
  · rintro _ ⟨⟩
  · intro f hf
    simp at hf
    subst hf; decide

end Verif.Mac
