import Verif.Proofs.Columns

/-!
# C38: initial routes given by the user
-/

namespace Vrpy

open Spec

/-- What is asked of the user's initial routes: from Source to Sink along arcs of the network, every customer on some
route. -/
def Spec.GoodInitialRoutes (G : Net) (R : List (List Node)) : Prop :=
  (∀ r ∈ R, r.head? = some .source ∧ r.getLast? = some .sink ∧ Along (fun u v => v ∈ G.succ u) r) ∧
  ∀ n, Node.cust n ∈ G.nodes → ∃ r ∈ R, Node.cust n ∈ r

/-- Vehicle type `k` is the first that can carry `q` (with no capacities set, all can). -/
def Spec.FirstThatCarries (caps : List ℚ) (q : ℚ) (k : Nat) : Prop :=
  (caps = [] ∧ k = 0) ∨ (k < caps.length ∧ q ≤ caps.getD k 0 ∧ ∀ j < k, caps.getD j 0 < q)

/-- Some vehicle type can carry `q`. -/
def Spec.SomeCarries (caps : List ℚ) (q : ℚ) : Prop := caps = [] ∨ ∃ c ∈ caps, q ≤ c

/-- **C38**, acceptance: `check_initial_routes` accepts exactly the good initial routes. -/
theorem C38_accepts_exactly (G : Net) (R : List (List Node)) :
    checkInitialRoutes R G = .ok () ↔ GoodInitialRoutes G R := by
  unfold checkInitialRoutes GoodInitialRoutes
  simp only [py_seq_ok, forM_ok_iff]
  constructor
  · rintro ⟨h1, h2, h3⟩
    refine ⟨?_, ?_⟩
    · intro r hr
      have a := h1 r hr
      have b := h3 r hr
      split at a
      · cases a
      · split at a
        · cases a
        · rename_i _ hh
          push Not at hh
          refine ⟨hh.1, hh.2, ?_⟩
          rw [along_iff]
          intro u v huv
          have := b (u, v) huv
          split at this
          · cases this
          · rename_i hx
            simpa [Net.hasEdge] using hx
    · intro n hn
      have := h2 _ hn
      split at this
      · cases this
      · rename_i hx
        by_contra hne
        push Not at hne
        apply hx
        refine ⟨by simp [Node.isDepot], ?_⟩
        rw [List.length_eq_zero_iff, List.filter_eq_nil_iff]
        intro r hr
        simpa using hne r hr
  · rintro ⟨h1, h2⟩
    refine ⟨?_, ?_, ?_⟩
    · intro r hr
      obtain ⟨a, b, _⟩ := h1 r hr
      rw [if_neg, if_neg]
      · rfl
      · simp [a, b]
      · rintro rfl; simp at a
    · intro v hv
      rw [if_neg]
      · rfl
      · rintro ⟨hd, hl⟩
        cases v with
        | source => simp [Node.isDepot] at hd
        | sink => simp [Node.isDepot] at hd
        | cust n =>
          obtain ⟨r, hr, hnr⟩ := h2 n hv
          rw [List.length_eq_zero_iff, List.filter_eq_nil_iff] at hl
          exact hl r hr (by simpa using hnr)
    · intro r hr e he
      obtain ⟨_, _, c⟩ := h1 r hr
      rw [along_iff] at c
      rw [if_neg]
      · rfl
      · simpa [Net.hasEdge] using c e.1 e.2 he

private theorem convertRoute_cases {G : Net} {caps : List ℚ} {id : Nat} {r : List Node} (hK : CostsFor G 1)
    (hal : Along (fun u v => v ∈ G.succ u) r) :
    (SomeCarries caps (load G r) → ∃ c, convertRoute G caps id r = .ok c) ∧
    (¬ SomeCarries caps (load G r) → convertRoute G caps id r = .error .valueError) := by
  have hal' : Along (fun u v => v ∈ G.succ u ∧ 0 < (G.cost u v).length) r := by
    rw [along_iff] at hal ⊢
    exact fun u v h => ⟨hal u v h, hK u v (hal u v h)⟩
  have hs := (sumEdgeCosts_route (k := 0) (c := cost G 0 r)).2 ⟨hal', rfl⟩
  unfold convertRoute
  rw [hs]
  simp only
  cases hf : firstType caps (r.map G.demand).sum with
  | none =>
    rw [firstType_none] at hf
    refine ⟨?_, fun _ => rfl⟩
    rintro (h | ⟨c, hc, hle⟩)
    · exact absurd h hf.1
    · exact absurd hle (not_le.2 (hf.2 c hc))
  | some k =>
    refine ⟨fun _ => ⟨_, rfl⟩, fun h => absurd ?_ h⟩
    rcases firstType_some.1 hf with ⟨h, _⟩ | ⟨h1, h2, _⟩
    · exact Or.inl h
    · exact Or.inr ⟨caps[k], List.getElem_mem h1, by simpa [load, List.getD_eq_getElem?_getD, h1] using h2⟩

/-- **C38**, conversion (partial: the price is the cost for vehicle type 0 even if the route is given another type).
Accepted routes become columns 1, 2, ... in order, each with the arcs of its route, priced at the sum of the edge
costs of vehicle type 0, and driven by the first vehicle type that can carry it; if no type can carry some route,
`ValueError` is raised. -/
theorem C38_conversion_partial (G : Net) (caps : List ℚ) (R : List (List Node)) (hK : CostsFor G 1)
    (hR : GoodInitialRoutes G R) :
    (¬ (∀ r ∈ R, SomeCarries caps (load G r)) → convertRoutes G caps R = .error .valueError) ∧
    ((∀ r ∈ R, SomeCarries caps (load G r)) → ∃ cols : List Column, convertRoutes G caps R = .ok cols ∧
      cols.length = R.length ∧
      ∀ (i : Nat) (r : List Node) (c : Column), R[i]? = some r → cols[i]? = some c →
        c.name = .num (i + 1) ∧ (∀ e, e ∈ c.edges ↔ e ∈ consecutive r) ∧ c.edges.Nodup ∧
        c.cost = cost G 0 r ∧ FirstThatCarries caps (load G r) c.vehicleType) := by
  have hmem : ∀ p ∈ R.zipIdx 1, p.1 ∈ R := fun p hp => List.fst_mem_of_mem_zipIdx hp
  constructor
  · intro h
    push Not at h
    obtain ⟨r, hr, hno⟩ := h
    unfold convertRoutes
    refine py_mapM_error ?_ ?_
    · intro p hp
      have hp' := hR.1 p.1 (hmem p hp)
      by_cases hc : SomeCarries caps (load G p.1)
      · exact Or.inl ((convertRoute_cases hK hp'.2.2).1 hc)
      · exact Or.inr ((convertRoute_cases hK hp'.2.2).2 hc)
    · obtain ⟨i, hi, rfl⟩ := List.getElem_of_mem hr
      refine ⟨(R[i], 1 + i), ?_, (convertRoute_cases hK (hR.1 _ hr).2.2).2 hno⟩
      rw [List.mk_mem_zipIdx_iff_le_and_getElem?_sub]
      simp [hi]
  · intro h
    obtain ⟨cols, hcols⟩ := py_mapM_total (f := fun p : List Node × Nat => convertRoute G caps p.2 p.1)
      (l := R.zipIdx 1) (fun p hp => (convertRoute_cases hK (hR.1 p.1 (hmem p hp)).2.2).1 (h _ (hmem p hp)))
    refine ⟨cols, hcols, ?_, ?_⟩
    · have := (py_mapM_ok.1 hcols).length_eq
      simpa using this.symm
    · intro i r c hi hc
      have hall := py_mapM_ok.1 hcols
      have hg : (R.zipIdx 1)[i]? = some (r, 1 + i) := by simp [List.getElem?_zipIdx, hi]
      have hri : i < (R.zipIdx 1).length := by
        by_contra hlt
        rw [List.getElem?_eq_none (by omega)] at hg
        cases hg
      have hci : i < cols.length := by rw [← hall.length_eq]; exact hri
      have := (List.forall₂_iff_get.1 hall).2 i hri hci
      rw [List.getElem?_eq_getElem hri] at hg
      rw [List.getElem?_eq_getElem hci] at hc
      simp only [List.get_eq_getElem, Option.some.inj hg, Option.some.inj hc] at this
      obtain ⟨_, k, hk, rfl⟩ := convertRoute_ok.1 this
      refine ⟨by simp [Nat.add_comm], fun e => mem_graphEdges _ e, nodup_graphEdges _, rfl, ?_⟩
      simpa [FirstThatCarries] using firstType_some.1 hk

/-- **C38** at the level of `solve()`: with initial routes given, the initialisation succeeds exactly when they are good
and every one of them can be carried by some vehicle. -/
theorem C38_initialize_iff (P : Vrp) (N : Net) (o : ℚ → CWOracle) (fuel : Nat) (hK : CostsFor N 1)
    (hR : P.initialRoutes ≠ []) :
    (∃ x, P.initialize N o fuel = .ok (some x)) ↔
      GoodInitialRoutes N P.initialRoutes ∧
      ∀ r ∈ P.initialRoutes, SomeCarries (capacities P.loadCapacity.toList) (load N r) := by
  unfold Vrp.initialize Vrp.chooseInitial
  rw [if_pos hR]
  cases hc : checkInitialRoutes P.initialRoutes N with
  | error e =>
    simp only [reduceCtorEq, exists_false, false_iff, not_and]
    intro hg
    rw [(C38_accepts_exactly _ _).2 hg] at hc
    cases hc
  | ok u =>
    have hg := (C38_accepts_exactly _ _).1 hc
    simp only [hg, true_and]
    have hcv := C38_conversion_partial N (capacities P.loadCapacity.toList) P.initialRoutes hK hg
    by_cases hall : ∀ r ∈ P.initialRoutes, SomeCarries (capacities P.loadCapacity.toList) (load N r)
    · obtain ⟨cols, h, _⟩ := hcv.2 hall
      rw [h]
      exact ⟨fun _ => hall, fun _ => ⟨_, rfl⟩⟩
    · rw [hcv.1 hall]
      simp [hall]

/-- A mixed fleet with a small cheap van (type 0) and a large expensive truck (type 1). -/
private def exC38 : Net where
  nodes := [.source, .cust 1, .cust 2, .sink]
  succ := fun u => match u with
    | .source => [.cust 1, .cust 2]
    | .cust 1 => [.cust 2, .sink]
    | .cust 2 => [.sink]
    | _ => []
  demand := fun v => match v with | .cust 1 => 4 | .cust 2 => 7 | _ => 0
  cost := fun _ _ => [1, 10]

/-- The hypotheses of the theorems hold for these routes; the first fits the van, the second needs the truck. -/
example : GoodInitialRoutes exC38 [[.source, .cust 1, .sink], [.source, .cust 1, .cust 2, .sink]] ∧
    CostsFor exC38 1 ∧
    ∀ r ∈ [[.source, .cust 1, .sink], [.source, .cust 1, .cust 2, .sink]], SomeCarries [5, 12] (load exC38 r) := by
  refine ⟨(C38_accepts_exactly _ _).1 (by decide +kernel), ?_, ?_⟩
  · intro u v _; simp [exC38]
  · intro r hr
    simp only [List.mem_cons, List.not_mem_nil, or_false] at hr
    rcases hr with rfl | rfl
    · exact Or.inr ⟨5, by simp, by decide +kernel⟩
    · exact Or.inr ⟨12, by simp, by decide +kernel⟩

/-- The price of a converted route need not be its cost: in this mixed fleet the route gets vehicle type 1, for which it
costs 30, but is priced at 3. -/
theorem C38_mixed_fleet_counterexample :
    ∃ (G : Net) (caps : List ℚ) (r : List Node) (c : Column), GoodInitialRoutes G [r] ∧ CostsFor G 2 ∧ caps.length = 2 ∧
      convertRoutes G caps [r] = .ok [c] ∧ c.vehicleType = 1 ∧ c.cost = 3 ∧ cost G c.vehicleType r = 30 := by
  refine ⟨exC38, [5, 12], [.source, .cust 1, .cust 2, .sink],
    { name := .num 1, nodes := [.source, .cust 1, .cust 2, .sink],
      edges := [(.source, .cust 1), (.cust 1, .cust 2), (.cust 2, .sink)], cost := 3, vehicleType := 1 },
    (C38_accepts_exactly _ _).1 (by decide +kernel), fun u v _ => by simp [exC38], rfl, by decide +kernel, rfl, rfl,
    by decide +kernel⟩

end Vrpy
