import Verif.Proofs.Locking
import Verif.Props.CostVectors

/-!
# C28, C29: preassigned routes
-/

namespace Vrpy

open Spec

/-- A complete preassigned route: from Source to Sink. -/
def Spec.Complete (r : List Node) : Prop := r.head? = some .source ∧ r.getLast? = some .sink

theorem isComplete_iff (r : List Node) : isComplete r = true ↔ Complete r := by
  simp [isComplete, Complete]

theorem mem_interior {r : List Node} (hc : Complete r) {v : Node} (hv : v ∈ stops r) : v ∈ interior r := by
  obtain ⟨h1, h2⟩ := hc
  simp only [stops, List.mem_filter, decide_eq_true_eq] at hv
  obtain ⟨hv, hs, ht⟩ := hv
  cases r with
  | nil => simp at hv
  | cons a r =>
    simp only [List.head?_cons, Option.some.injEq] at h1
    subst h1
    have hvr : v ∈ r := (List.mem_cons.1 hv).resolve_left hs
    rcases List.eq_nil_or_concat r with rfl | ⟨l, b, rfl⟩
    · simp at hvr
    · simp only [List.concat_eq_append] at h2 hvr ⊢
      have hb : b = .sink := by simpa [List.getLast?_cons] using h2
      subst hb
      simp only [interior, List.tail_cons, List.dropLast_concat]
      simpa [ht] using hvr

/-- The nodes of the path through a column are end points of its arcs. -/
theorem path_nodes {es : List (Node × Node)} {p : List Node} (h : IsPathIn es p) {v : Node} (hv : v ∈ p) :
    ∃ e ∈ es, v = e.1 ∨ v = e.2 := by
  obtain ⟨h1, h2, h3⟩ := h
  have hlen : 2 ≤ p.length := by
    match p, h1, h2 with
    | [a], h1, h2 => simp at h1 h2; rw [h1] at h2; cases h2
    | _ :: _ :: _, _, _ => simp
  obtain ⟨e, he, hev⟩ := (mem_graphNodes (consecutive p) v).1 ((mem_graphNodes_consecutive hlen v).2 hv)
  exact ⟨e, (along_iff _ _).1 h3 e.1 e.2 he, hev⟩

/-- **C28.** After `solve(preassignments=Q)` on an object that was not solved before, every complete route of `Q` is
returned unchanged, and every other returned route avoids its customers.  (`graphs` are the columns chosen by the master
problem; they use arcs of the network left after locking and pruning.) -/
theorem C28_complete_routes_verbatim {dist : DistOracle} {strategy : String} {cspy : Bool} {R Q : List (List Node)}
    {P P' : Vrp} (hQ : Q ≠ []) (h : P.startSolve dist strategy cspy R Q = .ok P')
    {H : Net} {caps : List ℚ} {K : Nat} {path : Column → List Node} {graphs : List Column}
    (hgraphs : ∀ c ∈ graphs, ∀ e ∈ c.edges, P'.G.hasEdge e.1 e.2)
    (hpath : ∀ c ∈ graphs, IsShortestPath c.edges (path c))
    {routes : Dict Nat (List Node)} {types : Dict Nat Nat}
    (hres : bestRoutesAsNodeLists H caps K path graphs P'.preassignments = .ok (routes, types)) :
    (∀ r ∈ Q, Complete r → ∃ i, (i, r) ∈ routes) ∧
    ∀ i r', (i, r') ∈ routes → (r' ∈ Q ∧ Complete r') ∨ ∀ r ∈ Q, Complete r → ∀ v ∈ stops r, v ∉ r' := by
  obtain ⟨P2, G1, N, N1, N2, N3, S, hP2, _⟩ := startSolve_inv h
  rw [if_pos hQ] at hP2
  have hpre : P'.preassignments = Q := by rw [S.result]; exact hP2
  have hG : P'.G = N3.toDiGraph := by rw [S.result]
  have hlock : lock (P'.vehicleTypes.getD 0) Q N = .ok N1 := by
    have hl := S.locked
    rw [hP2] at hl
    unfold lockStep at hl
    rw [if_pos hQ] at hl
    split at hl
    · cases hl
    · exact hl
  have hL := lock_inv hlock
  have hsucc : ∀ u v, v ∈ N3.succ u → v ∈ N1.succ u := by
    intro u v hv
    have h3 := (emptyRouteStep_same S.emptyRoute).2.2.1
    rw [h3] at hv
    exact (pruneStep_same S.pruned).same.succ u v hv
  rw [hpre] at hres
  unfold bestRoutesAsNodeLists at hres
  cases hf : Q.foldlM (mergeLocked H caps K) (graphs.foldl (addGraph path) ([], [], 1)) with
  | error e => simp [hf] at hres
  | ok st =>
    simp only [hf, Except.ok.injEq, Prod.mk.injEq] at hres
    have hm := merged_all hf
    obtain ⟨rfl, _⟩ := hres
    rw [hm.routes]
    constructor
    · intro r hr hc
      have : r ∈ graphs.map path ++ Q.filter isComplete :=
        List.mem_append_right _ (List.mem_filter.2 ⟨hr, (isComplete_iff r).2 hc⟩)
      obtain ⟨i, hi⟩ := List.mem_iff_getElem?.1 this
      exact ⟨i + 1, (mem_numbered _ _ _).2 ⟨by omega, by simpa using hi⟩⟩
    · intro i r' hir
      obtain ⟨_, hi⟩ := (mem_numbered _ _ _).1 hir
      rcases List.mem_append.1 (List.mem_of_getElem? hi) with hmem | hmem
      · right
        intro r hr hc v hv hvr
        obtain ⟨c, hcg, rfl⟩ := List.mem_map.1 hmem
        obtain ⟨e, he, hev⟩ := path_nodes (hpath c hcg).1 hvr
        have hedge := hgraphs c hcg e he
        rw [hG] at hedge
        have hedge' : e.2 ∈ N1.succ e.1 := hsucc _ _ (of_decide_eq_true hedge)
        obtain ⟨_, hno⟩ := (hL.arcs e.1 e.2).1 hedge'
        have := hno r hr ((isComplete_iff r).2 hc)
        have hvi := mem_interior hc hv
        rcases hev with rfl | rfl
        · exact this.1 hvi
        · exact this.2 hvi
      · left
        obtain ⟨a, b⟩ := List.mem_filter.1 hmem
        exact ⟨a, (isComplete_iff _).1 b⟩

/-- **C29**, search costs.  In the network searched after `solve(preassignments=Q)`, the arcs of partial routes of `Q`
cost 0 for every vehicle type, and all other arcs (except the empty route Source-Sink, which `use_all_vehicles` makes
expensive) cost what they cost in the network used for the reports. -/
theorem C29_partial_routes_free {dist : DistOracle} {strategy : String} {cspy : Bool} {R Q : List (List Node)}
    {P P' : Vrp} (hQ : Q ≠ []) (h : P.startSolve dist strategy cspy R Q = .ok P') :
    ∃ (K : Nat) (N N3 : Net), P'.vehicleTypes.getD 0 = K ∧ P'.H = some N ∧ P'.G = N3.toDiGraph ∧
      ∀ u v, (P.useAllVehicles = true → ¬ (u = .source ∧ v = .sink)) → ∀ k, k < K →
        ((∃ r ∈ Q, ¬ Complete r ∧ (u, v) ∈ consecutive r) → (N3.cost u v).getD k 0 = 0) ∧
        ((¬ ∃ r ∈ Q, ¬ Complete r ∧ (u, v) ∈ consecutive r) → (N3.cost u v).getD k 0 = (N.cost u v).getD k 0) := by
  obtain ⟨P2, G1, N, N1, N2, N3, S, hP2, _, hua2, _⟩ := startSolve_inv h
  rw [if_pos hQ] at hP2
  refine ⟨_, N, N3, rfl, by rw [S.result], by rw [S.result], ?_⟩
  have hlock : lock (P'.vehicleTypes.getD 0) Q N = .ok N1 := by
    have hl := S.locked
    rw [hP2] at hl
    unfold lockStep at hl
    rw [if_pos hQ] at hl
    split at hl
    · cases hl
    · exact hl
  have hL := lock_inv hlock
  intro u v huv k hk
  have hcost : N3.cost u v = N1.cost u v := by
    rw [← (pruneStep_same S.pruned).cost_eq]
    have he := S.emptyRoute
    by_cases hcase : u = .source ∧ v = .sink
    · have hua : P.useAllVehicles = false := by
        by_contra hne
        exact huv (by simpa using hne) hcase
      rw [hua2, hua] at he
      unfold emptyRouteStep at he
      simp only [Bool.false_eq_true, if_false, Except.ok.injEq] at he
      rw [he]
    · exact (emptyRouteStep_same he).2.2.2.2.2 u v hcase
  rw [hcost, hL.cost u v]
  constructor
  · rintro ⟨r, hr, hc, hmem⟩
    have hex : ∃ r ∈ Q, isComplete r = false ∧ (u, v) ∈ consecutive r :=
      ⟨r, hr, by rw [← Bool.not_eq_true, isComplete_iff]; exact hc, hmem⟩
    rw [if_pos hex]
    simp [List.getD_eq_getElem?_getD, List.getElem?_append, hk, List.getElem?_replicate]
  · intro hno
    rw [if_neg]
    rintro ⟨r, hr, hc, hmem⟩
    exact hno ⟨r, hr, by rw [← isComplete_iff, hc]; simp, hmem⟩

/-- **C29**, reported costs.  `best_routes_cost` prices every route with the costs of the network `H` stored before
locking, for the vehicle type of the route. -/
theorem C29_reported_costs {H : Net} {S : Solution} {D : Dict Nat ℚ} (h : bestRoutesCost H S = .ok D) :
    D.map Prod.fst = S.routes.map Prod.fst ∧
    ∀ i r, (i, r) ∈ S.routes → ∃ k, dget S.types i = some k ∧ (i, cost H k r) ∈ D := by
  have hall := py_mapM_ok.1 h
  have gen : ∀ (l : Dict Nat (List Node)) (D : Dict Nat ℚ),
      List.Forall₂ (fun x y => routeCostEntry H S.types x = .ok y) l D →
      D.map Prod.fst = l.map Prod.fst ∧ ∀ i r, (i, r) ∈ l → ∃ k, dget S.types i = some k ∧ (i, cost H k r) ∈ D := by
    intro l D hl
    induction hl with
    | nil => simp
    | @cons x y l D hx _ ih =>
      unfold routeCostEntry at hx
      cases hk : dget S.types x.1 with
      | none => simp [hk] at hx
      | some k =>
        cases hs : sumEdgeCosts H k (consecutive x.2) with
        | error e => simp [hk, hs] at hx
        | ok c =>
          simp only [hk, hs, Except.ok.injEq] at hx
          obtain ⟨_, rfl⟩ := sumEdgeCosts_route.1 hs
          subst hx
          refine ⟨by simp [ih.1], ?_⟩
          intro i r hir
          rcases List.mem_cons.1 hir with heq | hir
          · subst heq
            exact ⟨k, hk, by simp⟩
          · obtain ⟨k', a, b⟩ := ih.2 i r hir
            exact ⟨k', a, List.mem_cons_of_mem _ b⟩
  exact gen _ _ hall

/-- A run: the complete route Source, 1, Sink is locked, and the arc (2, Sink) is a partial route. -/
private def exC28 : Py Vrp :=
  exC46.startSolve (fun _ _ _ => 0) "BestEdges1" true [] [[.source, .cust 1, .sink], [.cust 2, .sink]]

/-- The hypotheses of the theorems can be met: the run succeeds, one customer is left, (2, Sink) costs 0 in the search
and 3 in the reports. -/
example : (match exC28 with
    | .ok P' => decide (P'.G.nodes = [.source, .cust 2, .sink] ∧ (P'.G.ed (.cust 2) .sink).cost = some (.list [0]) ∧
        (P'.G.ed .source (.cust 2)).cost = some (.list [11]) ∧
        (P'.H.map (fun N => N.cost (.cust 2) .sink)) = some [3])
    | .error _ => false) = true := by decide +kernel

/-- With the remaining route as the only column, the result has both routes. -/
example : (match exC28 with
    | .ok P' => (match P'.H with
      | some H => decide (bestRoutesAsNodeLists H [5] 1 (fun _ => [.source, .cust 2, .sink])
            [{ name := .num 1, nodes := [], edges := [(.source, .cust 2), (.cust 2, .sink)], cost := 11, vehicleType := 0 }]
            P'.preassignments = .ok ([(1, [.source, .cust 2, .sink]), (2, [.source, .cust 1, .sink])], [(1, 0), (2, 0)]))
      | none => false)
    | .error _ => false) = true := by decide +kernel

end Vrpy
