import Verif.Proofs.Brute

/-!
# C51 without ranks: optimal points of the pricing problem with distribution and collection
-/

namespace Vrpy

open Spec PricingLP

/-- **C51 without ranks.** With simultaneous distribution and collection, if all cycles have positive reduced cost and the
direct trip does not have a negative one, an optimal point with negative objective is one simple route on which the goods on board never
exceed the capacity.  (Its reduced cost is the objective also if cycles only have no negative reduced cost,
`C17_optimal_value`.)  What is missing: the conditions are needed, see `C17_zero_cycle_counterexample`,
`C17_direct_trip_counterexample`. -/
theorem C51_optimal_partial {q : PricingLP} {prob : LP PVar} {p : PVar → ℚ} (hG : WellFormed q.G)
    (hd : q.G.demand .source = 0) (hs : q.G.service .sink = 0) (hnn : Nonnegative q.G q.timeWindows)
    (hpd : q.pickupDelivery = false) (hdc : q.distributionCollection = true) (hcollect : CollectsGoods q.G)
    (hcyc : PositiveCycles q.G q.weight) (hdirect : Node.sink ∈ q.G.succ .source → 0 ≤ q.weight .source .sink)
    (hform : q.formulate = .ok prob) (hp : prob.Optimal p) (hneg : prob.obj.eval p < 0) :
    ∃ r cap, q.caps[q.vehicleType]? = some cap ∧ Admissible q r ∧ Selects q.G p r ∧ GoodsWithin q.G cap r := by
  obtain ⟨r, h1, h2, _, h3⟩ := C17_optimal_points_partial hG hd hs hnn hpd (fun _ => hcollect) hcyc hdirect hform hp hneg
  obtain ⟨cap, h4, h5⟩ := h3 hdc
  exact ⟨r, cap, h4, h1, h2, h5⟩

/-! ## An example -/

/-- Three customers.  On the way 1, 2, 3 the vehicle has 3 + 4 + 2 = 9 units on board after the first. -/
def goodsNet : Net where
  nodes := [.source, .cust 1, .cust 2, .cust 3, .sink]
  succ := fun u => match u with
    | .source => [.cust 1, .cust 2]
    | .cust 1 => [.cust 2, .sink]
    | .cust 2 => [.cust 1, .cust 3, .sink]
    | .cust 3 => [.sink]
    | _ => []
  demand := fun v => if v = .cust 2 then 4 else if v.isDepot then 0 else 2
  collect := fun v => if v = .cust 1 then 3 else if v = .cust 2 then 2 else if v = .cust 3 then 1 else 0

theorem goodsNet_wf : WellFormed goodsNet where
  nodes_nodup := by decide
  succ_nodup := by intro u; simp only [goodsNet]; split <;> decide
  edge_mem := by
    intro u v hv
    simp only [goodsNet] at hv ⊢
    split at hv <;> simp at hv <;> (try rcases hv with rfl | rfl | rfl) <;> (try rcases hv with rfl | rfl) <;>
      (try subst hv) <;> decide
  source_mem := by decide
  sink_mem := by decide
  no_into_source := by
    intro u
    simp only [goodsNet]
    split <;> decide
  no_out_of_sink := by decide

/-- The route 1, 2, 3 has reduced cost -5, but it is too much for a vehicle with capacity 8. -/
def goodsPricing : PricingLP where
  G := goodsNet
  weight := fun u v => match u, v with
    | .source, .cust 1 => -1
    | .source, .cust 2 => 1
    | .cust 1, .cust 2 => -1
    | .cust 2, .cust 1 => 3
    | .cust 2, .cust 3 => -2
    | .cust 2, .sink => -1
    | .cust 3, .sink => -1
    | _, _ => 0
  caps := [8]
  distributionCollection := true
  negCycle := false

/-- The route 1, 2. -/
def goodsPoint : PVar → ℚ
  | .x .source (.cust 1) => 1
  | .x (.cust 1) (.cust 2) => 1
  | .x (.cust 2) .sink => 1
  | .unloadE .source (.cust 1) => 6
  | .unloadE (.cust 1) (.cust 2) => 4
  | .loadE (.cust 1) (.cust 2) => 3
  | .loadE (.cust 2) .sink => 5
  | _ => 0

theorem goodsPricing_nonnegative : Nonnegative goodsPricing.G goodsPricing.timeWindows := by
  refine ⟨?_, fun _ _ _ => by simp [goodsPricing, goodsNet], fun h => (by cases h)⟩
  show ∀ v ∈ goodsNet.nodes, 0 ≤ goodsNet.demand v
  decide +kernel

theorem goodsPricing_collects : CollectsGoods goodsPricing.G := by
  refine ⟨?_, rfl, rfl⟩
  show ∀ v ∈ goodsNet.nodes, 0 ≤ goodsNet.collect v
  decide +kernel

theorem goodsPricing_cycles : PositiveCycles goodsPricing.G goodsPricing.weight :=
  positiveCycles_brute goodsNet_wf (by decide +kernel)

theorem goodsPoint_optimal : (goodsPricing.lp 8).Optimal goodsPoint := by
  refine optimal_of_routes_goods (q := goodsPricing) goodsNet_wf rfl rfl goodsPricing_nonnegative rfl
    (fun _ => goodsPricing_collects) (fun a t h1 h2 => (goodsPricing_cycles a t h1 h2).le)
    (fun _ => by decide +kernel) rfl (feasible_of _ _ (by decide +kernel)) (by decide +kernel) ?_
  intro r hr
  by_cases h : r = routeOf [.cust 1, .cust 2, .cust 3]
  · refine Or.inr (Or.inr ⟨rfl, fun cap hcap hg => ?_⟩)
    have h8 : (8 : ℚ) = cap := by simpa [goodsPricing] using hcap
    have := hg [.source, .cust 1] [.cust 2, .cust 3, Node.sink] (by rw [h]; rfl) (by simp) (by simp)
    rw [← h8] at this
    revert this
    decide +kernel
  · have key : ∀ r ∈ goodsNet.routes, r = routeOf [.cust 1, .cust 2, .cust 3] ∨
        (goodsPricing.lp 8).obj.eval goodsPoint ≤ legSum goodsPricing.weight r ∨ r.getLast? ≠ some .sink := by
      decide +kernel
    rcases key r hr with h' | h' | h'
    · exact absurd h' h
    · exact Or.inl h'
    · exact Or.inr (Or.inl h')

/-- All hypotheses of `C51_optimal_partial` hold for the example: the best route would be 1, 2, 3, the optimal point is 1, 2. -/
example : WellFormed goodsPricing.G ∧ Nonnegative goodsPricing.G goodsPricing.timeWindows ∧ CollectsGoods goodsPricing.G ∧
    PositiveCycles goodsPricing.G goodsPricing.weight ∧ goodsPricing.formulate = .ok (goodsPricing.lp 8) ∧
    (goodsPricing.lp 8).Optimal goodsPoint ∧ (goodsPricing.lp 8).obj.eval goodsPoint = -3 ∧
    Selects goodsPricing.G goodsPoint (routeOf [.cust 1, .cust 2]) ∧
    legSum goodsPricing.weight (routeOf [.cust 1, .cust 2, .cust 3]) = -5 := by
  refine ⟨goodsNet_wf, goodsPricing_nonnegative, goodsPricing_collects, goodsPricing_cycles, rfl, goodsPoint_optimal,
    by decide +kernel, ?_, by decide +kernel⟩
  have key : ∀ u ∈ goodsNet.nodes, ∀ v ∈ goodsNet.succ u,
      goodsPoint (.x u v) = if (u, v) ∈ consecutive (routeOf [.cust 1, .cust 2]) then 1 else 0 := by decide +kernel
  exact fun u v huv => key u (goodsNet_wf.edge_mem u v huv).1 v huv

end Vrpy
