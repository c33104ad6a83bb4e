import Verif.Props.CostVectors

/-!
# C58: `use_all_vehicles` makes empty routes expensive, and nothing else
-/

namespace Vrpy

open Spec

/-- **C58.** With `use_all_vehicles` the Source-Sink arc of the searched network costs 1e10 for each of the `K` vehicle
types; without preassignments every other arc costs there what it costs in the network used for the reports, and so does
the Source-Sink arc when the option is off. -/
theorem C58_empty_route {dist : DistOracle} {strategy : String} {cspy : Bool} {R Q : List (List Node)} {P P' : Vrp}
    (hwf : P.G.WF) (hs : Node.source ∈ P.G.nodes) (ht : Node.sink ∈ P.G.nodes) (hedge : ∃ u v, v ∈ P.G.succ u)
    (hdoc : CostsAsDocumented P) (h : P.startSolve dist strategy cspy R Q = .ok P') :
    ∃ K N, P'.vehicleTypes = some K ∧ P'.H = some N ∧
      (P.useAllVehicles = true → Node.sink ∈ P'.G.succ .source ∧
        (P'.G.ed .source .sink).cost = some (.list (List.replicate K 10000000000))) ∧
      (Q = [] → P.preassignments = [] → ∀ u v, (P.useAllVehicles = true → ¬ (u = .source ∧ v = .sink)) →
        (P'.G.ed u v).cost = some (.list (N.cost u v))) := by
  obtain ⟨K, N, hK, hN, hlen, _⟩ := C45_cost_per_type hwf hs ht hedge hdoc h
  obtain ⟨P2, G1, N', N1, N2, N3, S, hpre, _, hua, _⟩ := startSolve_inv h
  have hNN : N' = N := by
    have : P'.H = some N' := by rw [S.result]
    rw [hN] at this; cases this; rfl
  subst hNN
  have hG : P'.G = N3.toDiGraph := by rw [S.result]
  have he := S.emptyRoute
  refine ⟨K, N', hK, hN, ?_, ?_⟩
  · intro hu
    rw [hua, hu] at he
    simp only [emptyRouteStep, if_true, emptyRouteCost] at he
    split at he
    · rename_i hedge'
      cases he
      have hin : Node.sink ∈ P'.G.succ .source := by
        rw [hG]
        simpa [Net.hasEdge, Net.toDiGraph] using hedge'
      refine ⟨hin, ?_⟩
      obtain ⟨cs, hcs, hl⟩ := hlen _ _ hin
      rw [hcs]
      rw [hG] at hcs
      simp only [Net.toDiGraph, and_self, if_true, Option.some.injEq, Cost.list.injEq] at hcs
      rw [← hcs] at hl ⊢
      rw [List.length_replicate] at hl
      rw [hl]
      rfl
    · cases he
  · intro hQ hP u v huv
    have hl := S.locked
    rw [hpre, hQ, hP] at hl
    simp only [ne_eq, not_true_eq_false, if_false, lockStep, Except.ok.injEq] at hl
    subst hl
    have hc : N3.cost u v = N'.cost u v := by
      have h2 := (pruneStep_same S.pruned).cost_eq
      rw [← h2]
      by_cases hu : P.useAllVehicles = true
      · exact (emptyRouteStep_same he).2.2.2.2.2 u v (huv hu)
      · rw [hua] at he
        simp only [emptyRouteStep, hu] at he
        cases he; rfl
    rw [hG]
    simp [Net.toDiGraph, hc]

/-- C58 applies to the two-customer example with two vehicle types and `use_all_vehicles`: the empty route costs
[1e10, 1e10] and the arc from Source to customer 1 keeps its cost [11, 22] (fixed cost included). -/
example : (match (({ exC46Mixed with useAllVehicles := true } : Vrp)).startSolve (fun _ _ _ => 0) "Exact" true [] [] with
    | .ok P' => decide ((P'.G.ed .source .sink).cost = some (.list [10000000000, 10000000000]) ∧
        (P'.G.ed .source (.cust 1)).cost = some (.list [11, 22]))
    | .error _ => false) = true := by decide +kernel

end Vrpy
