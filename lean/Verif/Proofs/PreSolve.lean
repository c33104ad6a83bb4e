import Verif.Model.PreSolve
import Verif.Proofs.Checks
import Verif.Proofs.Prune

/-! Inversion of `_pre_solve` and facts about its steps. -/

namespace Vrpy

open Spec

theorem py_bind_ok {α β : Type} {x : Py α} {f : α → Py β} {b : β} :
    (x >>= f) = .ok b ↔ ∃ a, x = .ok a ∧ f a = .ok b := by
  cases x <;> simp [bind, Except.bind]

theorem py_seq_ok {β : Type} {x : Py Unit} {f : Unit → Py β} {b : β} :
    (x >>= f) = .ok b ↔ x = .ok () ∧ f () = .ok b := by
  cases x <;> simp [bind, Except.bind]

/-- Everything a successful `_pre_solve` went through. -/
structure PreSolved (dist : DistOracle) (strategy : String) (cspy : Bool) (P P' : Vrp) (G1 : DiGraph)
    (N N1 N2 N3 : Net) : Prop where
  vt : P.typesStep = .ok P'.vehicleTypes
  args : checkArguments P.numStops P.loadCapacity.toList P.duration strategy P.mixedFleet P.fixedCost.toList P.G
    P'.vehicleTypes P.numVehicles.toList = .ok ()
  fixed : fixedStep P.fixedCost.toList (P'.vehicleTypes.getD 0) P.G = .ok G1
  dummy : updateDummyAttributes (P'.vehicleTypes.getD 0) G1 = .ok N
  consistent : checkConsistency cspy P.pickupDelivery N = .ok ()
  feasible : checkFeasibility (capacities P.loadCapacity.toList) P.duration.limit (dist N) N = .ok ()
  locked : lockStep (P'.vehicleTypes.getD 0) P.preassignments N = .ok N1
  pruned : pruneStep P.loadCapacity P.timeWindows N1 = .ok N2
  stops : stopsStep P N2 = .ok P'.numStops
  emptyRoute : emptyRouteStep P.useAllVehicles N2 = .ok N3
  result : P' = { P with
    vehicleTypes := P'.vehicleTypes, G := N3.toDiGraph, H := some N,
    numVehicles := .many (checkPeriodicNumVehicles P.periodic P.numVehicles.toList).1,
    numVehiclesSchedule := (checkPeriodicNumVehicles P.periodic P.numVehicles.toList).2,
    moreRoutes := if P.preassignments ≠ [] ∧ N1.nodes.length = 2 then false else P.moreRoutes,
    numStops := P'.numStops }

theorem preSolve_inv {dist : DistOracle} {strategy : String} {cspy : Bool} {P P' : Vrp}
    (h : P.preSolve dist strategy cspy = .ok P') :
    ∃ G1 N N1 N2 N3, PreSolved dist strategy cspy P P' G1 N N1 N2 N3 := by
  unfold Vrp.preSolve at h
  simp only [py_bind_ok] at h
  obtain ⟨vt, hvt, _, hargs, G1, hG1, N, hN, _, hcons, _, hfeas, N1, hN1, N2, hN2, ns, hns, N3, hN3, h⟩ := h
  simp only [pure, Except.pure, Except.ok.injEq] at h
  subst h
  exact ⟨G1, N, N1, N2, N3, hvt, hargs, hG1, hN, hcons, hfeas, hN1, hN2, hns, hN3, rfl⟩

/-- `solve()` runs the pre-processing on the object with the arguments stored and formatted. -/
theorem startSolve_inv {dist : DistOracle} {strategy : String} {cspy : Bool} {R Q : List (List Node)} {P P' : Vrp}
    (h : P.startSolve dist strategy cspy R Q = .ok P') :
    ∃ P2 G1 N N1 N2 N3, PreSolved dist strategy cspy P2 P' G1 N N1 N2 N3 ∧
      P2.preassignments = (if Q ≠ [] then Q else P.preassignments) ∧
      P2.initialRoutes = (if R ≠ [] then R else P.initialRoutes) ∧ P2.useAllVehicles = P.useAllVehicles ∧
      P2.G.nodes = P.G.nodes ∧ P2.G.succ = P.G.succ ∧ P2.periodic = P.periodic ∧ P2.duration = P.duration ∧
      P2.timeWindows = P.timeWindows ∧ P2.pickupDelivery = P.pickupDelivery ∧
      P2.distributionCollection = P.distributionCollection ∧ P2.dropPenalty = P.dropPenalty ∧
      P2.mixedFleet = P.mixedFleet ∧ P2.moreRoutes = true := by
  unfold Vrp.startSolve at h
  simp only at h
  obtain ⟨G1, N, N1, N2, N3, S⟩ := preSolve_inv h
  refine ⟨_, G1, N, N1, N2, N3, S, ?_⟩
  split <;> exact ⟨rfl, rfl, rfl, rfl, rfl, rfl, rfl, rfl, rfl, rfl, rfl, rfl, rfl⟩

end Vrpy
