import Verif.Props.ResolveCases
import Verif.Props.CallersGraph

/-!
# Examples and counterexamples for C77
-/

namespace Vrpy

open Spec

/-- Problem `P` is solved, then problem `Q` is posed on the same graph: what it presents on the fresh and on the used graph. -/
def usedThen (w : World) (a b : SolveArgs) (fuel : Nat) (P Q : Vrp) : Option (Presented × Presented) :=
  match solvedOnce w a fuel P, Obj.create Q with
  | some (_, o1), .ok p =>
    match Obj.create { Q with G := o1.P.G } with
    | .error _ => none
    | .ok p' =>
      match presented w b fuel p, presented w b fuel p' with
      | some x, some y => some (x, y)
      | _, _ => none
  | _, _ => none

theorem usedThen_test {w : World} {a b : SolveArgs} {fuel : Nat} {P Q : Vrp} (t : Presented → Presented → Bool)
    (h : (usedThen w a b fuel P Q).map (fun q => t q.1 q.2) = some true) :
    ∃ o o1 p p' x y, Obj.create P = .ok o ∧ o.solve w a fuel = .ok (some o1) ∧ Obj.create Q = .ok p ∧
      Obj.create { Q with G := o1.P.G } = .ok p' ∧ Presents w b fuel p x ∧ Presents w b fuel p' y ∧ t x y = true := by
  unfold usedThen at h
  split at h
  · rename_i o o1 p hs hp
    obtain ⟨h1, h2⟩ := solvedOnce_ok hs
    split at h
    · cases h
    · rename_i p' hp'
      split at h
      · rename_i x y hx hy
        exact ⟨o, o1, p, p', x, y, h1, h2, hp, hp', presents_of hx, presents_of hy, by simpa using h⟩
      · cases h
  · cases h

/-- The example without fixed costs and with small vehicles: no vehicle can serve both customers. -/
def exLight : Vrp := { exAgain with loadCapacity := .one (.int 3) }

/-- The same with still smaller vehicles that must all be used. -/
def exLighter : Vrp := { exAgain with loadCapacity := .one (.int 2), useAllVehicles := true }

theorem exLight_spares : Spares exLighter exLight where
  costs := fun _ _ _ _ => ⟨_, Or.inl rfl⟩
  timeWindows := rfl
  fixedCost := Or.inl rfl
  useAll := rfl
  capacity := Or.inr (by decide +kernel)

/-- The hypotheses of C77 hold in a run of the example: the first problem removes the arc between the customers from the
caller's graph, and the second problem is what it would have been without the first. -/
example : ∃ o o1 p p' x y, Obj.create exLight = .ok o ∧ o.solve againWorld {} 10 = .ok (some o1) ∧
    Node.cust 2 ∈ o.P.G.succ (.cust 1) ∧ Node.cust 2 ∉ o1.P.G.succ (.cust 1) ∧
    Used (Spares exLighter) exLighter.G o1.P.G ∧ Obj.create exLighter = .ok p ∧
    Obj.create { exLighter with G := o1.P.G } = .ok p' ∧
    Presents againWorld {} 10 p x ∧ Presents againWorld {} 10 p' y ∧ x.cols ≠ [] ∧ y = x := by
  obtain ⟨o, o1, p, p', x, y, h1, h2, h3, h4, h5, h6, h7⟩ := usedThen_test (w := againWorld) (a := {}) (b := {}) (fuel := 10)
    (P := exLight) (Q := exLighter) (fun x _ => decide (x.cols ≠ [])) (by decide +kernel)
  obtain ⟨o', o1', k1, k2, k3⟩ := solvedOnce_test (w := againWorld) (a := {}) (fuel := 10) (P := exLight)
    (fun o o1 => decide (Node.cust 2 ∈ o.P.G.succ (.cust 1) ∧ Node.cust 2 ∉ o1.P.G.succ (.cust 1))) (by decide +kernel)
  have e1 : o' = o := Except.ok.inj (k1.symm.trans h1)
  subst e1
  have e2 : o1' = o1 := Option.some.inj (Except.ok.inj (k2.symm.trans h2))
  subst e2
  have hu : Used (Spares exLighter) exLighter.G o1'.P.G :=
    .step .fresh exLight_spares rfl h1 (.step _ _ _ (.refl _) rfl h2)
  have k3 := of_decide_eq_true k3
  exact ⟨o', o1', p, p', x, y, h1, h2, k3.1, k3.2, hu, h3, h4, h5, h6, of_decide_eq_true h7,
    C77_same_problem_partial (Q := exLighter) exPlan_capacitated.wf exPlan_capacitated.customer (fun _ _ _ _ => ⟨_, Or.inl rfl⟩) (Or.inl rfl) hu
      ⟨rfl, rfl⟩ h3 h4 h5 h6⟩

/-- **C77 fails after smaller vehicles**: a problem with capacity 3 removes the arc between two customers with demand 2 each
from the caller's graph.  For a second problem with capacity 5 the arc is missing. -/
theorem C77_capacity_counterexample : WorldOk againWorld ∧ ∃ o o1 p p' x y, Obj.create exLight = .ok o ∧
    o.solve againWorld {} 10 = .ok (some o1) ∧ Obj.create exAgain = .ok p ∧ Obj.create { exAgain with G := o1.P.G } = .ok p' ∧
    Presents againWorld {} 10 p x ∧ Presents againWorld {} 10 p' y ∧
    Node.cust 2 ∈ x.cfg.M.G.succ (.cust 1) ∧ Node.cust 2 ∉ y.cfg.M.G.succ (.cust 1) := by
  obtain ⟨o, o1, p, p', x, y, h1, h2, h3, h4, h5, h6, h7⟩ := usedThen_test (w := againWorld) (a := {}) (b := {}) (fuel := 10)
    (P := exLight) (Q := exAgain)
    (fun x y => decide (Node.cust 2 ∈ x.cfg.M.G.succ (.cust 1) ∧ Node.cust 2 ∉ y.cfg.M.G.succ (.cust 1))) (by decide +kernel)
  exact ⟨againWorld_ok, o, o1, p, p', x, y, h1, h2, h3, h4, h5, h6, of_decide_eq_true h7⟩

/-- **C77 fails after fixed costs**: they stay in the caller's graph.  The second problem has none, yet pays 13 instead of 10
for the way to the first customer. -/
theorem C77_fixed_costs_counterexample : WorldOk againWorld ∧ ∃ o o1 p p' x y, Obj.create exPlan = .ok o ∧
    o.solve againWorld {} 10 = .ok (some o1) ∧ Obj.create exAgain = .ok p ∧ Obj.create { exAgain with G := o1.P.G } = .ok p' ∧
    Presents againWorld {} 10 p x ∧ Presents againWorld {} 10 p' y ∧
    x.cfg.M.G.cost .source (.cust 1) = [10] ∧ y.cfg.M.G.cost .source (.cust 1) = [13] := by
  obtain ⟨o, o1, p, p', x, y, h1, h2, h3, h4, h5, h6, h7⟩ := usedThen_test (w := againWorld) (a := {}) (b := {}) (fuel := 10)
    (P := exPlan) (Q := exAgain)
    (fun x y => decide (x.cfg.M.G.cost .source (.cust 1) = [10] ∧ y.cfg.M.G.cost .source (.cust 1) = [13])) (by decide +kernel)
  exact ⟨againWorld_ok, o, o1, p, p', x, y, h1, h2, h3, h4, h5, h6, of_decide_eq_true h7⟩

/-- **C77 fails for fixed costs**: the first problem, without fixed costs, adds an arc from Source to Sink to the caller's
graph; in the second problem a vehicle that stays at the depot pays the fixed cost 3, on a fresh graph it pays nothing. -/
theorem C77_empty_route_counterexample : WorldOk againWorld ∧ ∃ o o1 p p' x y, Obj.create exAgain = .ok o ∧
    o.solve againWorld {} 10 = .ok (some o1) ∧ Obj.create exPlan = .ok p ∧ Obj.create { exPlan with G := o1.P.G } = .ok p' ∧
    Presents againWorld {} 10 p x ∧ Presents againWorld {} 10 p' y ∧
    x.cfg.M.G.cost .source .sink = [0] ∧ y.cfg.M.G.cost .source .sink = [3] := by
  obtain ⟨o, o1, p, p', x, y, h1, h2, h3, h4, h5, h6, h7⟩ := usedThen_test (w := againWorld) (a := {}) (b := {}) (fuel := 10)
    (P := exAgain) (Q := exPlan)
    (fun x y => decide (x.cfg.M.G.cost .source .sink = [0] ∧ y.cfg.M.G.cost .source .sink = [3])) (by decide +kernel)
  exact ⟨againWorld_ok, o, o1, p, p', x, y, h1, h2, h3, h4, h5, h6, of_decide_eq_true h7⟩

/-- **C77 fails after preassigned routes**: their customers are removed from the caller's graph, so the second problem does
not serve them. -/
theorem C77_preassigned_counterexample : WorldOk againWorld ∧ ∃ o o1 p p' x y, Obj.create exAgain = .ok o ∧
    o.solve againWorld { preassignments := [[.source, .cust 1, Node.sink]] } 10 = .ok (some o1) ∧
    Obj.create exAgain = .ok p ∧ Obj.create { exAgain with G := o1.P.G } = .ok p' ∧
    Presents againWorld {} 10 p x ∧ Presents againWorld {} 10 p' y ∧
    Node.cust 1 ∈ x.cfg.M.G.nodes ∧ Node.cust 1 ∉ y.cfg.M.G.nodes := by
  obtain ⟨o, o1, p, p', x, y, h1, h2, h3, h4, h5, h6, h7⟩ := usedThen_test (w := againWorld)
    (a := { preassignments := [[.source, .cust 1, Node.sink]] }) (b := {}) (fuel := 10) (P := exAgain) (Q := exAgain)
    (fun x y => decide (Node.cust 1 ∈ x.cfg.M.G.nodes ∧ Node.cust 1 ∉ y.cfg.M.G.nodes)) (by decide +kernel)
  exact ⟨againWorld_ok, o, o1, p, p', x, y, h1, h2, h3, h4, h5, h6, of_decide_eq_true h7⟩

/-- **C77 fails after `use_all_vehicles`**: the price of 10000000000 for staying at the depot is left in the caller's graph. -/
theorem C77_use_all_counterexample : WorldOk againWorld ∧ ∃ o o1 p p' x y,
    Obj.create { exLight with useAllVehicles := true } = .ok o ∧
    o.solve againWorld {} 10 = .ok (some o1) ∧ Obj.create exLight = .ok p ∧ Obj.create { exLight with G := o1.P.G } = .ok p' ∧
    Presents againWorld {} 10 p x ∧ Presents againWorld {} 10 p' y ∧
    x.cfg.M.G.cost .source .sink = [0] ∧ y.cfg.M.G.cost .source .sink = [10000000000] := by
  obtain ⟨o, o1, p, p', x, y, h1, h2, h3, h4, h5, h6, h7⟩ := usedThen_test (w := againWorld) (a := {}) (b := {}) (fuel := 10)
    (P := { exLight with useAllVehicles := true }) (Q := exLight)
    (fun x y => decide (x.cfg.M.G.cost .source .sink = [0] ∧ y.cfg.M.G.cost .source .sink = [10000000000]))
    (by decide +kernel)
  exact ⟨againWorld_ok, o, o1, p, p', x, y, h1, h2, h3, h4, h5, h6, of_decide_eq_true h7⟩

/-- Customer 2 closes at 8, driving takes 5. -/
def exEarly : Vrp where
  G := {
    nodes := [.source, .cust 1, .cust 2, .sink]
    nd := fun v => if v = .cust 2 then { upper := some 8 } else { upper := some 100 }
    succ := fun u => match u with
      | .source => [.cust 1, .cust 2]
      | .cust 1 => [.cust 2, .sink]
      | .cust 2 => [.cust 1, .sink]
      | _ => []
    ed := fun _ _ => { cost := some (.scalar 1), time := some 5 } }
  timeWindows := true

/-- **C77 fails after time windows**: the first problem removes the arc from customer 1 to customer 2, who closes too early.
In the second problem, which does not look at time windows, the arc is missing. -/
theorem C77_time_windows_counterexample : WorldOk againWorld ∧ ∃ o o1 p p' x y, Obj.create exEarly = .ok o ∧
    o.solve againWorld {} 10 = .ok (some o1) ∧ Obj.create { exEarly with timeWindows := false } = .ok p ∧
    Obj.create { exEarly with timeWindows := false, G := o1.P.G } = .ok p' ∧
    Presents againWorld {} 10 p x ∧ Presents againWorld {} 10 p' y ∧
    Node.cust 2 ∈ x.cfg.M.G.succ (.cust 1) ∧ Node.cust 2 ∉ y.cfg.M.G.succ (.cust 1) := by
  obtain ⟨o, o1, p, p', x, y, h1, h2, h3, h4, h5, h6, h7⟩ := usedThen_test (w := againWorld) (a := {}) (b := {}) (fuel := 10)
    (P := exEarly) (Q := { exEarly with timeWindows := false })
    (fun x y => decide (Node.cust 2 ∈ x.cfg.M.G.succ (.cust 1) ∧ Node.cust 2 ∉ y.cfg.M.G.succ (.cust 1))) (by decide +kernel)
  exact ⟨againWorld_ok, o, o1, p, p', x, y, h1, h2, h3, h4, h5, h6, of_decide_eq_true h7⟩

end Vrpy
