import Verif.Proofs.CallersGraph

/-!
# C77: several problems on one graph

`VehicleRoutingProblem` keeps the graph it is given, not a copy (`vrpy/vrp.py:99`), and changes it in place.  In the model
the caller's graph after a call is therefore the graph of the object.
-/

namespace Vrpy

open Spec

/-- The caller builds objects on one graph, one after another, for problems in `A`, and calls `solve()` on each as often as
they like.  `Used A G X`: the graph was `G` and is `X` now. -/
inductive Spec.Used (A : Vrp → Prop) (G : DiGraph) : DiGraph → Prop
  | fresh : Used A G G
  | step {X : DiGraph} {P : Vrp} {o o' : Obj} : Used A G X → A P → P.G = X → Obj.create P = .ok o →
      Calls (fun a => a.preassignments = []) o o' → Used A G o'.P.G

/-- Problems that spare the graph for problem `Q`: no time windows, no fixed costs, not all vehicles must be used, and the
largest vehicle is at least as large as that of `Q`. -/
structure Spec.Spares (Q P : Vrp) : Prop where
  costs : CostsAsDocumented { P with G := Q.G }
  timeWindows : P.timeWindows = false
  fixedCost : P.fixedCost = .one 0 ∨ P.fixedCost = .many []
  useAll : P.useAllVehicles = false
  capacity : userCapacities P.loadCapacity = [] ∨
    userCapacities Q.loadCapacity ≠ [] ∧
      ∀ c ∈ userCapacities Q.loadCapacity, ∃ c' ∈ userCapacities P.loadCapacity, c ≤ c'

theorem completed_of {G G' : DiGraph} (hwf : G.WF) (hcust : ∃ n, Node.cust n ∈ G.nodes) (h : checkVrp G = .ok G') :
    Completed G' := by
  obtain ⟨g1, g2, g3, g4, g5, g6, g7, g8, _⟩ := C01_constructor_completes _ _ hwf h
  exact ⟨g1, g2, g3, g4, g5, g6, by rw [g8]; exact hcust, g7⟩

theorem Completed.again {G : DiGraph} (h : Completed G) : checkVrp G = .ok G :=
  checkVrp_complete h.wf h.source h.sink h.noIn h.noOut h.depots h.customer h.costs

/-- Any number of calls on an object for a plain problem leave the graph settled. -/
theorem settled_calls {o o' : Obj} {G : DiGraph} {caps : List ℚ} (hG : Completed G) (hP : Plain caps o.P)
    (hs : (o.P.G = G ∧ CostsAsDocumented o.P) ∨ ∃ K B keep, Settled G caps K B keep o.P.G)
    (hcalls : Calls (fun a => a.preassignments = []) o o') :
    Plain caps o'.P ∧ ((o'.P.G = G ∧ CostsAsDocumented o'.P) ∨ ∃ K B keep, Settled G caps K B keep o'.P.G) := by
  induction hcalls with
  | refl => exact ⟨hP, hs⟩
  | step w a fuel _ ha hsolve ih =>
    obtain ⟨i1, i2⟩ := ih
    obtain ⟨P, hst, hP', _⟩ := solve_object hsolve
    rw [ha] at hst
    have k1 := plain_after i1 hst
    rw [hP']
    refine ⟨⟨k1.timeWindows, k1.fixedCost, k1.useAll, k1.preassignments, k1.capacity⟩, Or.inr ?_⟩
    rcases i2 with ⟨rfl, hdoc⟩ | ⟨K, B, keep, S⟩
    · obtain ⟨K, B, keep, S⟩ := settled_first hG hdoc i1 hst
      exact ⟨K, B, keep, S⟩
    · obtain ⟨keep', S'⟩ := settled_next hG S i1 hst
      exact ⟨K, B, keep', S'⟩

/-- What the constructor makes of a used graph. -/
theorem settled_used {Q : Vrp} {G X : DiGraph} (hwf : Q.G.WF) (hcust : ∃ n, Node.cust n ∈ Q.G.nodes)
    (hG : checkVrp Q.G = .ok G) (hu : Used (Spares Q) Q.G X) :
    ∃ Y, checkVrp X = .ok Y ∧ (Y = G ∨ ∃ K B keep, Settled G (userCapacities Q.loadCapacity) K B keep Y) := by
  have hC := completed_of hwf hcust hG
  induction hu with
  | fresh => exact ⟨G, hG, Or.inl rfl⟩
  | @step X P _ _ _ hA hPX hcr hcalls ih =>
    obtain ⟨Y, hY, hset⟩ := ih
    obtain ⟨Y', hY', rfl⟩ := create_ok hcr
    rw [hPX, hY] at hY'
    cases hY'
    have := settled_calls (caps := userCapacities Q.loadCapacity) hC
      ⟨hA.timeWindows, hA.fixedCost, hA.useAll, rfl, hA.capacity⟩
      (by
        rcases hset with rfl | hset
        · refine Or.inl ⟨rfl, fun hm => ?_⟩
          exact documented_create (P := { P with G := Q.G }) hwf hG hA.costs hm
        · exact Or.inr hset) hcalls
    rcases this.2 with ⟨h, _⟩ | ⟨K, B, keep, S⟩
    · exact ⟨G, by rw [h]; exact hC.again, Or.inl rfl⟩
    · exact ⟨_, (S.completed hC).again, Or.inr ⟨K, B, keep, S⟩⟩

/-- **C77 (partial).**  Full claim: a graph can be used for one problem after another, each of them is solved as if the
graph were fresh.  That is false, see the counterexamples.  Proved: if all problems before this one spare the graph, and
this one has no fixed costs, then what it presents to column generation (network, costs, limits, fleet, options, first
columns) is what it would present on a fresh graph.  Time windows, preassigned routes, a bounded fleet, periods and
`use_all_vehicles` are allowed in this last problem. -/
theorem C77_same_problem_partial {w w' : World} {a : SolveArgs} {fuel : Nat} {Q : Vrp} {X : DiGraph} {o o' : Obj}
    {x x' : Presented} (hwf : Q.G.WF) (hcust : ∃ n, Node.cust n ∈ Q.G.nodes) (hdoc : CostsAsDocumented Q)
    (hf : Q.fixedCost = .one 0 ∨ Q.fixedCost = .many []) (hu : Used (Spares Q) Q.G X)
    (hw : w'.cw = w.cw ∧ w'.falsy = w.falsy)
    (hc : Obj.create Q = .ok o) (hc' : Obj.create { Q with G := X } = .ok o')
    (h : Presents w a fuel o x) (h' : Presents w' a fuel o' x') : x' = x := by
  obtain ⟨G, hG, rfl⟩ := create_ok hc
  obtain ⟨Y, hY, rfl⟩ := create_ok hc'
  have hC := completed_of hwf hcust hG
  obtain ⟨Y', hY', hset⟩ := settled_used hwf hcust hG hu
  have hYY : Y' = Y := Except.ok.inj (hY'.symm.trans hY)
  subst hYY
  obtain ⟨cfg, cols, sch⟩ := x
  obtain ⟨cfg', cols', sch'⟩ := x'
  obtain ⟨P1, P1', hP1, hi1, rfl, rfl⟩ := h
  obtain ⟨P2, P2', hP2, hi2, rfl, rfl⟩ := h'
  simp only at hi1 hi2 hP1 hP2
  have key : ∃ H, P2 = { P1 with H := H } := by
    rcases hset with rfl | ⟨K, B, keep, S⟩
    · have hd := startSolve_det hP1 hP2
      obtain ⟨_, _, _, _, _, T⟩ := startSolve_prepared hP2
      obtain ⟨_, _, _, _, _, U⟩ := startSolve_prepared hP1
      have e : P2.initialRoutes = P1.initialRoutes := by
        rw [T.result, U.result]
      rw [e] at hd
      exact ⟨_, hd⟩
    · exact ⟨_, settled_same (P := { Q with
        G := G
        numVehiclesSchedule := []
        vehicleTypes := none
        initialRoutes := []
        preassignments := []
        moreRoutes := false
        H := none }) hC (fun hm => documented_create hwf hG hdoc hm) hf S hP1 hP2⟩
  obtain ⟨H, rfl⟩ := key
  rw [hw.1] at hi2
  have hch : ({ P1 with H := H } : Vrp).initialize P1.G.toNet w.cw fuel =
      (match P1.initialize P1.G.toNet w.cw fuel with
        | .error e => .error e
        | .ok none => .ok none
        | .ok (some (R, cs)) => .ok (some ({ R with H := H }, cs))) := by
    unfold Vrp.initialize
    have : ({ P1 with H := H } : Vrp).chooseInitial P1.G.toNet w.cw fuel = P1.chooseInitial P1.G.toNet w.cw fuel := rfl
    rw [this]
    cases P1.chooseInitial P1.G.toNet w.cw fuel with
    | error e => rfl
    | ok z =>
      cases z with
      | none => rfl
      | some rs =>
        simp only
        cases convertRoutes P1.G.toNet (capacities P1.loadCapacity.toList) rs with
        | error e => rfl
        | ok cs => rfl
  rw [hch, hi1] at hi2
  simp only [Except.ok.injEq, Option.some.injEq, Prod.mk.injEq] at hi2
  obtain ⟨rfl, rfl⟩ := hi2
  rw [hw.2]
  rfl

/-- **C77 (partial), the constructor.**  Such a graph is always accepted by the constructor, which then changes nothing. -/
theorem C77_accepted_partial {Q : Vrp} {X : DiGraph} {o : Obj} (hwf : Q.G.WF) (hcust : ∃ n, Node.cust n ∈ Q.G.nodes)
    (hc : Obj.create Q = .ok o) (hu : Used (Spares Q) Q.G X) (hX : X ≠ Q.G) :
    ∃ o', Obj.create { Q with G := X } = .ok o' ∧ o'.P.G = X := by
  obtain ⟨G, hG, rfl⟩ := create_ok hc
  have hC := completed_of hwf hcust hG
  have hXX : checkVrp X = .ok X := by
    cases hu with
    | fresh => exact absurd rfl hX
    | @step X P _ _ hu hA hPX hcr hcalls =>
      obtain ⟨Y, hY, hset⟩ := settled_used hwf hcust hG hu
      obtain ⟨Y', hY', rfl⟩ := create_ok hcr
      rw [hPX, hY] at hY'
      cases hY'
      have := settled_calls (caps := userCapacities Q.loadCapacity) hC
        ⟨hA.timeWindows, hA.fixedCost, hA.useAll, rfl, hA.capacity⟩
        (by
          rcases hset with rfl | hset
          · refine Or.inl ⟨rfl, fun hm => ?_⟩
            exact documented_create (P := { P with G := Q.G }) hwf hG hA.costs hm
          · exact Or.inr hset) hcalls
      rcases this.2 with ⟨h, _⟩ | ⟨K, B, keep, S⟩
      · rw [h]; exact hC.again
      · exact (S.completed hC).again
  refine ⟨_, by unfold Obj.create; simp only [hXX]; rfl, rfl⟩

end Vrpy
