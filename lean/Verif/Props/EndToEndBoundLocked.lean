import Verif.Props.EndToEndBoundCspy
import Verif.Props.EndToEndLocked

/-!
# C70 with preassigned routes

The customers of complete preassigned routes are taken out of the graph, and arcs of other preassigned routes are free.  So
the last lower bound is one for what the other customers cost.
-/

namespace Vrpy

open Spec

theorem without_deliveries {P : Vrp} {L : List Node} (h : Deliveries P) (hfree : ∃ n, Node.cust n ∈ P.G.nodes ∧ Node.cust n ∉ L)
    (ht : P.timeWindows = true → TimesMakeSense (withoutNodes P L)) : Deliveries (withoutNodes P L) where
  wf := without_wf h.wf
  customer := by
    obtain ⟨n, h1, h2⟩ := hfree
    exact ⟨n, without_nodes.2 ⟨h1, h2⟩⟩
  costs := without_costs h.costs
  demand := fun v hv => h.demand v (without_nodes.1 hv).1
  service := h.service
  collect := fun hdc v hv => h.collect hdc v (without_nodes.1 hv).1
  times := ht
  pickupDelivery := h.pickupDelivery
  periodic := h.periodic

/-- What is known about the network of the reports holds for the one without the customers of complete preassigned routes. -/
theorem reported_without {P0 P' : Vrp} {Q : List (List Node)} {K : Nat} {N N3 : Net} (R : Reported P0 P' Q K N)
    (S : Searched (withoutNodes P0 (lockedNodes Q))
        { P' with
          H := some (N.removeNodes (lockedNodes Q))
          preassignments := []
          moreRoutes := true } K (N.removeNodes (lockedNodes Q)) N3) :
    Reported (withoutNodes P0 (lockedNodes Q))
      { P' with
        H := some (N.removeNodes (lockedNodes Q))
        preassignments := []
        moreRoutes := true } [] K (N.removeNodes (lockedNodes Q)) where
  types := S.types
  typesPos := S.typesPos
  reports := rfl
  preassigned := rfl
  more := fun _ => rfl
  done := fun _ h => absurd rfl h
  wf := S.wf
  userNodes := S.userNodes
  costs := S.costs
  userArcs := S.userArcs
  arcs := by
    intro u v hu hv huv
    obtain ⟨hu1, hu2⟩ := without_nodes.1 hu
    obtain ⟨hv1, hv2⟩ := without_nodes.1 hv
    refine mem_removeNodes_succ.2 ⟨R.arcs u v hu1 hv1 ?_, hu2, hv2⟩
    exact huv.imp (fun h => (mem_removeNodes_user.1 h).1) id
  arcCost := S.arcCost
  demandDepots := S.demandDepots
  demand := S.demand
  caps := S.caps
  along := by simp
  depots := by simp [lockedNodes]

/-- Arcs of preassigned routes that are not complete are free in the graph that is searched, the others cost what they cost in
the network of the reports. -/
theorem searched_costs_locked {w : World} {a : SolveArgs} {P0 P' : Vrp} {o : Obj} {K : Nat} {N N3 : Net}
    (hc : Obj.create P0 = .ok o)
    (h : o.P.startSolve w.dist a.strategy a.cspy a.initialRoutes a.preassignments = .ok P')
    (hH : P'.H = some N) (hG : P'.G = N3.toDiGraph) (k : Nat) (u v : Node) (huv : ¬ (u = .source ∧ v = .sink)) :
    (N3.cost u v).getD k 0 = (N.cost u v).getD k 0 ∨ (N3.cost u v).getD k 0 = 0 := by
  obtain ⟨G, _, rfl⟩ := create_ok hc
  obtain ⟨G1, N', N1, N2, N3', T⟩ := startSolve_prepared h
  have hlock := T.locked
  obtain ⟨⟨c, hN1, hcost⟩, _⟩ := lockStep_eq hlock
  have hN : N' = N := by
    rw [T.result] at hH
    simpa using hH
  have hN3 : N3' = N3 := by
    rw [T.result] at hG
    have h2 : N3'.toDiGraph.toNet = N3.toDiGraph.toNet := congrArg DiGraph.toNet hG
    exact h2
  obtain ⟨_, _, _, _, _, hlast⟩ := emptyRouteStep_same T.emptyRoute
  rw [← hN3, hlast u v huv, (pruneStep_same T.pruned).cost_eq, hN1, ← hN]
  exact hcost u v k

theorem withoutNodes_congr {P : Vrp} {L L' : List Node} (h : ∀ v, v ∈ L ↔ v ∈ L') : withoutNodes P L = withoutNodes P L' := by
  simp only [withoutNodes, DiGraph.removeNodes, h]

theorem userCosts_without {P : Vrp} {L : List Node} {K : Nat} {F : Nat → List Node → Prop} {S : Solution} (hs : Node.source ∉ L)
    (ht : Node.sink ∉ L)
    (h : ∀ i r, (i, r) ∈ S.routes → ∃ mid, r = routeOf mid ∧ mid.Nodup ∧
      (∀ v ∈ mid, (∃ n, v = .cust n) ∧ v ∈ (withoutNodes P L).G.nodes) ∧ Along (UserArc (withoutNodes P L).G) r ∧
      ∃ k < K, dget S.types i = some k ∧ F k r) : userCosts (withoutNodes P L) S = userCosts P S := by
  unfold userCosts
  refine List.map_congr_left ?_
  rintro ⟨i, r⟩ hr
  obtain ⟨mid, rfl, _, hmid, _⟩ := h i r hr
  have hm := routeOf_not_mem hs ht (fun v hv => (without_nodes.1 (hmid v hv).2).2)
  exact legSum_congr (fun u v huv => userArcCost_without (hm u (fst_mem_of_consecutive huv)) (hm v (snd_mem_of_consecutive huv)))

/-- The end of column generation with a fixed strategy in a first `solve()` with preassigned routes: it is a run for the customers that
are not on complete ones (`L`). -/
theorem generation_locked {w : World} {a : SolveArgs} {fuel : Nat} {P0 : Vrp} {o o' : Obj} {L : List Node} (hwf : P0.G.WF)
    (hcust : ∃ n, Node.cust n ∈ P0.G.nodes) (hdoc : CostsAsDocumented P0)
    (hdem : ∀ v ∈ P0.G.nodes, P0.pickupDelivery = false ∨ v = .source ∨ v = .sink → 0 ≤ userDemand P0.G v)
    (hD : NonnegativeData P0)
    (hL : ∀ v, v ∈ L ↔ (∃ n, v = .cust n) ∧ ∃ r ∈ a.preassignments, Complete r ∧ v ∈ r)
    (hfree : ∃ n, Node.cust n ∈ P0.G.nodes ∧ Node.cust n ∉ L)
    (hheur : a.heuristicOnly = false) (hstrat : a.strategy ≠ "Hyper") (hc : Obj.create P0 = .ok o)
    (h : o.solve w a fuel = .ok (some o')) (hno : Spec.NotStagnant a o')
    (hiter : a.maxIter = 0 ∨ o'.iteration < a.maxIter) :
    ∃ P' P2 rs cols K N N3 m stc, o.P.startSolve w.dist a.strategy a.cspy a.initialRoutes a.preassignments = .ok P' ∧
      P2 = { P' with H := some N, preassignments := [], moreRoutes := true } ∧
      P'.initialize P'.G.toNet w.cw fuel = .ok (some ({ P' with initialRoutes := rs }, cols)) ∧
      Searched (withoutNodes P0 L) P2 K N N3 ∧ Reported (withoutNodes P0 L) P2 [] K N ∧ UserData (withoutNodes P0 L) P2 N ∧
      o.start a ({ P2 with initialRoutes := rs } : Vrp) cols = o.start a ({ P' with initialRoutes := rs } : Vrp) cols ∧
      Solve.Numbered cols ∧ PricingMode.ofName a.strategy = .fixed m ∧
      Solve.columnGeneration (({ P2 with initialRoutes := rs } : Vrp).solveCfg a w.falsy) w.toEnv false fuel
        (o.start a ({ P2 with initialRoutes := rs } : Vrp) cols) = .ok (some stc) ∧
      Solve.limitReached (({ P2 with initialRoutes := rs } : Vrp).solveCfg a w.falsy) stc = false ∧
      o'.P.vehicleTypes = some K ∧ o'.bounds = stc.bounds ∧ P'.vehicleTypes = some K ∧
      ∀ k < K, ∀ u v, v ∈ N.succ u → ¬ (u = .source ∧ v = .sink) → (N3.cost u v).getD k 0 ≤ (N.cost u v).getD k 0 := by
  unfold Obj.solve at h
  split at h
  · cases h
  rename_i P' hstart
  rw [hheur] at h
  simp only [Bool.false_eq_true, if_false] at h
  obtain ⟨K, N, N3, R, S⟩ := searched_locked (w := w) hwf hcust hdoc hdem hc hstart
  have U := userData_locked (w := w) hwf (fun hf v hv => hdem v hv (Or.inl hf)) hc hstart R.reports
  have hmem : ∀ v, v ∈ L ↔ v ∈ lockedNodes a.preassignments := by
    intro v
    rw [hL]
    cases v with
    | source => simp [R.depots.1]
    | sink => simp [R.depots.2]
    | cust n =>
      rw [mem_lockedNodes]
      simp
  have hrest := withoutNodes_congr (P := P0) hmem
  rw [hrest]
  have hfree' : ∃ n, Node.cust n ∈ P0.G.nodes ∧ Node.cust n ∉ lockedNodes a.preassignments := by
    obtain ⟨n, h1, h2⟩ := hfree
    exact ⟨n, h1, fun hx => h2 ((hmem _).2 hx)⟩
  have hD' := without_nonnegative hwf R.depots.1 R.depots.2 hD
  have R' := reported_without R S
  obtain ⟨rs, cols, m, stc, h1, hnum, hm, hcg, hlim, hvt, hbs⟩ := generation_of_run hstrat hc h hno hiter
  have hst : o.start a { P' with H := some (N.removeNodes (lockedNodes a.preassignments)), preassignments := [], moreRoutes := true, initialRoutes := rs } cols =
      o.start a { P' with initialRoutes := rs } cols := by
    simp only [Obj.start, R.more hfree']
  rw [← hst] at hcg
  have hsame : ∀ k < K, ∀ u v, v ∈ (N.removeNodes (lockedNodes a.preassignments)).succ u → ¬ (u = .source ∧ v = .sink) →
      (N3.cost u v).getD k 0 ≤ ((N.removeNodes (lockedNodes a.preassignments)).cost u v).getD k 0 := by
    intro k hk u v hv huv
    rcases searched_costs_locked (K := K) (w := w) hc hstart R.reports S.graph k u v huv with he | he
    · exact le_of_eq he
    · rw [he, S.arcCost u v hv k hk]
      exact hD'.cost k u v (S.userArcs u v hv)
  exact ⟨P', _, rs, cols, K, _, N3, m, stc, hstart, rfl, h1, S, R', U, hst, hnum, hm, hcg, hlim, hvt.trans R.types, hbs, R.types, hsame⟩

/-- The lower bound beside preassigned routes, if column generation (`hgen`) ends with one. -/
theorem bound_locked_for {w : World} {a : SolveArgs} {fuel : Nat} {P0 : Vrp} {o o' : Obj} {L : List Node}
    {F : Nat → List Node → Prop} {A : Vrp → Net → Nat → List Node → Prop} (hwf : P0.G.WF)
    (hcust : ∃ n, Node.cust n ∈ P0.G.nodes) (hdoc : CostsAsDocumented P0)
    (hdem : ∀ v ∈ P0.G.nodes, P0.pickupDelivery = false ∨ v = .source ∨ v = .sink → 0 ≤ userDemand P0.G v)
    (hsimple : ∀ P' N3 k r, A P' N3 k r → IsSimpleRoute N3 r)
    (hadm : ∀ P' K N N3, Searched (withoutNodes P0 L) P' K N N3 → Reported (withoutNodes P0 L) P' [] K N →
      UserData (withoutNodes P0 L) P' N → ∀ k < K, ∀ mid,
      (∀ v ∈ mid, (∃ n, v = .cust n) ∧ v ∈ (withoutNodes P0 L).G.nodes) → mid.Nodup → mid ≠ [] →
      Along (UserArc (withoutNodes P0 L).G) (routeOf mid) → F k (routeOf mid) → A P' N3 k (routeOf mid))
    (hD : NonnegativeData P0)
    (hL : ∀ v, v ∈ L ↔ (∃ n, v = .cust n) ∧ ∃ r ∈ a.preassignments, Complete r ∧ v ∈ r)
    (hfree : ∃ n, Node.cust n ∈ P0.G.nodes ∧ Node.cust n ∉ L)
    (hpen : 0 ≤ P0.dropPenalty) (hheur : a.heuristicOnly = false) (hstrat : a.strategy ≠ "Hyper")
    (hc : Obj.create P0 = .ok o)
    (hgen : ∀ P' P2 rs cols K N N3 m stc, o.P.startSolve w.dist a.strategy a.cspy a.initialRoutes a.preassignments = .ok P' →
      P2 = { P' with H := some N, preassignments := [], moreRoutes := true } →
      P'.initialize P'.G.toNet w.cw fuel = .ok (some ({ P' with initialRoutes := rs }, cols)) →
      Searched (withoutNodes P0 L) P2 K N N3 → UserData (withoutNodes P0 L) P2 N →
      o.start a ({ P2 with initialRoutes := rs } : Vrp) cols = o.start a ({ P' with initialRoutes := rs } : Vrp) cols →
      Solve.Numbered cols → PricingMode.ofName a.strategy = .fixed m →
      Solve.columnGeneration (({ P2 with initialRoutes := rs } : Vrp).solveCfg a w.falsy) w.toEnv false fuel
        (o.start a ({ P2 with initialRoutes := rs } : Vrp) cols) = .ok (some stc) →
      Solve.limitReached (({ P2 with initialRoutes := rs } : Vrp).solveCfg a w.falsy) stc = false →
      ∃ bound, stc.bounds.getLast? = some bound ∧
        ∀ (P : Plan) (dropped : List Node), ValidPlan N3 (userFleet P0.numVehicles) P0.useAllVehicles dropped P →
          (∀ v ∈ dropped, v ∈ ({ P2 with initialRoutes := rs } : Vrp).master.drops) → (∀ e ∈ P, e.1 < K) →
          (∀ e ∈ P, A P2 N3 e.1 e.2) →
          bound ≤ planCost N3 P + P0.dropPenalty * (N3.customers.filter (fun v => v ∈ dropped)).length + 1 / 1000 * P.length)
    (h : o.solve w a fuel = .ok (some o')) (hno : Spec.NotStagnant a o')
    (hiter : a.maxIter = 0 ∨ o'.iteration < a.maxIter) :
    ∃ K bound, o'.P.vehicleTypes = some K ∧ o'.bounds.getLast? = some bound ∧ ∀ S, PlanFor (withoutNodes P0 L) K F S →
      (P0.useAllVehicles = true → ∀ p ∈ S.routes, stops p.2 ≠ []) →
      bound ≤ (userCosts P0 S).sum + P0.dropPenalty * S.dropped.length + 1 / 1000 * S.routes.length := by
  have hsL : Node.source ∉ L := fun hs => by obtain ⟨⟨n, h⟩, _⟩ := (hL _).1 hs; cases h
  have htL : Node.sink ∉ L := fun hs => by obtain ⟨⟨n, h⟩, _⟩ := (hL _).1 hs; cases h
  have hD' := without_nonnegative hwf hsL htL hD
  obtain ⟨P', P2, rs, cols, K, N, N3, m, stc, hstart, hP2, h1, S, R', U, hst, hnum, hm, hcg, hlim, hvt, hbs, htypes, hsame⟩ :=
    generation_locked hwf hcust hdoc hdem hD hL hfree hheur hstrat hc h hno hiter
  have hfl := fleet_types (w := w) (P0 := P0) hc hstart htypes
  obtain ⟨bound, hb, hbound⟩ := hgen P' P2 rs cols K N N3 m stc hstart hP2 h1 S U hst hnum hm hcg hlim
  refine ⟨K, bound, hvt, by rw [hbs]; exact hb, ?_⟩
  intro Sol hSol hused
  obtain ⟨p1, p2, p3, p4, p5, p6, p7⟩ := searched_plan_of S (hsimple P2 N3) (hadm P2 K N N3 S R' U)
    hsame hD'.stay hfl hSol hused
  have hN3 : P2.G.toNet = N3 := by rw [S.graph]; rfl
  obtain ⟨f1, f2, f3, f4, f5, f6, f7, f8, f9, f10, f11⟩ := S.fields
  have := hbound (routesWithCustomers Sol) Sol.dropped p1
    (by
      intro v hv
      show v ∈ ({ P2 with initialRoutes := rs } : Vrp).master.drops
      unfold Master.drops
      rw [show ({ P2 with initialRoutes := rs } : Vrp).master.dropPenalty = P0.dropPenalty from f5,
        show ({ P2 with initialRoutes := rs } : Vrp).master.G = N3 from hN3]
      by_cases h0 : P0.dropPenalty = 0
      · rw [hSol.penalty h0] at hv
        cases hv
      · simp only [h0, if_false]
        exact p6 v hv)
    p2 p3
  have q1 : P0.dropPenalty * ((N3.customers.filter (fun v => v ∈ Sol.dropped)).length : ℚ) ≤
      P0.dropPenalty * (Sol.dropped.length : ℚ) := mul_le_mul_of_nonneg_left (by exact_mod_cast p7) hpen
  have q2 : ((routesWithCustomers Sol).length : ℚ) ≤ Sol.routes.length := by exact_mod_cast p5
  rw [userCosts_without hsL htL hSol.routes] at p4
  linarith

/-- The same for deliveries. -/
theorem bound_locked {w : World} {a : SolveArgs} {fuel : Nat} {P0 : Vrp} {o o' : Obj} {L : List Node}
    (hP : Deliveries P0) (hD : NonnegativeData P0)
    (hL : ∀ v, v ∈ L ↔ (∃ n, v = .cust n) ∧ ∃ r ∈ a.preassignments, Complete r ∧ v ∈ r)
    (hfree : ∃ n, Node.cust n ∈ P0.G.nodes ∧ Node.cust n ∉ L)
    (htimes : P0.timeWindows = true → TimesMakeSense (withoutNodes P0 L))
    (hpen : 0 ≤ P0.dropPenalty) (hheur : a.heuristicOnly = false) (hstrat : a.strategy ≠ "Hyper")
    (hc : Obj.create P0 = .ok o)
    (hgen : ∀ P' P2 rs cols K N N3 m stc, o.P.startSolve w.dist a.strategy a.cspy a.initialRoutes a.preassignments = .ok P' →
      P2 = { P' with H := some N, preassignments := [], moreRoutes := true } →
      P'.initialize P'.G.toNet w.cw fuel = .ok (some ({ P' with initialRoutes := rs }, cols)) →
      Deliveries (withoutNodes P0 L) → NonnegativeData (withoutNodes P0 L) →
      Searched (withoutNodes P0 L) P2 K N N3 → UserData (withoutNodes P0 L) P2 N →
      o.start a ({ P2 with initialRoutes := rs } : Vrp) cols = o.start a ({ P' with initialRoutes := rs } : Vrp) cols →
      Solve.Numbered cols → PricingMode.ofName a.strategy = .fixed m →
      Solve.columnGeneration (({ P2 with initialRoutes := rs } : Vrp).solveCfg a w.falsy) w.toEnv false fuel
        (o.start a ({ P2 with initialRoutes := rs } : Vrp) cols) = .ok (some stc) →
      Solve.limitReached (({ P2 with initialRoutes := rs } : Vrp).solveCfg a w.falsy) stc = false →
      ∃ bound, stc.bounds.getLast? = some bound ∧
        ∀ (P : Plan) (dropped : List Node), ValidPlan N3 (userFleet P0.numVehicles) P0.useAllVehicles dropped P →
          (∀ v ∈ dropped, v ∈ ({ P2 with initialRoutes := rs } : Vrp).master.drops) → (∀ e ∈ P, e.1 < K) →
          (∀ e ∈ P, Allowed (withoutNodes P0 L) P2 N3 e.1 e.2) →
          bound ≤ planCost N3 P + P0.dropPenalty * (N3.customers.filter (fun v => v ∈ dropped)).length + 1 / 1000 * P.length)
    (h : o.solve w a fuel = .ok (some o')) (hno : Spec.NotStagnant a o')
    (hiter : a.maxIter = 0 ∨ o'.iteration < a.maxIter) :
    ∃ K bound, o'.P.vehicleTypes = some K ∧ o'.bounds.getLast? = some bound ∧ ∀ S, SolvesWithin (withoutNodes P0 L) K S →
      (P0.useAllVehicles = true → ∀ p ∈ S.routes, stops p.2 ≠ []) →
      bound ≤ (userCosts P0 S).sum + P0.dropPenalty * S.dropped.length + 1 / 1000 * S.routes.length := by
  have hP' := without_deliveries hP hfree htimes
  have hD' := without_nonnegative hP.wf (fun hs => by obtain ⟨⟨n, h⟩, _⟩ := (hL _).1 hs; cases h)
    (fun hs => by obtain ⟨⟨n, h⟩, _⟩ := (hL _).1 hs; cases h) hD
  refine bound_locked_for (A := fun P' N3 => Allowed (withoutNodes P0 L) P' N3) hP.wf hP.customer hP.costs (fun v hv _ => hP.demand v hv)
    (fun _ _ _ _ h => h.admissible.simple) ?_ hD hL hfree hpen hheur hstrat hc ?_ h hno hiter
  · rintro P' K N N3 S R U k _ mid hmid hnd hne hal ⟨mid', h1, h2⟩
    have : mid' = mid := by simpa [routeOf] using h1.symm
    subst this
    exact S.admissible R U hP'.toDeliveryData hmid hnd hne hal h2
  · intro P' P2 rs cols K N N3 m stc g1 g2 g3 g4 g5
    exact hgen P' P2 rs cols K N N3 m stc g1 g2 g3 hP' hD' g4 g5

/-- **C70 (partial), preassigned routes.** As `C70_lower_bound_partial`, beside preassigned routes: let `L` be the customers of the complete
ones, and let there be others.  No solution for the other customers, with the whole fleet and within the limits, whether or not it keeps the
preassigned routes that are not complete, is cheaper than the last value of `_lower_bound`, up to 1/1000 for each of its vehicles.  Costs must
not be negative (arcs of preassigned routes that are not complete are free during the search).  What is missing: as for
`C70_lower_bound_partial` (pickup and delivery: `C70_locked_requests_partial`, periodic problems: `C70_locked_periodic_partial`). -/
theorem C70_locked_partial {w : World} {a : SolveArgs} {fuel : Nat} {P0 : Vrp} {o o' : Obj} {L : List Node}
    (hexact : ∀ t, SolverExact (w.pricing t)) (hP : Deliveries P0) (hD : NonnegativeData P0)
    (hL : ∀ v, v ∈ L ↔ (∃ n, v = .cust n) ∧ ∃ r ∈ a.preassignments, Complete r ∧ v ∈ r)
    (hfree : ∃ n, Node.cust n ∈ P0.G.nodes ∧ Node.cust n ∉ L)
    (hwide : P0.timeWindows = true → TimesMakeSense (withoutNodes P0 L) ∧
      (withoutNodes P0 L).G.nodes.head? = some .source ∧ WindowsWide (withoutNodes P0 L))
    (hpen : 0 ≤ P0.dropPenalty) (hspan : P0.minimizeGlobalSpan = false)
    (hheur : a.heuristicOnly = false) (hcspy : a.cspy = false) (hstrat : a.strategy ≠ "Hyper")
    (hc : Obj.create P0 = .ok o)
    (hduals : ∀ P' P'' fuel cols m stm, o.P.startSolve w.dist a.strategy a.cspy a.initialRoutes a.preassignments = .ok P' →
      P'.initialize P'.G.toNet w.cw fuel = .ok (some (P'', cols)) →
      Solve.Trace (P''.solveCfg a w.falsy) w.toEnv false (o.start a P'' cols) m stm →
      (w.master stm.tick (P''.master.lp stm.mcols true)).optimal = true →
      DualsOk P''.master stm.mcols (w.master stm.tick (P''.master.lp stm.mcols true)))
    (h : o.solve w a fuel = .ok (some o')) (hno : Spec.NotStagnant a o')
    (hiter : a.maxIter = 0 ∨ o'.iteration < a.maxIter) (htime : ∀ t, w.timeUp t = false) :
    ∃ K bound, o'.P.vehicleTypes = some K ∧ o'.bounds.getLast? = some bound ∧ ∀ S, SolvesWithin (withoutNodes P0 L) K S →
      (P0.useAllVehicles = true → ∀ p ∈ S.routes, stops p.2 ≠ []) →
      bound ≤ (userCosts P0 S).sum + P0.dropPenalty * S.dropped.length + 1 / 1000 * S.routes.length := by
  refine bound_locked hP hD hL hfree (fun ht => (hwide ht).1) hpen hheur hstrat hc ?_ h hno hiter
  rintro P' P2 rs cols K N N3 m stc hstart rfl h1 hP' _ S U hst hnum hm hcg hlim
  have hd : ∀ st0, st0 = o.start a { P' with initialRoutes := rs } cols → ∀ n stm,
      Solve.Trace (({ P' with initialRoutes := rs } : Vrp).solveCfg a w.falsy) w.toEnv false st0 n stm →
      (w.master stm.tick (({ P' with initialRoutes := rs } : Vrp).master.lp stm.mcols true)).optimal = true →
      DualsOk ({ P' with initialRoutes := rs } : Vrp).master stm.mcols
        (w.master stm.tick (({ P' with initialRoutes := rs } : Vrp).master.lp stm.mcols true)) := by
    rintro _ rfl n stm
    exact hduals P' { P' with initialRoutes := rs } fuel cols n stm hstart h1
  exact lp_generation (rs := rs) hexact hP' (fun ht => (hwide ht).2) hspan hcspy S U hnum hm (hd _ hst) hcg hlim htime

theorem initialize_without {P P'' : Vrp} {H : Option Net} {N : Net} {cw : ℚ → CWOracle} {fuel : Nat} {cols : List Column}
    (h : P.initialize N cw fuel = .ok (some (P'', cols))) :
    ∃ P3, ({ P with H := H, preassignments := [], moreRoutes := true } : Vrp).initialize N cw fuel = .ok (some (P3, cols)) := by
  unfold Vrp.initialize at h ⊢
  have e : ({ P with H := H, preassignments := [], moreRoutes := true } : Vrp).chooseInitial N cw fuel = P.chooseInitial N cw fuel := rfl
  rw [e]
  split at h
  · cases h
  · cases h
  · rename_i rs hrs
    split at h
    · cases h
    · rename_i cols' hcols
      simp only [Except.ok.injEq, Option.some.injEq, Prod.mk.injEq] at h
      obtain ⟨_, rfl⟩ := h
      simp only [hcols]
      exact ⟨_, rfl⟩

/-- **C70 (partial), preassigned routes and pricing with cspy.** As `C70_cspy_partial`, beside preassigned routes: `L` are the customers of the
complete ones, and no solution for the others, with the whole fleet and within the limits, is cheaper than the last value of `_lower_bound`,
up to 1/1000 for each of its vehicles.  What is missing: as for `C70_cspy_partial` (periodic problems:
`C70_locked_periodic_cspy_partial`). -/
theorem C70_locked_cspy_partial {w : World} {a : SolveArgs} {fuel : Nat} {P0 : Vrp} {o o' : Obj} {L : List Node} (hw : WorldOk w)
    (hfinds : ∀ t q, CspyFinds q (w.cspy t q)) (hP : Deliveries P0) (hD : NonnegativeData P0)
    (hL : ∀ v, v ∈ L ↔ (∃ n, v = .cust n) ∧ ∃ r ∈ a.preassignments, Complete r ∧ v ∈ r)
    (hfree : ∃ n, Node.cust n ∈ P0.G.nodes ∧ Node.cust n ∉ L)
    (htimes : P0.timeWindows = true → TimesMakeSense (withoutNodes P0 L)) (hC : CspyData (withoutNodes P0 L)) (hpen : 0 ≤ P0.dropPenalty)
    (hmixed : P0.mixedFleet = false) (hone : (userCapacities P0.loadCapacity).length ≤ 1) (hstops : P0.numStops.stops ≠ none ∨ userCapacities P0.loadCapacity ≠ [])
    (hspan : P0.minimizeGlobalSpan = false)
    (hheur : a.heuristicOnly = false) (hcspy : a.cspy = true) (hgreedy : a.greedy = false)
    (hstrat : a.strategy ≠ "Hyper") (hc : Obj.create P0 = .ok o)
    (hduals : ∀ P' P'' fuel cols m stm, o.P.startSolve w.dist a.strategy a.cspy a.initialRoutes a.preassignments = .ok P' →
      P'.initialize P'.G.toNet w.cw fuel = .ok (some (P'', cols)) →
      Solve.Trace (P''.solveCfg a w.falsy) w.toEnv false (o.start a P'' cols) m stm →
      (w.master stm.tick (P''.master.lp stm.mcols true)).optimal = true →
      DualsOk P''.master stm.mcols (w.master stm.tick (P''.master.lp stm.mcols true)) ∧
      ColumnsPriced P''.master stm.mcols (w.master stm.tick (P''.master.lp stm.mcols true)))
    (h : o.solve w a fuel = .ok (some o')) (hno : Spec.NotStagnant a o')
    (hiter : a.maxIter = 0 ∨ o'.iteration < a.maxIter) (htime : ∀ t, w.timeUp t = false) :
    ∃ K bound, o'.P.vehicleTypes = some K ∧ o'.bounds.getLast? = some bound ∧ ∀ S, SolvesWithin (withoutNodes P0 L) K S →
      (P0.useAllVehicles = true → ∀ p ∈ S.routes, stops p.2 ≠ []) →
      bound ≤ (userCosts P0 S).sum + P0.dropPenalty * S.dropped.length + 1 / 1000 * S.routes.length := by
  refine bound_locked hP hD hL hfree htimes hpen hheur hstrat hc ?_ h hno hiter
  rintro P' P2 rs cols K N N3 m stc hstart rfl h1 hP' hD' S U hst hnum hm hcg hlim
  have hd : ∀ st0, st0 = o.start a { P' with initialRoutes := rs } cols → ∀ n stm,
      Solve.Trace (({ P' with initialRoutes := rs } : Vrp).solveCfg a w.falsy) w.toEnv false st0 n stm →
      (w.master stm.tick (({ P' with initialRoutes := rs } : Vrp).master.lp stm.mcols true)).optimal = true →
      DualsOk ({ P' with initialRoutes := rs } : Vrp).master stm.mcols
        (w.master stm.tick (({ P' with initialRoutes := rs } : Vrp).master.lp stm.mcols true)) ∧
      ColumnsPriced ({ P' with initialRoutes := rs } : Vrp).master stm.mcols
        (w.master stm.tick (({ P' with initialRoutes := rs } : Vrp).master.lp stm.mcols true)) := by
    rintro _ rfl n stm
    exact hduals P' { P' with initialRoutes := rs } fuel cols n stm hstart h1
  obtain ⟨G, _, ho⟩ := create_ok hc
  obtain ⟨n, hn, hn0⟩ := stops_limited_of (w := w) (a := a) (o := o) hP'.toDeliveryData hstops (by rw [ho]; rfl) (by rw [ho]; rfl)
    (by rw [ho]; rfl) hstart S rfl rfl U
  obtain ⟨P3, h3⟩ := initialize_without (H := some N) h1
  obtain ⟨bound, hb, hbound⟩ := cspy_generation (tol := fun _ => 1 / 1000) (rs := rs) hw (fun t q _ => hfinds t q) hP' hD' hC hmixed hspan hcspy
    hgreedy S U hn hn0 (initial_paths hP'.toDeliveryData hone S hw.cw h3) hnum hm (hd _ hst) hcg hlim htime
  exact ⟨bound, hb, fun P dropped p1 p2 p3 p4 => hbound P dropped _ p1 p2 p3 p4 (fun _ _ => le_refl _)⟩

end Vrpy
