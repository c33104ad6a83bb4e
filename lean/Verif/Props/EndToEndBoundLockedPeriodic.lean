import Verif.Props.EndToEndBoundLockedRequests
import Verif.Props.EndToEndBoundPeriodicRequests
import Verif.Props.EndToEndBoundPeriodicCspy

/-!
# C70 with preassigned routes in periodic problems
-/

namespace Vrpy

open Spec

theorem without_deliveryData {P : Vrp} {L : List Node} (h : DeliveryData P) (hfree : ∃ n, Node.cust n ∈ P.G.nodes ∧ Node.cust n ∉ L)
    (ht : P.timeWindows = true → TimesMakeSense (withoutNodes P L)) : DeliveryData (withoutNodes P L) where
  wf := without_wf h.wf
  customer := by
    obtain ⟨n, h1, h2⟩ := hfree
    exact ⟨n, without_nodes.2 ⟨h1, h2⟩⟩
  costs := without_costs h.costs
  demand := fun v hv => h.demand v (without_nodes.1 hv).1
  service := h.service
  collect := fun hdc v hv => h.collect hdc v (without_nodes.1 hv).1
  times := ht
  pickupDelivery := h.pickupDelivery

/-- **C70 (partial), preassigned routes in periodic problems.** As `C70_periodic_partial`, beside preassigned routes: `L` are the customers of
the complete ones (which are not visited again).  No plan over the horizon for the others is cheaper than the last value of `_lower_bound`,
up to 1/1000 for each of its routes.  Costs must not be negative.  What is missing: as for `C70_periodic_partial`. -/
theorem C70_locked_periodic_partial {w : World} {a : SolveArgs} {fuel : Nat} {P0 : Vrp} {o o' : Obj} {L : List Node}
    (hexact : ∀ t, SolverExact (w.pricing t)) (hP : DeliveryData P0) (hper : P0.periodic.getD 0 ≠ 0) (hD : NonnegativeData P0)
    (hL : ∀ v, v ∈ L ↔ (∃ n, v = .cust n) ∧ ∃ r ∈ a.preassignments, Complete r ∧ v ∈ r)
    (hfree : ∃ n, Node.cust n ∈ P0.G.nodes ∧ Node.cust n ∉ L)
    (hwide : P0.timeWindows = true → TimesMakeSense (withoutNodes P0 L) ∧
      (withoutNodes P0 L).G.nodes.head? = some .source ∧ WindowsWide (withoutNodes P0 L))
    (hpen : 0 ≤ P0.dropPenalty) (hspan : P0.minimizeGlobalSpan = false)
    (hheur : a.heuristicOnly = false) (hcspy : a.cspy = false) (hstrat : a.strategy ≠ "Hyper")
    (hc : Obj.create P0 = .ok o)
    (hduals : ∀ P' P'' fuel cols m stm, o.P.startSolve w.dist a.strategy a.cspy a.initialRoutes a.preassignments = .ok P' →
      P'.initialize P'.G.toNet w.cw fuel = .ok (some (P'', cols)) →
      Solve.Trace (P''.solveCfg a w.falsy) w.toEnv false (o.start a P'' cols) m stm →
      (w.master stm.tick (P''.master.lp stm.mcols true)).optimal = true →
      HorizonDualsOk P''.master stm.mcols (w.master stm.tick (P''.master.lp stm.mcols true)))
    (h : o.solve w a fuel = .ok (some o')) (hno : Spec.NotStagnant a o')
    (hiter : a.maxIter = 0 ∨ o'.iteration < a.maxIter) (htime : ∀ t, w.timeUp t = false) :
    ∃ K bound, o'.P.vehicleTypes = some K ∧ o'.bounds.getLast? = some bound ∧ ∀ S, ServesHorizon (withoutNodes P0 L) K S →
      bound ≤ (userCosts P0 S).sum + P0.dropPenalty * S.dropped.length + 1 / 1000 * S.routes.length := by
  have hsL : Node.source ∉ L := fun hs => by obtain ⟨⟨n, h⟩, _⟩ := (hL _).1 hs; cases h
  have htL : Node.sink ∉ L := fun hs => by obtain ⟨⟨n, h⟩, _⟩ := (hL _).1 hs; cases h
  have hD' := without_nonnegative hP.wf hsL htL hD
  have hP' := without_deliveryData hP hfree (fun ht => (hwide ht).1)
  obtain ⟨P', P2, rs, cols, K, N, N3, m, stc, hstart, rfl, h1, S, R', U, hst, hnum, hm, hcg, hlim, hvt, hbs, htypes, hsame⟩ :=
    generation_locked hP.wf hP.customer hP.costs (fun v hv _ => hP.demand v hv) hD hL hfree hheur hstrat hc h hno hiter
  have hd : ∀ st0, st0 = o.start a { P' with initialRoutes := rs } cols → ∀ n stm,
      Solve.Trace (({ P' with initialRoutes := rs } : Vrp).solveCfg a w.falsy) w.toEnv false st0 n stm →
      (w.master stm.tick (({ P' with initialRoutes := rs } : Vrp).master.lp stm.mcols true)).optimal = true →
      HorizonDualsOk ({ P' with initialRoutes := rs } : Vrp).master stm.mcols
        (w.master stm.tick (({ P' with initialRoutes := rs } : Vrp).master.lp stm.mcols true)) := by
    rintro _ rfl n stm
    exact hduals P' { P' with initialRoutes := rs } fuel cols n stm hstart h1
  obtain ⟨bound, hb, hS⟩ := horizon_generation (rs := rs) hexact hP' hper (fun ht => (hwide ht).2) hD'.stay hpen hspan hcspy S R' U hsame hnum hm
    (hd _ hst) hcg hlim htime
  refine ⟨K, bound, hvt, by rw [hbs]; exact hb, fun Sol hSol => ?_⟩
  have := hS Sol hSol
  rw [userCosts_without hsL htL hSol.1.routes] at this
  exact this

/-- **C70 (partial), preassigned routes in periodic problems, pickup and delivery.** The same for requests (`C70_periodic_requests_partial`),
which the complete preassigned routes serve as a whole. -/
theorem C70_locked_periodic_requests_partial {w : World} {a : SolveArgs} {fuel : Nat} {P0 : Vrp} {o o' : Obj} {L : List Node}
    (hexact : ∀ t, SolverExact (w.pricing t)) (hP : RequestsData P0) (hper : P0.periodic.getD 0 ≠ 0) (hD : NonnegativeData P0)
    (hL : ∀ v, v ∈ L ↔ (∃ n, v = .cust n) ∧ ∃ r ∈ a.preassignments, Complete r ∧ v ∈ r)
    (hfree : ∃ n, Node.cust n ∈ P0.G.nodes ∧ Node.cust n ∉ L)
    (hwhole : ∀ v w, Request P0 v w → (v ∈ L ↔ w ∈ L))
    (hwide : P0.timeWindows = true → TimesMakeSense (withoutNodes P0 L) ∧ WindowsWide (withoutNodes P0 L))
    (hpen : 0 ≤ P0.dropPenalty) (hspan : P0.minimizeGlobalSpan = false)
    (hheur : a.heuristicOnly = false) (hcspy : a.cspy = false) (hstrat : a.strategy ≠ "Hyper")
    (hc : Obj.create P0 = .ok o)
    (hduals : ∀ P' P'' fuel cols m stm, o.P.startSolve w.dist a.strategy a.cspy a.initialRoutes a.preassignments = .ok P' →
      P'.initialize P'.G.toNet w.cw fuel = .ok (some (P'', cols)) →
      Solve.Trace (P''.solveCfg a w.falsy) w.toEnv false (o.start a P'' cols) m stm →
      (w.master stm.tick (P''.master.lp stm.mcols true)).optimal = true →
      HorizonDualsOk P''.master stm.mcols (w.master stm.tick (P''.master.lp stm.mcols true)))
    (h : o.solve w a fuel = .ok (some o')) (hno : Spec.NotStagnant a o')
    (hiter : a.maxIter = 0 ∨ o'.iteration < a.maxIter) (htime : ∀ t, w.timeUp t = false) :
    ∃ K bound, o'.P.vehicleTypes = some K ∧ o'.bounds.getLast? = some bound ∧ ∀ S, TransportsHorizon (withoutNodes P0 L) K S →
      bound ≤ (userCosts P0 S).sum + P0.dropPenalty * S.dropped.length + 1 / 1000 * S.routes.length := by
  have hsL : Node.source ∉ L := fun hs => by obtain ⟨⟨n, h⟩, _⟩ := (hL _).1 hs; cases h
  have htL : Node.sink ∉ L := fun hs => by obtain ⟨⟨n, h⟩, _⟩ := (hL _).1 hs; cases h
  have hD' := without_nonnegative hP.wf hsL htL hD
  have hP' := without_requestsData hP hfree hsL hwhole
  obtain ⟨P', P2, rs, cols, K, N, N3, m, stc, hstart, rfl, h1, S, R', U, hst, hnum, hm, hcg, hlim, hvt, hbs, htypes, hsame⟩ :=
    generation_locked hP.wf hP.customer hP.costs (fun v hv hor => by
      rcases hor with hf | hf
      · rw [hP.pickupDelivery] at hf
        cases hf
      · exact hP.depots v hv hf) hD hL hfree hheur hstrat hc h hno hiter
  have hd : ∀ st0, st0 = o.start a { P' with initialRoutes := rs } cols → ∀ n stm,
      Solve.Trace (({ P' with initialRoutes := rs } : Vrp).solveCfg a w.falsy) w.toEnv false st0 n stm →
      (w.master stm.tick (({ P' with initialRoutes := rs } : Vrp).master.lp stm.mcols true)).optimal = true →
      HorizonDualsOk ({ P' with initialRoutes := rs } : Vrp).master stm.mcols
        (w.master stm.tick (({ P' with initialRoutes := rs } : Vrp).master.lp stm.mcols true)) := by
    rintro _ rfl n stm
    exact hduals P' { P' with initialRoutes := rs } fuel cols n stm hstart h1
  obtain ⟨bound, hb, hS⟩ := horizon_requests_generation (rs := rs) hexact hP' hper hwide hD'.stay hpen hspan hcspy S R' U hsame hnum hm
    (hd _ hst) hcg hlim htime
  refine ⟨K, bound, hvt, by rw [hbs]; exact hb, fun Sol hSol => ?_⟩
  have := hS Sol hSol
  rw [userCosts_without hsL htL hSol.1.routes] at this
  exact this

/-- **C70 (partial), preassigned routes in periodic problems, pricing with cspy.** As `C70_periodic_cspy_partial`, beside preassigned routes. -/
theorem C70_locked_periodic_cspy_partial {w : World} {a : SolveArgs} {fuel : Nat} {P0 : Vrp} {o o' : Obj} {L : List Node} (hw : WorldOk w)
    (hfinds : ∀ t q, CspyFinds q (w.cspy t q)) (hP : DeliveryData P0) (hper : P0.periodic.getD 0 ≠ 0) (hD : NonnegativeData P0)
    (hL : ∀ v, v ∈ L ↔ (∃ n, v = .cust n) ∧ ∃ r ∈ a.preassignments, Complete r ∧ v ∈ r)
    (hfree : ∃ n, Node.cust n ∈ P0.G.nodes ∧ Node.cust n ∉ L)
    (htimes : P0.timeWindows = true → TimesMakeSense (withoutNodes P0 L)) (hC : CspyData (withoutNodes P0 L)) (hpen : 0 ≤ P0.dropPenalty)
    (hmixed : P0.mixedFleet = false) (hone : (userCapacities P0.loadCapacity).length ≤ 1)
    (hstops : P0.numStops.stops ≠ none ∨ userCapacities P0.loadCapacity ≠ [])
    (hspan : P0.minimizeGlobalSpan = false)
    (hheur : a.heuristicOnly = false) (hcspy : a.cspy = true) (hgreedy : a.greedy = false)
    (hstrat : a.strategy ≠ "Hyper") (hc : Obj.create P0 = .ok o)
    (hduals : ∀ P' P'' fuel cols m stm, o.P.startSolve w.dist a.strategy a.cspy a.initialRoutes a.preassignments = .ok P' →
      P'.initialize P'.G.toNet w.cw fuel = .ok (some (P'', cols)) →
      Solve.Trace (P''.solveCfg a w.falsy) w.toEnv false (o.start a P'' cols) m stm →
      (w.master stm.tick (P''.master.lp stm.mcols true)).optimal = true →
      HorizonDualsOk P''.master stm.mcols (w.master stm.tick (P''.master.lp stm.mcols true)) ∧
      HorizonColumnsPriced stm.mcols (w.master stm.tick (P''.master.lp stm.mcols true)))
    (h : o.solve w a fuel = .ok (some o')) (hno : Spec.NotStagnant a o')
    (hiter : a.maxIter = 0 ∨ o'.iteration < a.maxIter) (htime : ∀ t, w.timeUp t = false) :
    ∃ K bound, o'.P.vehicleTypes = some K ∧ o'.bounds.getLast? = some bound ∧ ∀ S, ServesHorizon (withoutNodes P0 L) K S →
      bound ≤ (userCosts P0 S).sum + P0.dropPenalty * S.dropped.length + 1 / 1000 * S.routes.length := by
  have hsL : Node.source ∉ L := fun hs => by obtain ⟨⟨n, h⟩, _⟩ := (hL _).1 hs; cases h
  have htL : Node.sink ∉ L := fun hs => by obtain ⟨⟨n, h⟩, _⟩ := (hL _).1 hs; cases h
  have hD' := without_nonnegative hP.wf hsL htL hD
  have hP' := without_deliveryData hP hfree htimes
  obtain ⟨P', P2, rs, cols, K, N, N3, m, stc, hstart, rfl, h1, S, R', U, hst, hnum, hm, hcg, hlim, hvt, hbs, htypes, hsame⟩ :=
    generation_locked hP.wf hP.customer hP.costs (fun v hv _ => hP.demand v hv) hD hL hfree hheur hstrat hc h hno hiter
  have hd : ∀ st0, st0 = o.start a { P' with initialRoutes := rs } cols → ∀ n stm,
      Solve.Trace (({ P' with initialRoutes := rs } : Vrp).solveCfg a w.falsy) w.toEnv false st0 n stm →
      (w.master stm.tick (({ P' with initialRoutes := rs } : Vrp).master.lp stm.mcols true)).optimal = true →
      HorizonDualsOk ({ P' with initialRoutes := rs } : Vrp).master stm.mcols
        (w.master stm.tick (({ P' with initialRoutes := rs } : Vrp).master.lp stm.mcols true)) ∧
      HorizonColumnsPriced stm.mcols (w.master stm.tick (({ P' with initialRoutes := rs } : Vrp).master.lp stm.mcols true)) := by
    rintro _ rfl n stm
    exact hduals P' { P' with initialRoutes := rs } fuel cols n stm hstart h1
  obtain ⟨G, _, ho⟩ := create_ok hc
  obtain ⟨n, hn, hn0⟩ := stops_limited_of (w := w) (a := a) (o := o) hP' hstops (by rw [ho]; rfl) (by rw [ho]; rfl)
    (by rw [ho]; rfl) hstart S rfl rfl U
  obtain ⟨P3, h3⟩ := initialize_without (H := some N) h1
  obtain ⟨bound, hb, hS⟩ := horizon_cspy_generation (rs := rs) (o := o)
    (P' := { P' with H := some N, preassignments := [], moreRoutes := true }) hw hfinds hP' hper hD' hC hpen hmixed hspan hcspy hgreedy hn hn0
    (initial_paths hP' hone S hw.cw h3) S R' U hsame hnum hm (hd _ hst) hcg hlim htime
  refine ⟨K, bound, hvt, by rw [hbs]; exact hb, fun Sol hSol => ?_⟩
  have := hS Sol hSol
  rw [userCosts_without hsL htL hSol.1.routes] at this
  exact this

end Vrpy
