import Verif.Props.EndToEndBoundLocked
import Verif.Props.EndToEndBoundRequests
import Verif.Props.EndToEndLockedRequests

/-!
# C70 with preassigned routes, pickup and delivery
-/

namespace Vrpy

open Spec

/-- **C70 (partial), preassigned routes, pickup and delivery.** As `C70_requests_partial`, beside preassigned routes: `L` are the customers of
the complete ones, which serve requests as a whole.  No plan for the other requests, with the whole fleet, is cheaper than the last value
of `_lower_bound`, up to 1/1000 for each of its vehicles.  Costs must not be negative.  What is missing: as for `C70_requests_partial`. -/
theorem C70_locked_requests_partial {w : World} {a : SolveArgs} {fuel : Nat} {P0 : Vrp} {o o' : Obj} {L : List Node}
    (hexact : ∀ t, SolverExact (w.pricing t)) (hP : PickupDelivery P0) (hD : NonnegativeData P0)
    (hL : ∀ v, v ∈ L ↔ (∃ n, v = .cust n) ∧ ∃ r ∈ a.preassignments, Complete r ∧ v ∈ r)
    (hfree : ∃ n, Node.cust n ∈ P0.G.nodes ∧ Node.cust n ∉ L)
    (hwhole : ∀ v w, Request P0 v w → (v ∈ L ↔ w ∈ L))
    (hwide : P0.timeWindows = true → TimesMakeSense (withoutNodes P0 L) ∧ WindowsWide (withoutNodes P0 L))
    (hpen : 0 ≤ P0.dropPenalty) (hspan : P0.minimizeGlobalSpan = false)
    (hheur : a.heuristicOnly = false) (hcspy : a.cspy = false) (hstrat : a.strategy ≠ "Hyper")
    (hc : Obj.create P0 = .ok o)
    (hduals : ∀ P' P'' fuel cols m stm, o.P.startSolve w.dist a.strategy a.cspy a.initialRoutes a.preassignments = .ok P' →
      P'.initialize P'.G.toNet w.cw fuel = .ok (some (P'', cols)) →
      Solve.Trace (P''.solveCfg a w.falsy) w.toEnv false (o.start a P'' cols) m stm →
      (w.master stm.tick (P''.master.lp stm.mcols true)).optimal = true →
      DualsOk P''.master stm.mcols (w.master stm.tick (P''.master.lp stm.mcols true)))
    (h : o.solve w a fuel = .ok (some o')) (hno : Spec.NotStagnant a o')
    (hiter : a.maxIter = 0 ∨ o'.iteration < a.maxIter) (htime : ∀ t, w.timeUp t = false) :
    ∃ K bound, o'.P.vehicleTypes = some K ∧ o'.bounds.getLast? = some bound ∧ ∀ S, TransportsWithin (withoutNodes P0 L) K S →
      (P0.useAllVehicles = true → ∀ p ∈ S.routes, stops p.2 ≠ []) →
      bound ≤ (userCosts P0 S).sum + P0.dropPenalty * S.dropped.length + 1 / 1000 * S.routes.length := by
  have hP' := without_requests hP hfree (fun hs => by obtain ⟨⟨n, h⟩, _⟩ := (hL _).1 hs; cases h) hwhole
  refine bound_locked_for (F := fun k r => ∃ mid, r = routeOf mid ∧ RequestRoute (withoutNodes P0 L) k mid)
    (A := fun P' N3 => AllowedRequests (withoutNodes P0 L) P' N3) hP.wf hP.customer hP.costs
    (fun v hv hor => by
      rcases hor with hf | hf
      · rw [hP.pickupDelivery] at hf
        cases hf
      · exact hP.depots v hv hf)
    (fun _ _ _ _ h => h.admissible.simple) ?_ hD hL hfree hpen hheur hstrat hc ?_ h hno hiter
  · rintro P' K N N3 S R U k _ mid hmid hnd hne hal ⟨mid', h1, h2⟩
    have : mid' = mid := by simpa [routeOf] using h1.symm
    subst this
    exact S.admissible_requests R U hP'.toRequestsData (fun ht => (hwide ht).1) hmid hnd hne hal h2
  · rintro P' P2 rs cols K N N3 m stc hstart rfl h1 S U hst hnum hm hcg hlim
    have hd : ∀ st0, st0 = o.start a { P' with initialRoutes := rs } cols → ∀ n stm,
        Solve.Trace (({ P' with initialRoutes := rs } : Vrp).solveCfg a w.falsy) w.toEnv false st0 n stm →
        (w.master stm.tick (({ P' with initialRoutes := rs } : Vrp).master.lp stm.mcols true)).optimal = true →
        DualsOk ({ P' with initialRoutes := rs } : Vrp).master stm.mcols
          (w.master stm.tick (({ P' with initialRoutes := rs } : Vrp).master.lp stm.mcols true)) := by
      rintro _ rfl n stm
      exact hduals P' { P' with initialRoutes := rs } fuel cols n stm hstart h1
    exact requests_generation (rs := rs) hexact hP' hwide hspan hcspy S U hnum hm (hd _ hst) hcg hlim htime

end Vrpy
