import Verif.Props.EndToEndBoundLocked
import Verif.Props.ThresholdCases
import Verif.Props.LockedLPCases

/-!
# C78 with preassigned routes
-/

namespace Vrpy

open Spec

/-- **C78 (partial)**, end to end beside preassigned routes: as `C78_bound_partial`, where `L` are the customers of the complete preassigned
routes, and the bound is for solutions for the others (`C70_locked_cspy_partial`).  What is missing: as for `C70_cspy_partial`. -/
theorem C78_locked_bound_partial {w : World} {a : SolveArgs} {fuel : Nat} {P0 : Vrp} {o o' : Obj} {L : List Node} (hw : WorldOk w)
    (hearly : ∀ t q, WellFormed q.G → StopsEarly q (w.cspy t q)) (hP : Deliveries P0) (hD : NonnegativeData P0)
    (hL : ∀ v, v ∈ L ↔ (∃ n, v = .cust n) ∧ ∃ r ∈ a.preassignments, Complete r ∧ v ∈ r)
    (hfree : ∃ n, Node.cust n ∈ P0.G.nodes ∧ Node.cust n ∉ L)
    (htimes : P0.timeWindows = true → TimesMakeSense (withoutNodes P0 L)) (hC : CspyData (withoutNodes P0 L)) (hpen : 0 ≤ P0.dropPenalty)
    (hmixed : P0.mixedFleet = false) (hone : (userCapacities P0.loadCapacity).length ≤ 1) (hstops : P0.numStops.stops ≠ none ∨ userCapacities P0.loadCapacity ≠ [])
    (hspan : P0.minimizeGlobalSpan = false)
    (hheur : a.heuristicOnly = false) (hcspy : a.cspy = true) (hgreedy : a.greedy = false)
    (hstrat : a.strategy ≠ "Hyper") (hc : Obj.create P0 = .ok o)
    (hduals : ∀ P' P'' fuel cols m stm, o.P.startSolve w.dist a.strategy a.cspy a.initialRoutes a.preassignments = .ok P' →
      P'.initialize P'.G.toNet w.cw fuel = .ok (some (P'', cols)) →
      Solve.Trace (P''.solveCfg a w.falsy) w.toEnv false (o.start a P'' cols) m stm →
      (w.master stm.tick (P''.master.lp stm.mcols true)).optimal = true →
      DualsOk P''.master stm.mcols (w.master stm.tick (P''.master.lp stm.mcols true)) ∧
      ColumnsPriced P''.master stm.mcols (w.master stm.tick (P''.master.lp stm.mcols true)))
    (h : o.solve w a fuel = .ok (some o')) (hno : Spec.NotStagnant a o')
    (hiter : a.maxIter = 0 ∨ o'.iteration < a.maxIter) (htime : ∀ t, w.timeUp t = false) :
    ∃ K bound, o'.P.vehicleTypes = some K ∧ o'.bounds.getLast? = some bound ∧ ∀ S n, SolvesWithin (withoutNodes P0 L) K S →
      (P0.useAllVehicles = true → ∀ p ∈ S.routes, stops p.2 ≠ []) →
      (∀ e ∈ S.routes, legs e.2 ≤ n) →
      bound ≤ (userCosts P0 S).sum + P0.dropPenalty * S.dropped.length + n / 1000 * S.routes.length := by
  have hsL : Node.source ∉ L := fun hs => by obtain ⟨⟨n, h⟩, _⟩ := (hL _).1 hs; cases h
  have htL : Node.sink ∉ L := fun hs => by obtain ⟨⟨n, h⟩, _⟩ := (hL _).1 hs; cases h
  have hP' := without_deliveries hP hfree htimes
  have hD' := without_nonnegative hP.wf hsL htL hD
  obtain ⟨P', P2, rs, cols, K, N, N3, m, stc, hstart, rfl, h1, S, R', U, hst, hnum, hm, hcg, hlim, hvt, hbs, htypes, hsame⟩ :=
    generation_locked hP.wf hP.customer hP.costs (fun v hv _ => hP.demand v hv) hD hL hfree hheur hstrat hc h hno hiter
  have hd : ∀ st0, st0 = o.start a { P' with initialRoutes := rs } cols → ∀ n stm,
      Solve.Trace (({ P' with initialRoutes := rs } : Vrp).solveCfg a w.falsy) w.toEnv false st0 n stm →
      (w.master stm.tick (({ P' with initialRoutes := rs } : Vrp).master.lp stm.mcols true)).optimal = true →
      DualsOk ({ P' with initialRoutes := rs } : Vrp).master stm.mcols
        (w.master stm.tick (({ P' with initialRoutes := rs } : Vrp).master.lp stm.mcols true)) ∧
      ColumnsPriced ({ P' with initialRoutes := rs } : Vrp).master stm.mcols
        (w.master stm.tick (({ P' with initialRoutes := rs } : Vrp).master.lp stm.mcols true)) := by
    rintro _ rfl n stm
    exact hduals P' { P' with initialRoutes := rs } fuel cols n stm hstart h1
  obtain ⟨G, _, ho⟩ := create_ok hc
  obtain ⟨n, hn, hn0⟩ := stops_limited_of (w := w) (a := a) (o := o) hP'.toDeliveryData hstops (by rw [ho]; rfl) (by rw [ho]; rfl)
    (by rw [ho]; rfl) hstart S rfl rfl U
  obtain ⟨P3, h3⟩ := initialize_without (H := some N) h1
  have hfl := fleet_types (w := w) (P0 := P0) hc hstart htypes
  obtain ⟨bound, hb, hbound⟩ := cspy_generation (rs := rs) hw (fun t q hG => finds_of_stops hG (hearly t q hG)) hP' hD' hC hmixed hspan hcspy
    hgreedy S U hn hn0 (initial_paths hP'.toDeliveryData hone S hw.cw h3) hnum hm (hd _ hst) hcg hlim htime
  refine ⟨K, bound, hvt, by rw [hbs]; exact hb, ?_⟩
  intro Sol l hSol hused hl
  obtain ⟨p1, p2, p3, p4, p5, p6, p7⟩ := searched_plan_of (A := Allowed (withoutNodes P0 L) _ N3) S (fun k r h => h.admissible.simple)
    (by
      rintro k _ mid hmid hnd hne hal ⟨mid', e1, e2⟩
      have : mid' = mid := by simpa [routeOf] using e1.symm
      subst this
      exact S.admissible R' U hP'.toDeliveryData hmid hnd hne hal e2)
    hsame hD'.stay hfl hSol hused
  have hN3 : P'.G.toNet = N3 := by rw [show P'.G = N3.toDiGraph from S.graph]; rfl
  obtain ⟨f1, f2, f3, f4, f5, f6, f7, f8, f9, f10, f11⟩ := S.fields
  have := hbound (routesWithCustomers Sol) Sol.dropped (l / 1000) p1
    (by
      intro v hv
      show v ∈ ({ P' with initialRoutes := rs } : Vrp).master.drops
      unfold Master.drops
      rw [show ({ P' with initialRoutes := rs } : Vrp).master.dropPenalty = P0.dropPenalty from f5,
        show ({ P' with initialRoutes := rs } : Vrp).master.G = N3 from hN3]
      by_cases h0 : P0.dropPenalty = 0
      · rw [hSol.penalty h0] at hv
        cases hv
      · simp only [h0, if_false]
        exact p6 v hv)
    p2 p3
    (by
      intro e he
      obtain ⟨x, hx, rfl⟩ := List.mem_map.1 he
      have hle := hl x (List.mem_filter.1 hx).1
      have : (legs x.2 : ℚ) ≤ l := by exact_mod_cast hle
      show 1 / 1000 * (legs x.2 : ℚ) ≤ l / 1000
      linarith)
  have q1 : P0.dropPenalty * ((N3.customers.filter (fun v => v ∈ Sol.dropped)).length : ℚ) ≤
      P0.dropPenalty * (Sol.dropped.length : ℚ) := mul_le_mul_of_nonneg_left (by exact_mod_cast p7) hpen
  have q2 : (l : ℚ) / 1000 * ((routesWithCustomers Sol).length : ℚ) ≤ l / 1000 * Sol.routes.length :=
    mul_le_mul_of_nonneg_left (by exact_mod_cast p5) (by positivity)
  rw [userCosts_without hsL htL hSol.routes] at p4
  have f5' : (withoutNodes P0 L).dropPenalty = P0.dropPenalty := rfl
  rw [f5'] at this
  linarith

def lockedLazyArgs : SolveArgs := { exLazyArgs with preassignments := [routeOf [.cust 3]] }

/-- All hypotheses of `C78_locked_bound_partial` hold for the example. -/
example : ∃ K, ∀ S n, SolvesWithin (withoutNodes (lockedPlan false) [.cust 3]) K S → (∀ e ∈ S.routes, legs e.2 ≤ n) →
    24 ≤ (userCosts (lockedPlan false) S).sum + n / 1000 * S.routes.length := by
  have hok : onTheWay exLazyWorld lockedLazyArgs 5 (lockedPlan false)
      (fun M cols a => dualsProve M cols a && columnsPriced M cols a) = true := by
    decide +kernel
  have hleft : leftBehind exLazyWorld lockedLazyArgs 5 (lockedPlan false) = some ([46, 24], 0, 2) := by decide +kernel
  unfold leftBehind at hleft
  split at hleft
  · cases hleft
  rename_i o ho
  split at hleft
  · rename_i o' hsolve
    simp only [Option.some.injEq, Prod.mk.injEq] at hleft
    obtain ⟨K, bound, _, hb, hS⟩ := C78_locked_bound_partial (a := lockedLazyArgs) (L := [.cust 3]) (lazyWorld_ok _ _).1 (lazyWorld_ok _ _).2
      (lockedPlan_capacitated.deliveries) (lockedPlan_nonnegative false)
      (by
        intro v
        simp only [lockedLazyArgs, List.mem_cons, List.not_mem_nil, or_false, exists_eq_left]
        constructor
        · rintro rfl
          exact ⟨⟨3, rfl⟩, ⟨rfl, rfl⟩, by decide⟩
        · rintro ⟨⟨n, rfl⟩, _, hv⟩
          simpa [routeOf] using hv)
      ⟨1, by decide, by decide⟩ (fun h => (by cases h))
      ⟨fun h => (by cases h), fun h => (by cases h), fun h => (by cases h), fun h => (by cases h)⟩ (by decide +kernel) rfl (by decide +kernel)
      (Or.inl (by decide +kernel)) rfl rfl rfl rfl (by decide) ho (by
        intro P' P'' fuel cols m stm h1 h2 ht _
        have := onTheWay_ok hok ho h1 h2 ht
        simp only [Bool.and_eq_true] at this
        exact ⟨dualsProve_ok this.1, columnsPriced_ok this.2⟩) hsolve (Or.inl ⟨rfl, by rw [hleft.2.1]; decide⟩) (Or.inl rfl) (fun _ => rfl)
    rw [hleft.1] at hb
    simp only [List.getLast?_cons_cons, List.getLast?_singleton, Option.some.injEq] at hb
    subst hb
    refine ⟨K, fun S n hSol hn => ?_⟩
    have := hS S n hSol (fun hf => (by cases hf)) hn
    have hp : (lockedPlan false).dropPenalty = 0 := rfl
    rw [hp] at this
    linarith
  · cases hleft

end Vrpy
