import Verif.Props.EndToEndDive
import Verif.Props.EndToEndLocked
import Verif.Props.HeuristicOnly
import Verif.Props.CspyBoundCases

/-!
# C27: reported loads after whole runs
-/

namespace Vrpy

open Spec

/-- After column generation the network of the reports is the one made before. -/
theorem columnGeneration_reports {w : World} {a : SolveArgs} {fuel : Nat} {P : Vrp} {o o' : Obj}
    (h : Obj.columnGeneration w a fuel P o = .ok (some o')) :
    o'.P.H = P.H ∧ o'.P.loadCapacity = P.loadCapacity ∧ o'.P.distributionCollection = P.distributionCollection ∧
      o'.P.pickupDelivery = P.pickupDelivery := by
  unfold Obj.columnGeneration at h
  split at h
  · cases h
  · cases h
  · rename_i P' cols hi
    have hP : ∃ rs, P' = { P with initialRoutes := rs } := by
      unfold Vrp.initialize at hi
      split at hi
      · cases hi
      · cases hi
      · rename_i rs _
        split at hi
        · cases hi
        · simp only [Except.ok.injEq, Option.some.injEq, Prod.mk.injEq] at hi
          exact ⟨rs, hi.1.symm⟩
    obtain ⟨rs, rfl⟩ := hP
    split at h
    · cases h
    · split at h
      · cases h
      · cases h
      · split at h
        · cases h
        · rename_i o1 hp
          simp only [Except.ok.injEq, Option.some.injEq] at h
          subst h
          unfold Obj.postProcess at hp
          simp only [py_bind_ok] at hp
          obtain ⟨_, _, _, _, _, _, hp⟩ := hp
          cases hp
          exact ⟨rfl, rfl, rfl, rfl⟩

/-- `best_routes_load` of every route is its load, and at most the capacity of the vehicle in `best_routes_type`. -/
def Spec.LoadsFit (P0 : Vrp) (o' : Obj) : Prop :=
  ∃ N, o'.P.H = some N ∧
    ∀ i q, (i, q) ∈ bestRoutesLoad N (capacities o'.P.loadCapacity.toList) o'.P.distributionCollection o'.P.pickupDelivery
        o'.solution →
      (∃ r, (i, r) ∈ o'.solution.routes ∧ q = ((stops r).map (userDemand P0.G)).sum) ∧
      ∀ k, dget o'.solution.types i = some k → ∃ c, (userCapacities P0.loadCapacity)[k]? = some c ∧ q ≤ c

/-- The routes reported are made of customers and can be carried by their vehicles. -/
def Carried (P0 : Vrp) (S : Solution) : Prop :=
  ∀ i r, (i, r) ∈ S.routes → ∃ mid, r = routeOf mid ∧ (∀ v ∈ mid, (∃ n, v = .cust n) ∧ v ∈ P0.G.nodes) ∧
    ∀ k, dget S.types i = some k → WithinCapacity (userCapacities P0.loadCapacity) k ((stops r).map (userDemand P0.G)).sum

theorem loads_fit {w : World} {a : SolveArgs} {fuel : Nat} {P0 : Vrp} {o o' : Obj} (hwf : P0.G.WF)
    (hcust : ∃ n, Node.cust n ∈ P0.G.nodes) (hdoc : CostsAsDocumented P0) (hdem : ∀ v ∈ P0.G.nodes, 0 ≤ userDemand P0.G v)
    (hheur : a.heuristicOnly = false) (hc : Obj.create P0 = .ok o) (h : o.solve w a fuel = .ok (some o'))
    (hroutes : Carried P0 o'.solution) : LoadsFit P0 o' := by
  unfold Obj.solve at h
  split at h
  · cases h
  rename_i P' hstart
  rw [hheur] at h
  simp only [Bool.false_eq_true, if_false] at h
  obtain ⟨K, N, N3, R, _⟩ := searched_locked (w := w) hwf hcust hdoc (fun v hv _ => hdem v hv) hc hstart
  obtain ⟨e1, e2, e3, e4⟩ := columnGeneration_reports h
  refine ⟨N, by rw [e1, R.reports], ?_⟩
  intro i q hiq
  rw [e2, R.caps] at hiq
  unfold bestRoutesLoad at hiq
  split at hiq
  · simp at hiq
  · rename_i hcap
    push Not at hcap
    obtain ⟨⟨j, r⟩, hr, he⟩ := List.mem_map.1 hiq
    simp only [Prod.mk.injEq] at he
    obtain ⟨rfl, rfl⟩ := he
    obtain ⟨mid, rfl, hmid, hk⟩ := hroutes j r hr
    have hmidc : ∀ v ∈ mid, v ∈ N.customers := by
      intro v hv
      obtain ⟨⟨n, rfl⟩, hn⟩ := hmid v hv
      exact mem_customers.2 ⟨by rw [R.userNodes]; exact hn, by simp, by simp⟩
    have hsum : ((routeOf mid).map N.demand).sum = (mid.map (userDemand P0.G)).sum := by
      have : mid.map N.demand = mid.map (userDemand P0.G) := List.map_congr_left (fun v hv => R.demand v (hmidc v hv))
      simp [routeOf, R.demandDepots, this]
    rw [hsum]
    refine ⟨⟨routeOf mid, hr, by rw [stops_routeOf hmidc]⟩, ?_⟩
    intro k hkt
    have := hk k hkt hcap.1
    rwa [stops_routeOf hmidc] at this

/-- **C27**, whole runs of capacitated problems with cspy pricing, with and without diving and preassigned routes (if some customer is
left): `best_routes_load` is the load of every route and at most the capacity of its vehicle. -/
theorem C27_run_cspy_partial {w : World} {a : SolveArgs} {fuel : Nat} {P0 : Vrp} {o o' : Obj} (hw : WorldOk w)
    (hP : Capacitated P0) (hheur : a.heuristicOnly = false) (hcspy : a.cspy = true)
    (hdive : a.dive = false ∧ SomeCustomerFree P0 a.preassignments ∨ DiveOk w.toEnv ∧ a.preassignments = [])
    (hinit : ∀ r ∈ a.initialRoutes, r.Nodup ∧ WithinStops P0.numStops.stops (stops r).length)
    (hc : Obj.create P0 = .ok o) (h : o.solve w a fuel = .ok (some o')) : LoadsFit P0 o' := by
  refine loads_fit hP.wf hP.customer hP.costs hP.demand hheur hc h ?_
  intro i r hir
  rcases hdive with ⟨hdive, hfree⟩ | ⟨hd, hpre⟩
  · obtain ⟨K, N, free, locked, _, _, h3, _⟩ := C68_plan_partial hw hP hdive hheur hcspy hfree hinit hc h
    rw [h3.all] at hir
    rcases List.mem_append.1 hir with hir | hir
    · obtain ⟨mid, rfl, _, h5, _, k, _, h7, h8⟩ := h3.routes i r hir
      refine ⟨mid, rfl, fun v hv => ⟨(h5 v hv).1, (h5 v hv).2.1⟩, ?_⟩
      intro k' hk'
      rw [h7] at hk'
      cases hk'
      exact h8.2
    · obtain ⟨mid, rfl, h5, _⟩ := h3.simple i r hir
      refine ⟨mid, rfl, h5, ?_⟩
      intro k hk
      have := (h3.vehicles i _ k hir hk).2
      exact this
  · cases hdv : a.dive with
    | true =>
      obtain ⟨K, N, _, _, h3, _⟩ := C53_dive_partial hw hd hP hpre hdv hheur hcspy hinit hc h
      obtain ⟨mid, rfl, _, h5, _, k, _, h7, mid', h8, _, h9⟩ := h3.routes i r hir
      refine ⟨mid, rfl, h5, ?_⟩
      intro k' hk'
      rw [h7] at hk'
      cases hk'
      simp only [routeOf, List.cons.injEq, true_and] at h8
      rw [stops_customers (fun v hv => (h5 v hv).1), List.append_cancel_right h8]
      exact h9
    | false =>
      obtain ⟨K, N, _, _, h3, _⟩ := C55_plan_partial hw hP hpre hdv hheur hcspy hinit hc h
      obtain ⟨mid, rfl, _, h5, _, _, k, _, h7, h8⟩ := h3.routes i r hir
      refine ⟨mid, rfl, h5, ?_⟩
      intro k' hk'
      rw [h7] at hk'
      cases hk'
      rw [stops_customers (fun v hv => (h5 v hv).1)]
      exact h8

/-- **C27**, whole runs of capacitated problems with LP pricing (conditions as in `C55_lp_partial`). -/
theorem C27_run_lp_partial {w : World} {a : SolveArgs} {fuel : Nat} {P0 : Vrp} {o o' : Obj} (hw : LpWorldOk PositiveCycles w)
    (hP : Capacitated P0) (hD : NonnegativeData P0) (hopt : OptionDuals w.toEnv P0)
    (hpre : a.preassignments = []) (hdive : a.dive = false) (hheur : a.heuristicOnly = false) (hcspy : a.cspy = false)
    (hinit : ∀ r ∈ a.initialRoutes, r.Nodup ∧ WithinStops P0.numStops.stops (stops r).length)
    (hc : Obj.create P0 = .ok o) (h : o.solve w a fuel = .ok (some o')) : LoadsFit P0 o' := by
  refine loads_fit hP.wf hP.customer hP.costs hP.demand hheur hc h ?_
  intro i r hir
  obtain ⟨K, N, _, _, h3, _⟩ := C55_lp_partial hw hP hD hopt hpre hdive hheur hcspy hinit hc h
  obtain ⟨mid, rfl, _, h5, _, _, k, _, h7, h8⟩ := h3.routes i r hir
  refine ⟨mid, rfl, h5, ?_⟩
  intro k' hk'
  rw [h7] at hk'
  cases hk'
  rw [stops_customers (fun v hv => (h5 v hv).1)]
  exact h8

/-- **C27**, whole runs of problems with time windows, with cspy or LP pricing, with and without diving. -/
theorem C27_run_windows_partial {w : World} {a : SolveArgs} {fuel : Nat} {P0 : Vrp} {o o' : Obj}
    (hw : WorldOk w ∧ a.cspy = true ∨ LpSound w ∧ a.cspy = false ∧ TravelTakesTime P0)
    (hdive : a.dive = true → DiveOk w.toEnv) (hP : WindowedOrCollecting P0) (htw : P0.timeWindows = true)
    (hpre : a.preassignments = []) (hheur : a.heuristicOnly = false)
    (hinit : ∀ r ∈ a.initialRoutes, r.Nodup ∧ ∀ mid k, r = routeOf mid →
      WithinCapacity (userCapacities P0.loadCapacity) k (mid.map (userDemand P0.G)).sum → RouteLimits P0 k mid)
    (hc : Obj.create P0 = .ok o) (h : o.solve w a fuel = .ok (some o')) : LoadsFit P0 o' := by
  refine loads_fit hP.wf hP.customer hP.costs hP.demand hheur hc h ?_
  have key : ∀ i r, (i, r) ∈ o'.solution.routes → ∃ mid, r = routeOf mid ∧ mid.Nodup ∧
      (∀ v ∈ mid, (∃ n, v = .cust n) ∧ v ∈ P0.G.nodes) ∧ Along (UserArc P0.G) r ∧
      ∃ k, dget o'.solution.types i = some k ∧ ∃ mid, r = routeOf mid ∧ RouteLimits P0 k mid := by
    intro i r hir
    cases hdv : a.dive with
    | true =>
      obtain ⟨K, _, h3⟩ := dive_limits (hw.imp id (fun x => ⟨x.1, x.2.1, htw, x.2.2⟩)) (hdive hdv) hP hpre hdv hheur hinit hc h
      obtain ⟨mid, h4, h5, h6, h7, k, _, h8, h9⟩ := h3.routes i r hir
      exact ⟨mid, h4, h5, h6, h7, k, h8, h9⟩
    | false =>
      rcases hw with ⟨hw, hcspy⟩ | ⟨hw, hcspy, htime⟩
      · obtain ⟨K, N, _, _, h3, _⟩ := C60_time_windows_partial hw hP htw hpre hdv hheur hcspy hinit hc h
        obtain ⟨mid, h4, h5, h6, h7, k, _, h8, h9⟩ := h3.routes i r hir
        exact ⟨mid, h4, h5, h6, h7, k, h8, h9⟩
      · obtain ⟨K, N, _, _, h3, _⟩ := C60_lp_partial hw hP htw htime hpre hdv hheur hcspy hinit hc h
        obtain ⟨mid, h4, h5, h6, h7, k, _, h8, h9⟩ := h3.routes i r hir
        exact ⟨mid, h4, h5, h6, h7, k, h8, h9⟩
  intro i r hir
  obtain ⟨mid, rfl, _, h5, _, k, h7, mid', h8, h9⟩ := key i r hir
  refine ⟨mid, rfl, h5, ?_⟩
  intro k' hk'
  rw [h7] at hk'
  cases hk'
  simp only [routeOf, List.cons.injEq, true_and] at h8
  have hmid := List.append_cancel_right h8
  rw [stops_customers (fun v hv => (h5 v hv).1), hmid]
  exact h9.load

/-- Two customers, a small and a large vehicle. -/
def exLoads : Vrp where
  G := {
    nodes := [.source, .cust 1, .cust 2, .sink]
    nd := fun v => if v.isDepot then {} else { demand := some (if v = .cust 1 then 3 else 5) }
    succ := fun u => match u with
      | .source => [.cust 1, .cust 2]
      | .cust 1 => [.cust 2, .sink]
      | .cust 2 => [.sink]
      | _ => []
    ed := fun _ _ => { cost := some (.list [1, 2]) } }
  loadCapacity := .many [.int 4, .int 10]
  mixedFleet := true

theorem exLoads_capacitated : Capacitated exLoads where
  wf := by
    refine ⟨by decide, ?_, ?_⟩
    · intro u; simp only [exLoads]; split <;> decide
    · intro u v hv
      simp only [exLoads] at hv ⊢
      split at hv <;> simp at hv <;> (try rcases hv with rfl | rfl) <;> (try subst hv) <;> decide
  customer := ⟨1, by decide⟩
  costs := fun h => (by cases h)
  demand := by decide +kernel
  service := by decide +kernel
  timeWindows := rfl
  pickupDelivery := rfl
  distributionCollection := rfl
  periodic := rfl
  oneCapacity := by decide +kernel

/-- The loads and types reported. -/
noncomputable def loadsOf (w : World) (a : SolveArgs) (fuel : Nat) (P : Vrp) : Option (Dict Nat ℚ × Dict Nat Nat) :=
  match Obj.create P with
  | .error _ => none
  | .ok o => match o.solve w a fuel with
    | .ok (some o') => some (bestRoutesLoad (o'.P.H.getD o'.P.G.toNet) (capacities o'.P.loadCapacity.toList)
        o'.P.distributionCollection o'.P.pickupDelivery o'.solution, o'.solution.types)
    | _ => none

/-- All hypotheses of `C27_run_cspy_partial` hold, and a run reports one route for the small and one for the large vehicle. -/
example : let w := cspyWorld [picking [.num 1, .num 2]] (fun _ _ => 1)
    let a : SolveArgs := { initialRoutes := [routeOf [.cust 1], routeOf [.cust 2]], strategy := "Exact" }
    WorldOk w ∧ Capacitated exLoads ∧ SomeCustomerFree exLoads a.preassignments ∧
    (∀ r ∈ a.initialRoutes, r.Nodup ∧ WithinStops exLoads.numStops.stops (stops r).length) ∧
    loadsOf w a 5 exLoads = some ([(1, 3), (2, 5)], [(1, 0), (2, 1)]) :=
  ⟨(cspyWorld_ok _ _).1, exLoads_capacitated, ⟨1, by decide, by simp⟩, by
    intro r hr
    simp only [List.mem_cons, List.not_mem_nil, or_false] at hr
    rcases hr with rfl | rfl <;> exact ⟨by decide, fun n hn => (by cases hn)⟩, by decide +kernel⟩

end Vrpy
