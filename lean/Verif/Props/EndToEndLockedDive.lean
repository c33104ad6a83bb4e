import Verif.Props.EndToEndDiveLP
import Verif.Props.LockedLPCases

/-!
# C68 with diving
-/

namespace Vrpy

open Spec

/-- What is left of `PlanWithLocked` when diving: every customer that is not on a complete preassigned route is on a route found
by the solver or dropped, but may be on two; nothing is said about the fleet. -/
structure Spec.CoverWithLocked (P : Vrp) (Q : List (List Node)) (K : Nat) (F : Nat → List Node → Prop) (S : Solution)
    (free locked : List (Nat × List Node)) : Prop where
  all : S.routes = free ++ locked
  keys : (S.routes.map Prod.fst).Nodup
  verbatim : locked.map Prod.snd = Q.filter (fun r => r.head? = some .source ∧ r.getLast? = some .sink)
  simple : ∀ i r, (i, r) ∈ locked → ∃ mid, r = routeOf mid ∧ (∀ v ∈ mid, (∃ n, v = .cust n) ∧ v ∈ P.G.nodes) ∧
    Along (UserArc P.G) r
  vehicles : ∀ i r k, (i, r) ∈ locked → dget S.types i = some k →
    k < K ∧ WithinCapacity (userCapacities P.loadCapacity) k ((stops r).map (userDemand P.G)).sum
  cheapest : ∀ i r j, (i, r) ∈ locked → j < K →
    WithinCapacity (userCapacities P.loadCapacity) j ((stops r).map (userDemand P.G)).sum →
    legSum (userArcCost P j) r < 10000000000 →
    ∃ k, dget S.types i = some k ∧ legSum (userArcCost P k) r ≤ legSum (userArcCost P j) r
  routes : ∀ i r, (i, r) ∈ free → ∃ mid, r = routeOf mid ∧ mid.Nodup ∧
    (∀ v ∈ mid, (∃ n, v = .cust n) ∧ v ∈ P.G.nodes ∧ ∀ p ∈ Q, Complete p → v ∉ p) ∧ Along (UserArc P.G) r ∧
    ∃ k < K, dget S.types i = some k ∧ F k r
  covered : ∀ n, Node.cust n ∈ P.G.nodes → (∀ p ∈ Q, Complete p → .cust n ∉ p) → Node.cust n ∉ S.dropped →
    ∃ i r, (i, r) ∈ free ∧ Node.cust n ∈ r
  dropped : ∀ v ∈ S.dropped, (∃ n, v = .cust n) ∧ v ∈ P.G.nodes ∧ ∀ p ∈ Q, Complete p → v ∉ p
  penalty : P.dropPenalty = 0 → S.dropped = []

/-- Adding the complete preassigned routes to the routes that diving finds for the problem without their customers. -/
theorem locked_cover_merge {P0 P' : Vrp} {Q : List (List Node)} {K : Nat} {N : Net} {F F' : Nat → List Node → Prop}
    {path : Column → List Node} {graphs : List Column} {st : Dict Nat (List Node) × Dict Nat Nat × Nat} {S1 S' : Solution}
    (R : Reported P0 P' Q K N)
    (hF : ∀ k mid, (∀ v ∈ mid, (∃ n, v = .cust n) ∧ v ∈ P0.G.nodes ∧ v ∉ lockedNodes Q) → F k (routeOf mid) → F' k (routeOf mid))
    (hp : CoverFor (withoutNodes P0 (lockedNodes Q)) K F S1)
    (hr1 : S1.routes = numbered (graphs.map path)) (ht1 : S1.types = numbered (graphs.map Column.vehicleType))
    (hd : S'.dropped = S1.dropped) (hM : Merged N (userCapacities P0.loadCapacity) K path graphs Q st)
    (hr : S'.routes = st.1) (ht : S'.types = st.2.1) :
    (∃ locked, CoverWithLocked P0 Q K F' S' S1.routes locked) ∧ ValueWithLocked P0 Q K N S' := by
  obtain ⟨⟨locked, hL⟩, _, hV⟩ := locked_routes_merge R hF hp.routes hr1 ht1 hM hr ht
  refine ⟨⟨locked, hL.all, hL.keys, hL.verbatim, hL.simple, hL.vehicles, hL.cheapest, hL.routes, ?_, ?_, ?_⟩, hV⟩
  · intro n hn hno hnd
    exact hp.covered n (without_nodes.2 ⟨hn, not_locked hno⟩) (by rw [← hd]; exact hnd)
  · intro v hv
    rw [hd] at hv
    obtain ⟨d1, d2⟩ := hp.dropped v hv
    obtain ⟨d2, d3⟩ := without_nodes.1 d2
    exact ⟨d1, d2, not_on_locked d1 d3⟩
  · intro h0
    rw [hd]
    exact hp.penalty h0

/-- What diving with preassigned routes returns, from what diving without them returns for the problem without their customers. -/
theorem locked_cover {w : World} {a : SolveArgs} {fuel : Nat} {P0 P' : Vrp} {o o' : Obj} {Q : List (List Node)} {K : Nat} {N : Net}
    {F F' : Nat → List Node → Prop} (R : Reported P0 P' Q K N)
    (hfree : ∃ n, Node.cust n ∈ P0.G.nodes ∧ ∀ p ∈ Q, Complete p → Node.cust n ∉ p)
    (hF : ∀ k mid, (∀ v ∈ mid, (∃ n, v = .cust n) ∧ v ∈ P0.G.nodes ∧ v ∉ lockedNodes Q) → F k (routeOf mid) → F' k (routeOf mid))
    (hplan : ∀ o1, Obj.columnGeneration w a fuel
        { P' with
          H := some (N.removeNodes (lockedNodes Q))
          preassignments := []
          moreRoutes := true } o = .ok (some o1) → CoverFor (withoutNodes P0 (lockedNodes Q)) K F o1.solution)
    (h : Obj.columnGeneration w a fuel P' o = .ok (some o')) :
    o'.P.H = some N ∧ (∃ free locked, CoverWithLocked P0 Q K F' o'.solution free locked) ∧
      ValueWithLocked P0 Q K N o'.solution := by
  have hmore : P'.moreRoutes = true := by
    obtain ⟨n, h1, h2⟩ := hfree
    refine R.more ⟨n, h1, ?_⟩
    rw [mem_lockedNodes]
    rintro ⟨r, hr, hc, hn⟩
    exact h2 r hr hc hn
  obtain ⟨o1, graphs, st, hrun, hH, hd, hr1, ht1, hM, hr, ht, _⟩ :=
    columnGeneration_locked (N.removeNodes (lockedNodes Q)) hmore h
  have hp := hplan o1 hrun
  rw [R.reports, R.caps, R.types, R.preassigned] at hM
  simp only [Option.getD_some] at hM
  obtain ⟨⟨locked, m1⟩, m2⟩ := locked_cover_merge R hF hp hr1 ht1 hd hM hr ht
  exact ⟨by rw [hH, R.reports], ⟨_, locked, m1⟩, m2⟩

/-- The steps common to both ways of pricing, capacitated problems. -/
theorem capacitated_locked_dive {w : World} {a : SolveArgs} {fuel : Nat} {P0 P' : Vrp} {o o' : Obj} {K : Nat} {N N3 : Net}
    (hP : Capacitated P0) (hd : DiveOk w.toEnv) (hcw : ∀ x, (w.cw x).Valid) (hmaster : ∀ t, MasterSolverSound (w.master t))
    (hcs : a.cspy = true → ∀ t q, CspySound q (w.cspy t q))
    (hpath : ∀ (c : Column) (p : List Node), IsShortestPath c.edges p → IsShortestPath c.edges (w.path c))
    (hfree : SomeCustomerFree P0 a.preassignments) (hdive : a.dive = true)
    (hinit : ∀ r ∈ a.initialRoutes, r.Nodup ∧ WithinStops P0.numStops.stops (stops r).length) (hc : Obj.create P0 = .ok o)
    (hstart : o.P.startSolve w.dist a.strategy a.cspy a.initialRoutes a.preassignments = .ok P')
    (R : Reported P0 P' a.preassignments K N)
    (S : Searched (withoutNodes P0 (lockedNodes a.preassignments))
        { P' with
          H := some (N.removeNodes (lockedNodes a.preassignments))
          preassignments := []
          moreRoutes := true } K (N.removeNodes (lockedNodes a.preassignments)) N3)
    (hprice : ∀ rs dive stm d cost st1, (dive = true → Solve.Diving (({ P' with
          H := some (N.removeNodes (lockedNodes a.preassignments))
          preassignments := []
          moreRoutes := true
          initialRoutes := rs } : Vrp).solveCfg a w.falsy) stm) → Solve.solveMaster (({ P' with
          H := some (N.removeNodes (lockedNodes a.preassignments))
          preassignments := []
          moreRoutes := true
          initialRoutes := rs } : Vrp).solveCfg a w.falsy) w.toEnv dive stm = .ok (d, cost, st1) → Solve.PriceOk (({ P' with
          H := some (N.removeNodes (lockedNodes a.preassignments))
          preassignments := []
          moreRoutes := true
          initialRoutes := rs } : Vrp).solveCfg a w.falsy) w.toEnv d
      (ColumnFor N3 K (fun k r => WithinStops P0.numStops.stops (stops r).length ∧
        WithinCapacity (userCapacities P0.loadCapacity) k (load N3 r))))
    (h : Obj.columnGeneration w a fuel P' o = .ok (some o')) :
    o'.P.H = some N ∧ (∃ free locked, CoverWithLocked P0 a.preassignments K (CarriesWithinStops P0) o'.solution free locked) ∧
      ValueWithLocked P0 a.preassignments K N o'.solution := by
  have hP' := without_capacitated hP (free_nodes hfree)
  have hold : o.solution.dropped = [] := by
    obtain ⟨G, _, rfl⟩ := create_ok hc
    rfl
  refine locked_cover (F := CarriesWithinStops P0) R hfree (fun _ _ _ h => h) ?_ h
  intro o1 ho1
  obtain ⟨_, r2, _⟩ := cover_of_columns (F := fun k r => WithinStops P0.numStops.stops (stops r).length ∧
      WithinCapacity (userCapacities P0.loadCapacity) k (load N3 r)) hP'.periodic S hd hmaster hcs hpath
    (fun P'' cols h1 => by
      obtain ⟨b1, b2, b3⟩ := initial_good hP'.toCapacitatedData S hcw (by
        show ∀ r ∈ P'.initialRoutes, _
        rw [startSolve_initial hc hstart]
        exact hinit) h1
      exact ⟨b1, fun c hc => (b2 c hc).good, b3⟩) hdive (fun _ => hold) hprice ho1
  refine ⟨?_, r2.covered, r2.dropped, r2.penalty⟩
  intro i r hir
  obtain ⟨mid, rfl, h1, h2, h3, k, h4, h5, h6, h7⟩ := r2.routes i r hir
  obtain ⟨e1, e2⟩ := load_user S h2
  rw [e1] at h7
  refine ⟨mid, rfl, h1, h2, h3, k, h4, h5, h6, ?_⟩
  rw [stops_customers (fun v hv => (h2 v hv).1)]
  exact h7

/-- **C68 (partial), diving.** As `C68_plan_partial`, with `dive=True`: the report consists of the complete preassigned routes,
unchanged, and of routes within the limits of the user, on which every other customer is visited unless dropped;
`best_value` is as there.  What is missing: as there, and a customer may be on two routes (`C53_run_counterexample`). -/
theorem C68_dive_partial {w : World} {a : SolveArgs} {fuel : Nat} {P0 : Vrp} {o o' : Obj} (hw : WorldOk w) (hd : DiveOk w.toEnv)
    (hP : Capacitated P0) (hdive : a.dive = true) (hheur : a.heuristicOnly = false) (hcspy : a.cspy = true)
    (hfree : SomeCustomerFree P0 a.preassignments)
    (hinit : ∀ r ∈ a.initialRoutes, r.Nodup ∧ WithinStops P0.numStops.stops (stops r).length)
    (hc : Obj.create P0 = .ok o) (h : o.solve w a fuel = .ok (some o')) :
    ∃ K N free locked, (P0.mixedFleet = false → K = 1) ∧ o'.P.H = some N ∧
      CoverWithLocked P0 a.preassignments K (CarriesWithinStops P0) o'.solution free locked ∧
      ValueWithLocked P0 a.preassignments K N o'.solution := by
  unfold Obj.solve at h
  split at h
  · cases h
  rename_i P' hstart
  rw [hheur] at h
  simp only [Bool.false_eq_true, if_false] at h
  obtain ⟨K, N, N3, R, S⟩ := searched_locked (w := w) hP.wf hP.customer hP.costs (fun v hv _ => hP.demand v hv) hc hstart
  have hP' := without_capacitated hP (free_nodes hfree)
  obtain ⟨r1, ⟨free, locked, r2⟩, r3⟩ := capacitated_locked_dive hP hd hw.cw hw.master (fun _ => hw.cspy) hw.path hfree hdive hinit hc
    hstart R S (fun rs _ _ d _ _ _ _ => price_searched hw hP'.toCapacitatedData S hcspy rs d) h
  exact ⟨K, N, free, locked, S.typesOne, r1, r2, r3⟩

/-- **C68 (partial), diving, LP pricing.** As `C68_dive_partial`, for pricing by LP, under the conditions of `C53_dive_lp_partial`.
What is missing: as there. -/
theorem C68_dive_lp_partial {w : World} {a : SolveArgs} {fuel : Nat} {P0 : Vrp} {o o' : Obj} (hw : LpWorldOk PositiveCycles w)
    (hd : DiveOk w.toEnv) (hsig : DiveSigned w.toEnv) (hP : Capacitated P0) (hD : NonnegativeData P0)
    (hopt : OptionDuals w.toEnv P0)
    (hdive : a.dive = true) (hheur : a.heuristicOnly = false) (hcspy : a.cspy = false)
    (hfree : SomeCustomerFree P0 a.preassignments)
    (hinit : ∀ r ∈ a.initialRoutes, r.Nodup ∧ WithinStops P0.numStops.stops (stops r).length)
    (hc : Obj.create P0 = .ok o) (h : o.solve w a fuel = .ok (some o')) :
    ∃ K N free locked, (P0.mixedFleet = false → K = 1) ∧ o'.P.H = some N ∧
      CoverWithLocked P0 a.preassignments K (CarriesWithinStops P0) o'.solution free locked ∧
      ValueWithLocked P0 a.preassignments K N o'.solution := by
  unfold Obj.solve at h
  split at h
  · cases h
  rename_i P' hstart
  rw [hheur] at h
  simp only [Bool.false_eq_true, if_false] at h
  obtain ⟨K, N, N3, R, S⟩ := searched_locked (w := w) hP.wf hP.customer hP.costs (fun v hv _ => hP.demand v hv) hc hstart
  have hP' := without_capacitated hP (free_nodes hfree)
  have hD' := without_nonnegative hP.wf R.depots.1 R.depots.2 hD
  obtain ⟨r1, ⟨free, locked, r2⟩, r3⟩ := capacitated_locked_dive hP hd hw.cw hw.master (fun hf => by rw [hcspy] at hf; cases hf)
    hw.path hfree hdive hinit hc hstart R S (fun rs dive stm d cost st1 hdv hs =>
      (lp_priced hw hP'.toCapacitatedData hD' hcspy S rs (dive_free hw hd hsig S hD' (hopt.without _) hdv hs)).mono (fun c hc => hc.good)) h
  exact ⟨K, N, free, locked, S.typesOne, r1, r2, r3⟩

/-- The steps common to both ways of pricing. -/
theorem variant_locked_dive {w : World} {a : SolveArgs} {fuel : Nat} {P0 P' : Vrp} {o o' : Obj} {K : Nat} {N N3 : Net}
    (hP : WindowedOrCollecting P0) (hd : DiveOk w.toEnv) (hmaster : ∀ t, MasterSolverSound (w.master t))
    (hcs : a.cspy = true → ∀ t q, CspySound q (w.cspy t q))
    (hpath : ∀ (c : Column) (p : List Node), IsShortestPath c.edges p → IsShortestPath c.edges (w.path c))
    (hfree : SomeCustomerFree P0 a.preassignments) (hdive : a.dive = true)
    (hinit : InitialBesideLocked P0 a.preassignments a.initialRoutes) (hc : Obj.create P0 = .ok o)
    (hstart : o.P.startSolve w.dist a.strategy a.cspy a.initialRoutes a.preassignments = .ok P')
    (R : Reported P0 P' a.preassignments K N)
    (S : Searched (withoutNodes P0 (lockedNodes a.preassignments))
        { P' with
          H := some (N.removeNodes (lockedNodes a.preassignments))
          preassignments := []
          moreRoutes := true } K (N.removeNodes (lockedNodes a.preassignments)) N3)
    (hprice : ∀ rs dive stm d cost st1, (dive = true → Solve.Diving (({ P' with
          H := some (N.removeNodes (lockedNodes a.preassignments))
          preassignments := []
          moreRoutes := true
          initialRoutes := rs } : Vrp).solveCfg a w.falsy) stm) → Solve.solveMaster (({ P' with
          H := some (N.removeNodes (lockedNodes a.preassignments))
          preassignments := []
          moreRoutes := true
          initialRoutes := rs } : Vrp).solveCfg a w.falsy) w.toEnv dive stm = .ok (d, cost, st1) → Solve.PriceOk (({ P' with
          H := some (N.removeNodes (lockedNodes a.preassignments))
          preassignments := []
          moreRoutes := true
          initialRoutes := rs } : Vrp).solveCfg a w.falsy) w.toEnv d
      (ColumnFor N3 K (fun k r => ∃ mid, r = routeOf mid ∧ RouteLimits (withoutNodes P0 (lockedNodes a.preassignments)) k mid)))
    (h : Obj.columnGeneration w a fuel P' o = .ok (some o')) :
    o'.P.H = some N ∧ (∃ free locked, CoverWithLocked P0 a.preassignments K
        (fun k r => ∃ mid, r = routeOf mid ∧ RouteLimits P0 k mid) o'.solution free locked) ∧
      ValueWithLocked P0 a.preassignments K N o'.solution := by
  have hP' := without_variant hP (free_nodes hfree) R.depots.1
  have U := userData_locked (w := w) hP.wf (fun _ => hP.demand) hc hstart R.reports
  have hold : o.solution.dropped = [] := by
    obtain ⟨G, _, rfl⟩ := create_ok hc
    rfl
  refine locked_cover (F := fun k r => ∃ mid, r = routeOf mid ∧ RouteLimits (withoutNodes P0 (lockedNodes a.preassignments)) k mid)
    R hfree ?_ ?_ h
  · rintro k mid hm ⟨mid', he, hl⟩
    have : mid = mid' := by
      simp only [routeOf, List.cons.injEq, true_and] at he
      exact List.append_cancel_right he
    subst this
    exact ⟨mid, rfl, limits_without R.depots.1 R.depots.2 (fun v hv => (hm v hv).2.2) hl⟩
  · intro o1 ho1
    refine (cover_of_columns hP'.periodic S hd hmaster hcs hpath ?_ hdive (fun _ => hold) hprice ho1).2.1
    intro P'' cols h1
    refine initial_limits hP'.toVariantData S U ?_ h1
    show ∀ r ∈ P'.initialRoutes, _
    rw [startSolve_initial hc hstart]
    exact initial_without R.depots hinit

/-- **C68 (partial), diving, time windows or collection.** As `C68_dive_partial`, for problems with time windows or with
distribution and collection: the routes found are within the limits of the user; nothing is said about the limits of the
preassigned routes, for which only the load is checked.  What is missing: as there. -/
theorem C68_dive_variants_partial {w : World} {a : SolveArgs} {fuel : Nat} {P0 : Vrp} {o o' : Obj} (hw : WorldOk w)
    (hd : DiveOk w.toEnv) (hP : WindowedOrCollecting P0) (hdive : a.dive = true) (hheur : a.heuristicOnly = false)
    (hcspy : a.cspy = true)
    (hfree : SomeCustomerFree P0 a.preassignments) (hinit : InitialBesideLocked P0 a.preassignments a.initialRoutes)
    (hc : Obj.create P0 = .ok o) (h : o.solve w a fuel = .ok (some o')) :
    ∃ K N free locked, (P0.mixedFleet = false → K = 1) ∧ o'.P.H = some N ∧
      CoverWithLocked P0 a.preassignments K (fun k r => ∃ mid, r = routeOf mid ∧ RouteLimits P0 k mid) o'.solution free locked ∧
      ValueWithLocked P0 a.preassignments K N o'.solution := by
  unfold Obj.solve at h
  split at h
  · cases h
  rename_i P' hstart
  rw [hheur] at h
  simp only [Bool.false_eq_true, if_false] at h
  obtain ⟨K, N, N3, R, S⟩ := searched_locked (w := w) hP.wf hP.customer hP.costs (fun v hv _ => hP.demand v hv) hc hstart
  have U := userData_locked (w := w) hP.wf (fun _ => hP.demand) hc hstart R.reports
  have hP' := without_variant hP (free_nodes hfree) R.depots.1
  obtain ⟨r1, ⟨free, locked, r2⟩, r3⟩ := variant_locked_dive hP hd hw.master (fun _ => hw.cspy) hw.path hfree hdive hinit hc hstart R S
    (fun rs _ _ d _ _ _ _ => price_variant hw hP'.toVariantData S U hcspy rs d) h
  exact ⟨K, N, free, locked, S.typesOne, r1, r2, r3⟩

/-- **C68 (partial), diving, time windows with LP pricing.** As `C68_dive_variants_partial`, for problems with time windows and
pricing by LP.  What is missing: as there. -/
theorem C68_dive_windows_lp_partial {w : World} {a : SolveArgs} {fuel : Nat} {P0 : Vrp} {o o' : Obj} (hw : LpSound w)
    (hd : DiveOk w.toEnv) (hP : WindowedOrCollecting P0) (htw : P0.timeWindows = true) (htime : TravelTakesTime P0)
    (hdive : a.dive = true) (hheur : a.heuristicOnly = false) (hcspy : a.cspy = false)
    (hfree : SomeCustomerFree P0 a.preassignments) (hinit : InitialBesideLocked P0 a.preassignments a.initialRoutes)
    (hc : Obj.create P0 = .ok o) (h : o.solve w a fuel = .ok (some o')) :
    ∃ K N free locked, (P0.mixedFleet = false → K = 1) ∧ o'.P.H = some N ∧
      CoverWithLocked P0 a.preassignments K (fun k r => ∃ mid, r = routeOf mid ∧ RouteLimits P0 k mid) o'.solution free locked ∧
      ValueWithLocked P0 a.preassignments K N o'.solution := by
  unfold Obj.solve at h
  split at h
  · cases h
  rename_i P' hstart
  rw [hheur] at h
  simp only [Bool.false_eq_true, if_false] at h
  obtain ⟨K, N, N3, R, S⟩ := searched_locked (w := w) hP.wf hP.customer hP.costs (fun v hv _ => hP.demand v hv) hc hstart
  have U := userData_locked (w := w) hP.wf (fun _ => hP.demand) hc hstart R.reports
  have hP' := without_variant hP (free_nodes hfree) R.depots.1
  obtain ⟨r1, ⟨free, locked, r2⟩, r3⟩ := variant_locked_dive hP hd hw.master (fun hf => by rw [hcspy] at hf; cases hf) hw.path hfree
    hdive hinit hc hstart R S (fun rs _ _ d _ _ _ _ => price_windows_lp hw hP'.toVariantData htw (without_travel htime) S U hcspy rs d) h
  exact ⟨K, N, free, locked, S.typesOne, r1, r2, r3⟩

/-- **C68 (partial), diving, collection with LP pricing.** As `C68_dive_variants_partial`, for distribution and collection without
time windows and pricing by LP.  What is missing: as there. -/
theorem C68_dive_collect_lp_partial {w : World} {a : SolveArgs} {fuel : Nat} {P0 : Vrp} {o o' : Obj}
    (hw : LpWorldOk PositiveCycles w) (hd : DiveOk w.toEnv) (hsig : DiveSigned w.toEnv)
    (hP : WindowedOrCollecting P0) (htw : P0.timeWindows = false) (hD : NonnegativeData P0)
    (hopt : OptionDuals w.toEnv P0) (hdive : a.dive = true)
    (hheur : a.heuristicOnly = false) (hcspy : a.cspy = false)
    (hfree : SomeCustomerFree P0 a.preassignments) (hinit : InitialBesideLocked P0 a.preassignments a.initialRoutes)
    (hc : Obj.create P0 = .ok o) (h : o.solve w a fuel = .ok (some o')) :
    ∃ K N free locked, (P0.mixedFleet = false → K = 1) ∧ o'.P.H = some N ∧
      CoverWithLocked P0 a.preassignments K (fun k r => ∃ mid, r = routeOf mid ∧ RouteLimits P0 k mid) o'.solution free locked ∧
      ValueWithLocked P0 a.preassignments K N o'.solution := by
  unfold Obj.solve at h
  split at h
  · cases h
  rename_i P' hstart
  rw [hheur] at h
  simp only [Bool.false_eq_true, if_false] at h
  obtain ⟨K, N, N3, R, S⟩ := searched_locked (w := w) hP.wf hP.customer hP.costs (fun v hv _ => hP.demand v hv) hc hstart
  have U := userData_locked (w := w) hP.wf (fun _ => hP.demand) hc hstart R.reports
  have hP' := without_variant hP (free_nodes hfree) R.depots.1
  have hD' := without_nonnegative hP.wf R.depots.1 R.depots.2 hD
  obtain ⟨r1, ⟨free, locked, r2⟩, r3⟩ := variant_locked_dive hP hd hw.master (fun hf => by rw [hcspy] at hf; cases hf) hw.path hfree
    hdive hinit hc hstart R S (fun rs dive stm d cost st1 hdv hs =>
      price_collect_lp hw hP'.toVariantData htw hD' hcspy S U rs (dive_free hw hd hsig S hD' (hopt.without _) hdv hs)) h
  exact ⟨K, N, free, locked, S.typesOne, r1, r2, r3⟩

/-! ## Examples -/

/-- The arguments of the examples. -/
def lockedDivingArgs : SolveArgs := { lockedArgs with dive := true }

/-- All hypotheses of `C68_dive_lp_partial` hold for the example. -/
example : LpWorldOk PositiveCycles (divingWorld exLpWorld) ∧ DiveOk (divingWorld exLpWorld).toEnv ∧
    DiveSigned (divingWorld exLpWorld).toEnv ∧ Capacitated (lockedPlan false) ∧ NonnegativeData (lockedPlan false) ∧
    SomeCustomerFree (lockedPlan false) lockedDivingArgs.preassignments ∧
    (∀ r ∈ lockedDivingArgs.initialRoutes, r.Nodup ∧ WithinStops (lockedPlan false).numStops.stops (stops r).length) ∧
    planOf (divingWorld exLpWorld) lockedDivingArgs 5 (lockedPlan false) =
      .ok (some ⟨[(1, routeOf [.cust 1, .cust 2]), (2, routeOf [.cust 3])], [(1, 0), (2, 0)], []⟩) :=
  ⟨(divingWorld_ok exLpWorld_ok).1, (divingWorld_ok exLpWorld_ok).2.1, (divingWorld_ok exLpWorld_ok).2.2, lockedPlan_capacitated,
    lockedPlan_nonnegative _, lockedPlan_free _, exLpArgs_initial, Solve.eq_ok_of_toOption (by decide +kernel)⟩

/-- All hypotheses of `C68_dive_collect_lp_partial` hold for the example. -/
example : LpWorldOk PositiveCycles (divingWorld collectWorld) ∧ DiveOk (divingWorld collectWorld).toEnv ∧
    DiveSigned (divingWorld collectWorld).toEnv ∧ WindowedOrCollecting (lockedPlan true) ∧ NonnegativeData (lockedPlan true) ∧
    SomeCustomerFree (lockedPlan true) lockedDivingArgs.preassignments ∧
    InitialBesideLocked (lockedPlan true) lockedDivingArgs.preassignments lockedDivingArgs.initialRoutes ∧
    planOf (divingWorld collectWorld) lockedDivingArgs 5 (lockedPlan true) =
      .ok (some ⟨[(1, routeOf [.cust 1, .cust 2]), (2, routeOf [.cust 3])], [(1, 0), (2, 0)], []⟩) :=
  ⟨(divingWorld_ok collectWorld_ok).1, (divingWorld_ok collectWorld_ok).2.1, (divingWorld_ok collectWorld_ok).2.2,
    lockedPlan_collecting, lockedPlan_nonnegative _, lockedPlan_free _, lockedPlan_initial,
    Solve.eq_ok_of_toOption (by decide +kernel)⟩

end Vrpy
