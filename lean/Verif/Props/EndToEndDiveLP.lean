import Verif.Props.EndToEndCollectLP
import Verif.Props.EndToEndDurationCases
import Verif.Props.RunLoads

/-!
# Diving with pricing by linear programming, without time windows
-/

namespace Vrpy

open Spec

/-- The constraints "at most that many vehicles" have no positive dual values in the diving problems either. -/
def Spec.DiveSigned (env : Env) : Prop :=
  ∀ t (M : Master) cols fixed, M.useAllVehicles = false → (env.master t (M.diveLP cols fixed)).optimal = true →
    ∀ k < M.numVehicles.length, (env.master t (M.diveLP cols fixed)).fleetDual k ≤ 0

theorem dive_free {w : World} (hw : LpWorldOk PositiveCycles w) (hd : DiveOk w.toEnv) (hsig : DiveSigned w.toEnv) {a : SolveArgs}
    {P0 P' : Vrp} {K : Nat} {N N3 : Net} (S : Searched P0 P' K N N3) (hD : NonnegativeData P0) (hopt : OptionDuals w.toEnv P0)
    {rs : List (List Node)} {dive : Bool} {stm st1 : SolveState} {d : Duals} {cost : ℚ}
    (hst : dive = true → Solve.Diving (({ P' with initialRoutes := rs } : Vrp).solveCfg a w.falsy) stm)
    (hs : Solve.solveMaster (({ P' with initialRoutes := rs } : Vrp).solveCfg a w.falsy) w.toEnv dive stm = .ok (d, cost, st1)) :
    EmptyTripFree (({ P' with initialRoutes := rs } : Vrp).solveCfg a w.falsy) d := by
  cases dive with
  | false => exact hw.free S hD hopt hs
  | true =>
    obtain ⟨f1, f2, f3, f4, f5, f6, f7, f8, f9, f10, f11⟩ := S.fields
    obtain ⟨ho, rfl⟩ := Solve.dive_duals hd (hst rfl) hs
    refine S.free hD.cost hopt ?_ f8 f9 ho (fun hus => hsig _ _ _ _ hus ho)
    show P'.G.toNet = N3
    rw [S.graph]
    rfl

/-- **C53 (partial), LP pricing, capacitated problems.** As `C53_dive_partial`, for pricing by LP, under the conditions of
`C55_lp_partial`.  What is missing: a customer may be on two routes (`C53_run_counterexample`), and what is missing there. -/
theorem C53_dive_lp_partial {w : World} {a : SolveArgs} {fuel : Nat} {P0 : Vrp} {o o' : Obj} (hw : LpWorldOk PositiveCycles w)
    (hd : DiveOk w.toEnv) (hsig : DiveSigned w.toEnv) (hP : Capacitated P0) (hD : NonnegativeData P0)
    (hopt : OptionDuals w.toEnv P0)
    (hpre : a.preassignments = []) (hdive : a.dive = true) (hheur : a.heuristicOnly = false) (hcspy : a.cspy = false)
    (hinit : ∀ r ∈ a.initialRoutes, r.Nodup ∧ WithinStops P0.numStops.stops (stops r).length)
    (hc : Obj.create P0 = .ok o) (h : o.solve w a fuel = .ok (some o')) :
    ∃ K N, (P0.mixedFleet = false → K = 1) ∧ o'.P.H = some N ∧
      CoverFor P0 K (fun k r => ∃ mid, r = routeOf mid ∧ WithinStops P0.numStops.stops mid.length ∧
        WithinCapacity (userCapacities P0.loadCapacity) k (mid.map (userDemand P0.G)).sum) o'.solution ∧
      (P0.minimizeGlobalSpan = false → bestValue N false P0.dropPenalty o'.solution =
        .ok ((userCosts P0 o'.solution).sum + P0.dropPenalty * o'.solution.dropped.length)) ∧
      (P0.minimizeGlobalSpan = true → o'.solution.routes ≠ [] → ∃ m, IsLargest m (userCosts P0 o'.solution) ∧
        bestValue N true P0.dropPenalty o'.solution = .ok (m + P0.dropPenalty * o'.solution.dropped.length)) := by
  unfold Obj.solve at h
  split at h
  · cases h
  rename_i P' hstart
  rw [hheur] at h
  simp only [Bool.false_eq_true, if_false] at h
  obtain ⟨K, N, N3, S⟩ := searched (w := w) hP.wf hP.customer hP.costs hP.demand hpre hc hstart
  have hold : o.solution.dropped = [] := by
    obtain ⟨G, _, rfl⟩ := create_ok hc
    rfl
  have hi := startSolve_initial hc hstart
  obtain ⟨r1, r2, r3, r4⟩ := cover_of_columns (F := fun k r => WithinStops P0.numStops.stops (stops r).length ∧
      WithinCapacity (userCapacities P0.loadCapacity) k (load N3 r)) hP.periodic S hd hw.master
    (fun hf => by rw [hcspy] at hf; cases hf) hw.path
    (fun P'' cols h1 => by
      obtain ⟨b1, b2, b3⟩ := initial_good hP.toCapacitatedData S hw.cw (by rw [hi]; exact hinit) h1
      exact ⟨b1, fun c hc => (b2 c hc).good, b3⟩) hdive (fun _ => hold)
    (fun rs dive stm d cost st1 hdv hs =>
      (lp_priced hw hP.toCapacitatedData hD hcspy S rs (dive_free hw hd hsig S hD hopt hdv hs)).mono (fun c hc => hc.good)) h
  refine ⟨K, N, S.typesOne, r1, ⟨?_, r2.covered, r2.dropped, r2.penalty⟩, r3, r4⟩
  intro i r hir
  obtain ⟨mid, rfl, h1, h2, h3, k, h4, h5, h6, h7⟩ := r2.routes i r hir
  obtain ⟨e1, e2⟩ := load_user S h2
  rw [e1] at h7
  rw [e2] at h6
  exact ⟨mid, rfl, h1, h2, h3, k, h4, h5, mid, rfl, h6, h7⟩

/-- **C53 (partial), LP pricing, distribution and collection without time windows.** As `C53_dive_variants_partial`, for
pricing by LP, under the conditions of `C55_lp_partial`. -/
theorem C53_dive_collect_lp_partial {w : World} {a : SolveArgs} {fuel : Nat} {P0 : Vrp} {o o' : Obj}
    (hw : LpWorldOk PositiveCycles w) (hd : DiveOk w.toEnv) (hsig : DiveSigned w.toEnv) (hP : WindowedOrCollecting P0)
    (htw : P0.timeWindows = false) (hD : NonnegativeData P0)
    (hopt : OptionDuals w.toEnv P0)
    (hpre : a.preassignments = []) (hdive : a.dive = true) (hheur : a.heuristicOnly = false) (hcspy : a.cspy = false)
    (hinit : ∀ r ∈ a.initialRoutes, r.Nodup ∧ ∀ mid k, r = routeOf mid →
      WithinCapacity (userCapacities P0.loadCapacity) k (mid.map (userDemand P0.G)).sum → RouteLimits P0 k mid)
    (hc : Obj.create P0 = .ok o) (h : o.solve w a fuel = .ok (some o')) :
    ∃ K N, (P0.mixedFleet = false → K = 1) ∧ o'.P.H = some N ∧
      CoverFor P0 K (fun k r => ∃ mid, r = routeOf mid ∧ RouteLimits P0 k mid) o'.solution ∧
      (P0.minimizeGlobalSpan = false → bestValue N false P0.dropPenalty o'.solution =
        .ok ((userCosts P0 o'.solution).sum + P0.dropPenalty * o'.solution.dropped.length)) ∧
      (P0.minimizeGlobalSpan = true → o'.solution.routes ≠ [] → ∃ m, IsLargest m (userCosts P0 o'.solution) ∧
        bestValue N true P0.dropPenalty o'.solution = .ok (m + P0.dropPenalty * o'.solution.dropped.length)) := by
  unfold Obj.solve at h
  split at h
  · cases h
  rename_i P' hstart
  rw [hheur] at h
  simp only [Bool.false_eq_true, if_false] at h
  obtain ⟨K, N, N3, S⟩ := searched (w := w) hP.wf hP.customer hP.costs hP.demand hpre hc hstart
  have U := userData (w := w) hP.wf hP.demand hpre hc hstart S.reports
  have hold : o.solution.dropped = [] := by
    obtain ⟨G, _, rfl⟩ := create_ok hc
    rfl
  have hi := startSolve_initial hc hstart
  obtain ⟨r1, r2, r3, r4⟩ := cover_of_columns hP.periodic S hd hw.master (fun hf => by rw [hcspy] at hf; cases hf) hw.path
    (fun P'' cols h1 => initial_limits hP.toVariantData S U (by rw [hi]; exact hinit) h1) hdive (fun _ => hold)
    (fun rs dive stm d cost st1 hdv hs =>
      price_collect_lp hw hP.toVariantData htw hD hcspy S U rs (dive_free hw hd hsig S hD hopt hdv hs)) h
  exact ⟨K, N, S.typesOne, r1, r2, r3, r4⟩

/-- **C61 (partial), diving, LP pricing** without time windows: on no leg of a reported route does the vehicle carry more than
its capacity, and every customer is on some route or dropped.  What is missing: see `C53_dive_lp_partial`. -/
theorem C61_dive_lp_partial {w : World} {a : SolveArgs} {fuel : Nat} {P0 : Vrp} {o o' : Obj}
    (hw : LpWorldOk PositiveCycles w) (hd : DiveOk w.toEnv) (hsig : DiveSigned w.toEnv) (hP : WindowedOrCollecting P0)
    (hdc : P0.distributionCollection = true) (htw : P0.timeWindows = false) (hD : NonnegativeData P0)
    (hopt : OptionDuals w.toEnv P0)
    (hpre : a.preassignments = []) (hdive : a.dive = true) (hheur : a.heuristicOnly = false) (hcspy : a.cspy = false)
    (hinit : ∀ r ∈ a.initialRoutes, r.Nodup ∧ ∀ mid k, r = routeOf mid →
      WithinCapacity (userCapacities P0.loadCapacity) k (mid.map (userDemand P0.G)).sum → RouteLimits P0 k mid)
    (hc : Obj.create P0 = .ok o) (h : o.solve w a fuel = .ok (some o')) :
    (∀ i r pre post, (i, r) ∈ o'.solution.routes → r = routeOf (pre ++ post) →
        ∃ k, dget o'.solution.types i = some k ∧ WithinCapacity (userCapacities P0.loadCapacity) k
          ((pre.map (userCollect P0.G)).sum + (post.map (userDemand P0.G)).sum)) ∧
      ∀ n, Node.cust n ∈ P0.G.nodes → Node.cust n ∉ o'.solution.dropped → ∃ i r, (i, r) ∈ o'.solution.routes ∧ Node.cust n ∈ r := by
  obtain ⟨K, N, _, _, h3, _⟩ :=
    C53_dive_collect_lp_partial hw hd hsig hP htw hD hopt hpre hdive hheur hcspy hinit hc h
  refine ⟨?_, h3.covered⟩
  intro i r pre post hir hr
  obtain ⟨_, _, _, _, _, k, _, hk, mid, rfl, hl⟩ := h3.routes i r hir
  refine ⟨k, hk, hl.goods hdc pre post ?_⟩
  simp only [routeOf, List.cons.injEq, true_and] at hr
  exact List.append_cancel_right hr

/-- **C62 (partial), diving, LP pricing** with collection and without time windows. -/
theorem C62_dive_collect_lp_partial {w : World} {a : SolveArgs} {fuel : Nat} {P0 : Vrp} {o o' : Obj}
    (hw : LpWorldOk PositiveCycles w) (hd : DiveOk w.toEnv) (hsig : DiveSigned w.toEnv) (hP : WindowedOrCollecting P0)
    (htw : P0.timeWindows = false) (hD : NonnegativeData P0) (hfit : RoundTripsFit P0)
    (hopt : OptionDuals w.toEnv P0)
    (hpre : a.preassignments = []) (hdive : a.dive = true) (hheur : a.heuristicOnly = false) (hcspy : a.cspy = false)
    (hinit : ∀ r ∈ a.initialRoutes, r.Nodup ∧ ∀ mid k, r = routeOf mid →
      WithinCapacity (userCapacities P0.loadCapacity) k (mid.map (userDemand P0.G)).sum → RouteLimits P0 k mid)
    (hc : Obj.create P0 = .ok o) (h : o.solve w a fuel = .ok (some o')) :
    ∀ i r, (i, r) ∈ o'.solution.routes → Within P0.duration.limit (userDuration P0.G r) := by
  obtain ⟨K, N, _, _, h3, _⟩ :=
    C53_dive_collect_lp_partial hw hd hsig hP htw hD hopt hpre hdive hheur hcspy hinit hc h
  intro i r hir
  obtain ⟨_, _, _, _, _, k, _, _, mid, rfl, hl⟩ := h3.routes i r hir
  exact hl.duration hfit

/-- **C62 (partial), capacitated problems, diving, LP pricing.** As `C62_capacitated_dive_partial`, for pricing by LP, also with
service times. -/
theorem C62_capacitated_dive_lp_partial {w : World} {a : SolveArgs} {fuel : Nat} {P0 : Vrp} {o o' : Obj}
    (hw : LpWorldOk PositiveCycles w) (hd : DiveOk w.toEnv) (hsig : DiveSigned w.toEnv) (hP : Capacitated P0)
    (hD : NonnegativeData P0) (hopt : OptionDuals w.toEnv P0)
    (hsym : SymmetricUserTimes P0.G) (hfit : RoundTripsFit P0) (hpre : a.preassignments = [])
    (hdive : a.dive = true) (hheur : a.heuristicOnly = false) (hcspy : a.cspy = false) (hgreedy : a.greedy = false)
    (hinit : ∀ r ∈ a.initialRoutes, r.Nodup ∧ InTime P0 r)
    (hc : Obj.create P0 = .ok o) (h : o.solve w a fuel = .ok (some o')) :
    ∀ i r, (i, r) ∈ o'.solution.routes → stops r ≠ [] → Within P0.duration.limit (userDuration P0.G r) := by
  unfold Obj.solve at h
  split at h
  · cases h
  rename_i P' hstart
  rw [hheur] at h
  simp only [Bool.false_eq_true, if_false] at h
  obtain ⟨K, N, N3, S⟩ := searched (w := w) hP.wf hP.customer hP.costs hP.demand hpre hc hstart
  have hold : o.solution.dropped = [] := by
    obtain ⟨G, _, rfl⟩ := create_ok hc
    rfl
  have hi := startSolve_initial hc hstart
  obtain ⟨_, r2, _⟩ := cover_of_columns (F := fun _ => InTime P0) hP.periodic S hd hw.master
    (fun hf => by rw [hcspy] at hf; cases hf) hw.path
    (fun P'' cols h1 => initial_inTime hP.toCapacitatedData S hw.cw hsym hfit
      (by rw [hi]; exact fun r hr => ⟨(hinit r hr).1, fun _ => (hinit r hr).2⟩) h1) hdive (fun _ => hold)
    (fun rs dive stm d cost st1 hdv hs =>
      lp_inTime hw hP.toCapacitatedData hD hcspy hgreedy S rs (dive_free hw hd hsig S hD hopt hdv hs)) h
  intro i r hir
  obtain ⟨_, _, _, _, _, _, _, _, hF⟩ := r2.routes i r hir
  exact hF

/-- **C27**, whole runs of capacitated problems with LP pricing and diving. -/
theorem C27_run_dive_lp_partial {w : World} {a : SolveArgs} {fuel : Nat} {P0 : Vrp} {o o' : Obj}
    (hw : LpWorldOk PositiveCycles w) (hd : DiveOk w.toEnv) (hsig : DiveSigned w.toEnv) (hP : Capacitated P0)
    (hD : NonnegativeData P0) (hopt : OptionDuals w.toEnv P0)
    (hpre : a.preassignments = []) (hdive : a.dive = true) (hheur : a.heuristicOnly = false) (hcspy : a.cspy = false)
    (hinit : ∀ r ∈ a.initialRoutes, r.Nodup ∧ WithinStops P0.numStops.stops (stops r).length)
    (hc : Obj.create P0 = .ok o) (h : o.solve w a fuel = .ok (some o')) : LoadsFit P0 o' := by
  refine loads_fit hP.wf hP.customer hP.costs hP.demand hheur hc h ?_
  intro i r hir
  obtain ⟨K, N, _, _, h3, _⟩ := C53_dive_lp_partial hw hd hsig hP hD hopt hpre hdive hheur hcspy hinit hc h
  obtain ⟨mid, rfl, _, h5, _, k, _, h7, mid', h8, _, h9⟩ := h3.routes i r hir
  refine ⟨mid, rfl, h5, ?_⟩
  intro k' hk'
  rw [h7] at hk'
  cases hk'
  simp only [routeOf, List.cons.injEq, true_and] at h8
  rw [stops_customers (fun v hv => (h5 v hv).1), List.append_cancel_right h8]
  exact h9

/-! ## Examples -/

theorem diveMaster_fleet (pts : List (MVar → ℚ)) (dual : LP MVar → Node → ℚ) (prob : LP MVar) (k : Nat) :
    (diveMaster pts dual prob).fleetDual k = 0 := by
  unfold diveMaster
  split
  · rfl
  · split <;> rfl

/-- Dual values that make pricing find a column once. -/
def diveLpDual (prob : LP MVar) (v : Node) : ℚ := lpDual (prob.vars.any (fun d => d.var = .y (.num 3))) v

/-- An LP world with a solver for diving. -/
noncomputable def divingWorld (w : World) : World :=
  { w with
    master := fun _ => diveMaster [choosing [3], choosing [1, 2]] diveLpDual
    solvable := fun _ P => [choosing [3], choosing [1, 2]].any (feasiblePoint P)
    path := routePath }

theorem divingWorld_ok {w : World} (hw : LpWorldOk PositiveCycles w) :
    LpWorldOk PositiveCycles (divingWorld w) ∧ DiveOk (divingWorld w).toEnv ∧ DiveSigned (divingWorld w).toEnv :=
  ⟨{ hw with
      master := fun _ => diveMaster_sound _ _
      fleet := fun _ _ _ _ _ _ _ => le_of_eq (diveMaster_fleet _ _ _ _)
      path := routePath_ok },
    ⟨(diveWorld_dive [choosing [3], choosing [1, 2]] diveLpDual []).solvable,
      (diveWorld_dive [choosing [3], choosing [1, 2]] diveLpDual []).solved⟩,
    fun _ _ _ _ _ _ _ _ => le_of_eq (diveMaster_fleet _ _ _ _)⟩

/-- The arguments of the examples. -/
def diveLpArgs : SolveArgs := { exLpArgs with dive := true }

/-- All hypotheses of `C53_dive_lp_partial` and `C27_run_dive_lp_partial` hold for the example, and the route found by pricing
is reported. -/
example : LpWorldOk PositiveCycles (divingWorld exLpWorld) ∧ DiveOk (divingWorld exLpWorld).toEnv ∧
    DiveSigned (divingWorld exLpWorld).toEnv ∧ Capacitated exPlan ∧ NonnegativeData exPlan ∧
    (∀ r ∈ diveLpArgs.initialRoutes, r.Nodup ∧ WithinStops exPlan.numStops.stops (stops r).length) ∧
    planOf (divingWorld exLpWorld) diveLpArgs 5 exPlan = .ok (some ⟨[(1, routeOf [.cust 1, .cust 2])], [(1, 0)], []⟩) :=
  ⟨(divingWorld_ok exLpWorld_ok).1, (divingWorld_ok exLpWorld_ok).2.1, (divingWorld_ok exLpWorld_ok).2.2, exPlan_capacitated,
    exPlan_nonnegative, exLpArgs_initial, Solve.eq_ok_of_toOption (by decide +kernel)⟩

/-- All hypotheses of `C61_dive_lp_partial` and `C62_dive_collect_lp_partial` hold for the example with collection, and the route
found by pricing is reported. -/
example : LpWorldOk PositiveCycles (divingWorld collectWorld) ∧ DiveOk (divingWorld collectWorld).toEnv ∧
    DiveSigned (divingWorld collectWorld).toEnv ∧ WindowedOrCollecting collectPlan ∧ NonnegativeData collectPlan ∧
    RoundTripsFit collectPlan ∧
    (∀ r ∈ diveLpArgs.initialRoutes, r.Nodup ∧ ∀ mid k, r = routeOf mid →
      WithinCapacity (userCapacities collectPlan.loadCapacity) k (mid.map (userDemand collectPlan.G)).sum →
        RouteLimits collectPlan k mid) ∧
    planOf (divingWorld collectWorld) diveLpArgs 5 collectPlan = .ok (some ⟨[(1, routeOf [.cust 1, .cust 2])], [(1, 0)], []⟩) :=
  ⟨(divingWorld_ok collectWorld_ok).1, (divingWorld_ok collectWorld_ok).2.1, (divingWorld_ok collectWorld_ok).2.2, collectPlan_ok,
    collectPlan_nonnegative, fun _ _ d hd => (by cases hd), collectArgs_initial, Solve.eq_ok_of_toOption (by decide +kernel)⟩

/-- All hypotheses of `C62_capacitated_dive_lp_partial` hold for the example with service times; the route found takes 27 of 27. -/
example : LpWorldOk PositiveCycles (divingWorld exTravelWorld) ∧ DiveOk (divingWorld exTravelWorld).toEnv ∧
    DiveSigned (divingWorld exTravelWorld).toEnv ∧ Capacitated (exTravel 3 27) ∧ NonnegativeData (exTravel 3 27) ∧
    SymmetricUserTimes (exTravel 3 27).G ∧ RoundTripsFit (exTravel 3 27) ∧
    (∀ r ∈ diveLpArgs.initialRoutes, r.Nodup ∧ InTime (exTravel 3 27) r) ∧
    planOf (divingWorld exTravelWorld) diveLpArgs 5 (exTravel 3 27) = .ok (some ⟨[(1, routeOf [.cust 1, .cust 2])], [(1, 0)], []⟩) :=
  ⟨(divingWorld_ok exTravelWorld_ok).1, (divingWorld_ok exTravelWorld_ok).2.1, (divingWorld_ok exTravelWorld_ok).2.2,
    exTravel_capacitated _ _, exTravel_nonnegative (by norm_num) _, exTravel_symmetric _ _,
    exTravel_fits (by norm_num), exTravel_initial (by norm_num), Solve.eq_ok_of_toOption (by decide +kernel)⟩

end Vrpy
