import Verif.Proofs.LpRoutes
import Verif.Props.EndToEndCases
import Verif.Props.EndToEndVariants

/-!
# C60, C61, C62 for pricing by linear programming: problems with time windows
-/

namespace Vrpy

open Spec PricingLP

/-- The contracts of the libraries, for pricing by LP where every feasible point of the pricing problem is a route: the
solvers return feasible points, paths are shortest paths. -/
structure Spec.LpSound (w : World) : Prop where
  master : ∀ t, MasterSolverSound (w.master t)
  sound : ∀ t, SolverSound (w.pricing t)
  paths : ∀ t, PathsOk (w.paths t)
  path : ∀ (c : Column) (p : List Node), IsShortestPath c.edges p → IsShortestPath c.edges (w.path c)

/-- Going from a customer to another customer takes time. -/
def Spec.TravelTakesTime (P : Vrp) : Prop :=
  ∀ n m, Node.cust m ∈ P.G.succ (.cust n) → 0 < userService P.G (.cust n) + userTime P.G (.cust n) (.cust m)

/-- In the network searched as well. -/
theorem Searched.timed {P0 P' : Vrp} {K : Nat} {N N3 : Net} (S : Searched P0 P' K N N3) (htime : TravelTakesTime P0)
    {u v : Node} (hv : v ∈ N3.succ u) (hu : u ≠ .source) (hs : v ≠ .sink) : 0 < N3.service u + N3.time u v := by
  have hvN := S.same.succ u v hv
  obtain ⟨hmu, hmv⟩ := S.wf.edge_mem u v hvN
  have hu' : u ≠ .sink := by
    rintro rfl
    rw [S.wf.no_out_of_sink] at hvN
    cases hvN
  have hv' : v ≠ .source := by
    rintro rfl
    exact S.wf.no_into_source u hvN
  rw [S.same.service, S.same.time, S.service u hmu, S.time u v hvN]
  rcases S.userArcs u v hvN with h | ⟨h, _⟩ | ⟨h, _⟩ | ⟨h, _⟩
  · cases u with
    | source => exact absurd rfl hu
    | sink => exact absurd rfl hu'
    | cust n =>
      cases v with
      | source => exact absurd rfl hv'
      | sink => exact absurd rfl hs
      | cust m => exact htime n m h
  · exact absurd h hu
  · exact absurd h hs
  · exact absurd h hu

/-- Routes in feasible points of the pricing problem are within the user's limits. -/
theorem limits_lp {P0 P' : Vrp} {K : Nat} {N N3 : Net} (hP : VariantData P0) (S : Searched P0 P' K N N3)
    (U : UserData P0 P' N) {q : PricingLP} {cap : ℚ} {p : PVar → ℚ} {mid : List Node} (hsub : IsSubgraph q.G N3)
    (hwf : WellFormed q.G) (hcaps : q.caps = userCapacities P0.loadCapacity) (hst : q.numStops = P'.numStops.stops)
    (hdur : q.duration = P0.duration.limit) (htw : q.timeWindows = P0.timeWindows)
    (hdc : q.distributionCollection = P0.distributionCollection)
    (hcap : q.caps ≠ [] ∨ q.pickupDelivery = true ∨ q.distributionCollection = true → q.caps[q.vehicleType]? = some cap)
    (hfeas : (q.lp cap).Feasible p) (hroute : IsSimpleRoute q.G (routeOf mid))
    (hperm : (q.chosen p).Perm (consecutive (routeOf mid))) : RouteLimits P0 q.vehicleType mid := by
  have hser := S.serviceDepots hP.service.1 hP.service.2
  have hmidq := route_customers hroute.1
  obtain ⟨l2, l3, l4⟩ := limits_of_feasible (by rw [hsub.demand, S.same.demand]; exact S.demandDepots.1)
    (by rw [hsub.service, S.same.service]; exact hser.2) (fun h => hcap (Or.inl h)) hfeas hmidq hperm
  have hmid : ∀ v ∈ mid, (∃ n, v = .cust n) ∧ v ∈ P0.G.nodes := by
    intro v hv
    obtain ⟨h1, h2, h3⟩ := mem_customers.1 (hmidq v hv)
    refine ⟨?_, by rw [← S.userNodes, ← S.nodes]; exact hsub.nodes v h1⟩
    cases v with
    | source => exact absurd rfl h2
    | sink => exact absurd rfl h3
    | cust n => exact ⟨n, rfl⟩
  have hmidc : ∀ v ∈ mid, v ∈ N.customers := by
    intro v hv
    obtain ⟨⟨n, rfl⟩, hn⟩ := hmid v hv
    exact mem_customers.2 ⟨by rw [S.userNodes]; exact hn, by simp, by simp⟩
  have hrN : IsRoute N (routeOf mid) := by
    obtain ⟨mid', he, h1, h2⟩ := hroute.1
    refine ⟨mid', he, fun v hv => ⟨(h1 v hv).1, by rw [← S.nodes]; exact hsub.nodes v (h1 v hv).2⟩, ?_⟩
    rw [along_iff] at h2 ⊢
    exact fun u v huv => S.same.succ u v (hsub.arcs u v (h2 u v huv))
  have hal : Along (fun u v => v ∈ N.succ u) (routeOf mid) := by obtain ⟨_, _, _, h⟩ := hrN; exact h
  obtain ⟨e1, e2⟩ := load_user S hmid
  rw [load_congr hsub.demand, e1, hcaps] at l3
  rw [stops_routeOf hmidq, hst] at l2
  refine ⟨?_, l3, ?_, ?_, ?_⟩
  · exact U.stops (fun hd v hv => ⟨(hP.collect hd v hv).1, (hP.collect hd v hv).2.1⟩) _ l2
  · intro ht
    obtain ⟨w1, w2, _⟩ := S.windows ht (hP.source ht).1
    have hon := onTime_of_feasible hwf hfeas (by rw [htw]; exact ht) hroute hperm
    exact onTime_user S U hal (S.onTime w1 w2 (onTime_same hsub.service hsub.time hsub.lower hsub.upper hon))
  · intro hd pre post hpp _
    have hk := hcap (Or.inr (Or.inr (hdc.trans hd)))
    rw [hcaps] at hk
    refine ⟨cap, hk, ?_⟩
    have hcol : ∀ v ∈ N.nodes, N.collect v = userCollect P0.G v := U.collect
    have hsource : q.G.collect .source = 0 := by
      rw [hsub.collect, S.same.collect, hcol _ S.wf.source_mem]
      exact (hP.collect hd _ (by rw [← S.userNodes]; exact S.wf.source_mem)).2.1 (Or.inl rfl)
    have hd0 : q.G.demand .sink = 0 := by rw [hsub.demand, S.same.demand]; exact S.demandDepots.2
    have hg := dc_of_feasible hwf hd0 hsource (hdc.trans hd) hfeas hroute hperm
    have := hg (.source :: pre) (post ++ [Node.sink]) (by simp [routeOf, hpp]) (by simp) (by simp)
    have hpre : pre.map q.G.collect = pre.map (userCollect P0.G) := List.map_congr_left (fun v hv => by
      rw [hsub.collect, S.same.collect]
      exact hcol v (by rw [S.userNodes]; exact (hmid v (by rw [hpp]; simp [hv])).2))
    have hpost : post.map q.G.demand = post.map (userDemand P0.G) := List.map_congr_left (fun v hv => by
      rw [hsub.demand, S.same.demand]
      exact S.demand v (hmidc v (by rw [hpp]; simp [hv])))
    simp only [load, List.map_append, List.map_cons, List.map_nil, List.sum_append, List.sum_cons, List.sum_nil, hd0, hsource,
      hpre, hpost] at this
    linarith
  · intro _
    rw [hdur] at l4
    have he : Spec.duration q.G (routeOf mid) = Spec.duration N (routeOf mid) := by
      unfold Spec.duration travel
      rw [hsub.time, hsub.service, S.same.time, S.same.service]
    rw [he, duration_user S hal (route_mem_nodes S.wf hrN)] at l4
    exact l4

/-- With pricing by LP, pricing yields columns within the limits. -/
theorem price_windows_lp {w : World} {a : SolveArgs} {P0 P' : Vrp} {K : Nat} {N N3 : Net} (hw : LpSound w)
    (hP : VariantData P0) (htw : P0.timeWindows = true) (htime : TravelTakesTime P0)
    (S : Searched P0 P' K N N3) (U : UserData P0 P' N) (hcspy : a.cspy = false) (rs : List (List Node)) (d : Duals) :
    Solve.PriceOk (({ P' with initialRoutes := rs } : Vrp).solveCfg a w.falsy) w.toEnv d
      (ColumnFor N3 K (fun k r => ∃ mid, r = routeOf mid ∧ RouteLimits P0 k mid)) := by
  obtain ⟨f1, f2, f3, f4, f5, f6, f7, f8, f9, f10, f11⟩ := S.fields
  have hN3 : P'.G.toNet = N3 := by rw [S.graph]; rfl
  have hK : (({ P' with initialRoutes := rs } : Vrp).solveCfg a w.falsy).K = K := by
    show P'.vehicleTypes.getD 0 = K
    rw [S.types]
    rfl
  have hMG : (({ P' with initialRoutes := rs } : Vrp).solveCfg a w.falsy).M.G = N3 := hN3
  rw [← hK, ← hMG]
  refine price_lp hcspy (by simp [Solve.usesGreedy, Vrp.solveCfg, f2, htw]) (by rw [hMG]; exact S.wfSearch) hw.sound hw.paths
    ?_ ?_
  · intro q hsub hqtw _
    rw [hMG] at hsub
    refine Or.inr ⟨hqtw.trans (f2.trans htw), fun u v hv hu hs => ?_⟩
    rw [hsub.service, hsub.time]
    exact S.timed htime (hsub.arcs u v hv) hu hs
  · intro q cap p mid hsub hwf _ hcaps hst hdur hqtw _ hdc hcap hfeas hroute hne hperm
    rw [hMG] at hsub
    refine ⟨mid, rfl, limits_lp hP S U hsub hwf (hcaps.trans S.caps) hst (hdur.trans ?_) (hqtw.trans f2) (hdc.trans f4)
      hcap hfeas hroute hperm⟩
    show P'.duration.limit = P0.duration.limit
    rw [f11]

/-- What a first call of `solve()` with pricing by LP returns, for problems with time windows. -/
theorem plan_windows_lp {w : World} {a : SolveArgs} {fuel : Nat} {P0 : Vrp} {o o' : Obj} (hw : LpSound w)
    (hP : WindowedOrCollecting P0) (htw : P0.timeWindows = true) (htime : TravelTakesTime P0)
    (hpre : a.preassignments = []) (hdive : a.dive = false) (hheur : a.heuristicOnly = false) (hcspy : a.cspy = false)
    (hinit : ∀ r ∈ a.initialRoutes, r.Nodup ∧ ∀ mid k, r = routeOf mid →
      WithinCapacity (userCapacities P0.loadCapacity) k (mid.map (userDemand P0.G)).sum → RouteLimits P0 k mid)
    (hc : Obj.create P0 = .ok o) (h : o.solve w a fuel = .ok (some o')) :
    ∃ K N, (P0.mixedFleet = false → K = 1) ∧ o'.P.H = some N ∧ SolvesVariant P0 K o'.solution ∧
      (P0.minimizeGlobalSpan = false → bestValue N false P0.dropPenalty o'.solution =
        .ok ((userCosts P0 o'.solution).sum + P0.dropPenalty * o'.solution.dropped.length)) ∧
      (P0.minimizeGlobalSpan = true → o'.solution.routes ≠ [] → ∃ m, IsLargest m (userCosts P0 o'.solution) ∧
        bestValue N true P0.dropPenalty o'.solution = .ok (m + P0.dropPenalty * o'.solution.dropped.length)) := by
  unfold Obj.solve at h
  split at h
  · cases h
  rename_i P' hstart
  rw [hheur] at h
  simp only [Bool.false_eq_true, if_false] at h
  obtain ⟨K, N, N3, S⟩ := searched (w := w) hP.wf hP.customer hP.costs hP.demand hpre hc hstart
  have U := userData (w := w) hP.wf hP.demand hpre hc hstart S.reports
  have hold : o.solution.dropped = [] := by
    obtain ⟨G, _, rfl⟩ := create_ok hc
    rfl
  have hi := startSolve_initial hc hstart
  refine ⟨K, N, S.typesOne, plan_of_columns hP.customer hP.periodic S hw.master hw.path
    (fun P'' cols h1 => initial_limits hP.toVariantData S U (by rw [hi]; exact hinit) h1) hdive (fun _ => hold)
    (fun rs _ d _ _ _ _ _ => price_windows_lp hw hP.toVariantData htw htime S U hcspy rs d) h⟩

/-- **C60 (partial), LP pricing.** As `C60_time_windows_partial`, for pricing by LP: any pricing strategy, solvers that return
some feasible point (optimal or not), whatever networkx says about negative cycles.  Needed in addition: going from a
customer to another takes time (else the pricing problem may choose cycles besides the route).  For diving see `C60_dive_partial`. -/
theorem C60_lp_partial {w : World} {a : SolveArgs} {fuel : Nat} {P0 : Vrp} {o o' : Obj} (hw : LpSound w)
    (hP : WindowedOrCollecting P0) (htw : P0.timeWindows = true) (htime : TravelTakesTime P0)
    (hpre : a.preassignments = []) (hdive : a.dive = false) (hheur : a.heuristicOnly = false) (hcspy : a.cspy = false)
    (hinit : ∀ r ∈ a.initialRoutes, r.Nodup ∧ ∀ mid k, r = routeOf mid →
      WithinCapacity (userCapacities P0.loadCapacity) k (mid.map (userDemand P0.G)).sum → RouteLimits P0 k mid)
    (hc : Obj.create P0 = .ok o) (h : o.solve w a fuel = .ok (some o')) :
    ∃ K N, (P0.mixedFleet = false → K = 1) ∧ o'.P.H = some N ∧ SolvesVariant P0 K o'.solution ∧
      (∀ i r, (i, r) ∈ o'.solution.routes → UserOnTime P0.G r) ∧
      (P0.minimizeGlobalSpan = false → bestValue N false P0.dropPenalty o'.solution =
        .ok ((userCosts P0 o'.solution).sum + P0.dropPenalty * o'.solution.dropped.length)) ∧
      (P0.minimizeGlobalSpan = true → o'.solution.routes ≠ [] → ∃ m, IsLargest m (userCosts P0 o'.solution) ∧
        bestValue N true P0.dropPenalty o'.solution = .ok (m + P0.dropPenalty * o'.solution.dropped.length)) := by
  obtain ⟨K, N, h1, h2, h3, h4⟩ := plan_windows_lp hw hP htw htime hpre hdive hheur hcspy hinit hc h
  refine ⟨K, N, h1, h2, h3, ?_, h4⟩
  intro i r hir
  obtain ⟨_, _, _, _, _, k, _, _, mid, rfl, hl⟩ := h3.routes i r hir
  exact hl.windows htw

/-- **C61 (partial), LP pricing** with distribution, collection and time windows.  What is missing: problems without time
windows (the pricing problem may then choose cycles besides the route); for diving see `C61_dive_partial`. -/
theorem C61_lp_partial {w : World} {a : SolveArgs} {fuel : Nat} {P0 : Vrp} {o o' : Obj} (hw : LpSound w)
    (hP : WindowedOrCollecting P0) (hdc : P0.distributionCollection = true) (htw : P0.timeWindows = true)
    (htime : TravelTakesTime P0) (hpre : a.preassignments = []) (hdive : a.dive = false) (hheur : a.heuristicOnly = false)
    (hcspy : a.cspy = false)
    (hinit : ∀ r ∈ a.initialRoutes, r.Nodup ∧ ∀ mid k, r = routeOf mid →
      WithinCapacity (userCapacities P0.loadCapacity) k (mid.map (userDemand P0.G)).sum → RouteLimits P0 k mid)
    (hc : Obj.create P0 = .ok o) (h : o.solve w a fuel = .ok (some o')) :
    ∃ K, (P0.mixedFleet = false → K = 1) ∧ SolvesVariant P0 K o'.solution ∧
      ∀ i r pre post, (i, r) ∈ o'.solution.routes → r = routeOf (pre ++ post) →
        ∃ k, dget o'.solution.types i = some k ∧ WithinCapacity (userCapacities P0.loadCapacity) k
          ((pre.map (userCollect P0.G)).sum + (post.map (userDemand P0.G)).sum) := by
  obtain ⟨K, N, h1, h2, h3, h4⟩ := plan_windows_lp hw hP htw htime hpre hdive hheur hcspy hinit hc h
  refine ⟨K, h1, h3, ?_⟩
  intro i r pre post hir hr
  obtain ⟨_, _, _, _, _, k, _, hk, mid, rfl, hl⟩ := h3.routes i r hir
  refine ⟨k, hk, hl.goods hdc pre post ?_⟩
  simp only [routeOf, List.cons.injEq, true_and] at hr
  exact List.append_cancel_right hr

/-- **C62 (partial), LP pricing** with time windows: no reported route takes longer than the duration, if every single
customer can be visited within the duration.  What is missing: problems without time windows; for diving see `C62_dive_partial`. -/
theorem C62_lp_partial {w : World} {a : SolveArgs} {fuel : Nat} {P0 : Vrp} {o o' : Obj} (hw : LpSound w)
    (hP : WindowedOrCollecting P0) (htw : P0.timeWindows = true) (htime : TravelTakesTime P0) (hfit : RoundTripsFit P0)
    (hpre : a.preassignments = []) (hdive : a.dive = false) (hheur : a.heuristicOnly = false) (hcspy : a.cspy = false)
    (hinit : ∀ r ∈ a.initialRoutes, r.Nodup ∧ ∀ mid k, r = routeOf mid →
      WithinCapacity (userCapacities P0.loadCapacity) k (mid.map (userDemand P0.G)).sum → RouteLimits P0 k mid)
    (hc : Obj.create P0 = .ok o) (h : o.solve w a fuel = .ok (some o')) :
    ∀ i r, (i, r) ∈ o'.solution.routes → Within P0.duration.limit (userDuration P0.G r) := by
  obtain ⟨K, N, h1, h2, h3, h4⟩ := plan_windows_lp hw hP htw htime hpre hdive hheur hcspy hinit hc h
  intro i r hir
  obtain ⟨_, _, _, _, _, k, _, _, mid, rfl, hl⟩ := h3.routes i r hir
  exact hl.duration hfit

/-! ## An example -/

/-- A solver of pricing problems that knows one point. -/
def pointSolver (pt : PVar → ℚ) (prob : LP PVar) : PricingLP.Answer :=
  if (∀ d ∈ prob.vars, d.Holds pt) ∧ ∀ c ∈ prob.constrs, c.Holds pt then
    { objective := some (prob.obj.eval pt), infeasible := false, point := pt }
  else { objective := none, infeasible := true, point := pt }

theorem pointSolver_sound (pt : PVar → ℚ) : SolverSound (pointSolver pt) := by
  intro prob z hz hi
  unfold pointSolver at hz hi ⊢
  split at hz
  · rename_i h
    rw [if_pos h]
    simp only [Option.some.injEq] at hz
    exact ⟨feasible_of _ _ h, hz⟩
  · cases hz

/-- The master problem's solver of the example. -/
def exSolver2 (prob : LP MVar) : Master.Answer :=
  let found := prob.vars.any (fun d => d.var = .y (.num 3))
  let pt : MVar → ℚ :=
    if found then fun x => if x = .y (.num 3) then 1 else 0
    else fun x => if x = .y (.num 1) ∨ x = .y (.num 2) then 1 else 0
  { optimal := decide ((∀ d ∈ prob.vars, d.Holds pt) ∧ ∀ c ∈ prob.constrs, c.Holds pt), point := pt,
    visitDual := fun v => if v = .cust 1 ∨ v = .cust 2 then (if found then 21 / 2 else 23) else 0,
    fleetDual := fun _ => 0, spanDual := fun _ => 0 }

theorem exSolver2_sound : MasterSolverSound exSolver2 := by
  intro prob h
  exact feasible_of _ _ (of_decide_eq_true h)

/-- The route over both customers of `exBoth`. -/
def exPoint : PVar → ℚ
  | .x .source (.cust 1) => 1
  | .x (.cust 1) (.cust 2) => 1
  | .x (.cust 2) .sink => 1
  | .t .source => 5
  | .t (.cust 1) => 15
  | .t (.cust 2) => 27
  | .t .sink => 39
  | .unloadE .source (.cust 1) => 4
  | .unloadE (.cust 1) (.cust 2) => 2
  | .loadE (.cust 1) (.cust 2) => 1
  | .loadE (.cust 2) .sink => 4
  | _ => 0

/-- networkx never reports a negative cycle, so ranks are not used. -/
noncomputable def exWorld4 : World :=
  { exWorld with
    master := fun _ => exSolver2
    pricing := fun _ => pointSolver exPoint
    negCycle := fun _ _ => false }

theorem exWorld4_ok : LpSound exWorld4 :=
  ⟨fun _ => exSolver2_sound, fun _ => pointSolver_sound _, exWorld_ok.paths, exWorld_ok.path⟩

theorem exBoth_timed : TravelTakesTime exBoth := by
  intro n m h
  have : userTime exBoth.G (.cust n) (.cust m) = 10 := by
    unfold userTime
    rw [if_pos h]
    rfl
  rw [this]
  have : 0 ≤ userService exBoth.G (.cust n) := by
    unfold userService
    simp only [exBoth]
    split <;> simp_all
  linarith

/-- All hypotheses of `C60_lp_partial`, `C61_lp_partial` and `C62_lp_partial` hold for the example, and column generation
finds the better route. -/
example : LpSound exWorld4 ∧ WindowedOrCollecting exBoth ∧ TravelTakesTime exBoth ∧ RoundTripsFit exBoth ∧
    planOf exWorld4 { cspy := false } 5 exBoth = .ok (some ⟨[(1, routeOf [.cust 1, .cust 2])], [(1, 0)], []⟩) := by
  refine ⟨exWorld4_ok, exBoth_ok, exBoth_timed, exBoth_fits, Solve.eq_ok_of_toOption (by decide +kernel)⟩

/-! ## Travel that takes no time -/

/-- The problem of `C55_lp_counterexample` with time windows; travel takes no time. -/
def cxTimed : Vrp :=
  { cxPlan with
    G := { cxPlan.G with nd := fun _ => { upper := some 100 } }
    timeWindows := true }

theorem cxTimed_ok : WindowedOrCollecting cxTimed where
  wf := ⟨cxPlan_capacitated.wf.1, cxPlan_capacitated.wf.2, cxPlan_capacitated.wf.3⟩
  customer := cxPlan_capacitated.customer
  costs := cxPlan_capacitated.costs
  demand := by decide +kernel
  service := by decide +kernel
  either := Or.inl rfl
  source := fun _ => by decide +kernel
  windows := fun _ => by decide +kernel
  collect := fun h => (by cases h)
  pickupDelivery := rfl
  periodic := rfl
  oneCapacity := by decide +kernel

/-- The master problem's solver: visits to 1 and 4 are dear until the column with the cycle is found. -/
def cxSolver2 (prob : LP MVar) : Master.Answer :=
  let second := prob.vars.any (fun d => d.var = .y (.num 5))
  let pt : MVar → ℚ :=
    if second then fun x => if x = .y (.num 5) then 1 else 0
    else fun x => if x = .y (.num 1) ∨ x = .y (.num 2) ∨ x = .y (.num 3) ∨ x = .y (.num 4) then 1 else 0
  { optimal := decide ((∀ d ∈ prob.vars, d.Holds pt) ∧ ∀ c ∈ prob.constrs, c.Holds pt), point := pt,
    visitDual := cxDual second, fleetDual := fun _ => 0, spanDual := fun _ => 0 }

theorem cxSolver2_sound : MasterSolverSound cxSolver2 := by
  intro prob h
  exact feasible_of _ _ (of_decide_eq_true h)

noncomputable def cxWorld2 : World :=
  { cxWorld with
    master := fun _ => cxSolver2
    pricing := fun _ => pointSolver (cxPoint false) }

theorem cxWorld2_ok : LpSound cxWorld2 :=
  ⟨fun _ => cxSolver2_sound, fun _ => pointSolver_sound _, fun _ => exPathsOracle_ok, cxPath_ok⟩

/-- **C60**, LP pricing, counterexample: without the condition that travel takes time, the pricing problem may select a route
and a cycle besides it, and customers are left out of the reported plan. -/
theorem C60_zero_time_counterexample : LpSound cxWorld2 ∧ WindowedOrCollecting cxTimed ∧
    planOf cxWorld2 { strategy := "Exact", cspy := false } 5 cxTimed =
      .ok (some ⟨[(1, routeOf [.cust 1, .cust 4])], [(1, 0)], []⟩) ∧
    ∀ K, ¬ SolvesVariant cxTimed K ⟨[(1, routeOf [.cust 1, .cust 4])], [(1, 0)], []⟩ := by
  refine ⟨cxWorld2_ok, cxTimed_ok, Solve.eq_ok_of_toOption (by decide +kernel), ?_⟩
  intro K h
  have := h.once 2 (by decide) (by decide)
  revert this
  decide

end Vrpy
