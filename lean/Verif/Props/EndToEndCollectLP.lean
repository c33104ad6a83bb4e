import Verif.Props.EndToEndWindowsLP

/-!
# C61 for pricing by linear programming: distribution and collection without time windows
-/

namespace Vrpy

open Spec PricingLP

/-- The graph that is searched has amounts to collect as they should be. -/
theorem Searched.collects {P0 P' : Vrp} {K : Nat} {N N3 : Net} (hP : VariantData P0) (S : Searched P0 P' K N N3)
    (U : UserData P0 P' N) (hdc : P0.distributionCollection = true) : CollectsGoods N3 where
  collect := by
    intro v hv
    rw [S.nodes] at hv
    rw [S.same.collect, U.collect v hv]
    exact (hP.collect hdc v (by rw [← S.userNodes]; exact hv)).1
  source := by
    rw [S.same.collect, U.collect _ S.wf.source_mem]
    exact (hP.collect hdc _ (by rw [← S.userNodes]; exact S.wf.source_mem)).2.1 (Or.inl rfl)
  sink := by
    rw [S.same.demand]
    exact S.demandDepots.2

/-- A route of the graph searched that respects the limits there respects those of the user. -/
theorem limits_collect {P0 P' : Vrp} {K k : Nat} {N N3 : Net} (hP : VariantData P0) (htw : P0.timeWindows = false)
    (S : Searched P0 P' K N N3) (U : UserData P0 P' N) {mid : List Node} (hroute : IsSimpleRoute N3 (routeOf mid))
    (hst : WithinStops P'.numStops.stops (stops (routeOf mid)).length)
    (hload : WithinCapacity (userCapacities P0.loadCapacity) k (load N3 (routeOf mid)))
    (hdur : Within P0.duration.limit (Spec.duration N3 (routeOf mid)))
    (hgoods : P0.distributionCollection = true → ∃ cap, (userCapacities P0.loadCapacity)[k]? = some cap ∧
      GoodsWithin N3 cap (routeOf mid)) : RouteLimits P0 k mid := by
  have hmid3 := route_customers hroute.1
  have hmid : ∀ v ∈ mid, (∃ n, v = .cust n) ∧ v ∈ P0.G.nodes := by
    intro v hv
    obtain ⟨h1, h2, h3⟩ := mem_customers.1 (hmid3 v hv)
    refine ⟨?_, by rw [← S.userNodes, ← S.nodes]; exact h1⟩
    cases v with
    | source => exact absurd rfl h2
    | sink => exact absurd rfl h3
    | cust n => exact ⟨n, rfl⟩
  have hmidc : ∀ v ∈ mid, v ∈ N.customers := by
    intro v hv
    obtain ⟨⟨n, rfl⟩, hn⟩ := hmid v hv
    exact mem_customers.2 ⟨by rw [S.userNodes]; exact hn, by simp, by simp⟩
  have hrN : IsRoute N (routeOf mid) := by
    obtain ⟨mid', he, h1, h2⟩ := hroute.1
    refine ⟨mid', he, fun v hv => ⟨(h1 v hv).1, by rw [← S.nodes]; exact (h1 v hv).2⟩, ?_⟩
    rw [along_iff] at h2 ⊢
    exact fun u v huv => S.same.succ u v (h2 u v huv)
  have hal : Along (fun u v => v ∈ N.succ u) (routeOf mid) := by obtain ⟨_, _, _, h⟩ := hrN; exact h
  obtain ⟨e1, e2⟩ := load_user S hmid
  rw [e1] at hload
  rw [stops_routeOf hmid3] at hst
  refine ⟨?_, hload, fun h => (by rw [htw] at h; cases h), ?_, ?_⟩
  · exact U.stops (fun hd v hv => ⟨(hP.collect hd v hv).1, (hP.collect hd v hv).2.1⟩) _ hst
  · intro hd pre post hpp _
    obtain ⟨cap, hk, hg⟩ := hgoods hd
    refine ⟨cap, hk, ?_⟩
    obtain ⟨_, hsource, hd0⟩ := S.collects hP U hd
    have := hg (.source :: pre) (post ++ [Node.sink]) (by simp [routeOf, hpp]) (by simp) (by simp)
    have hpre : pre.map N3.collect = pre.map (userCollect P0.G) := List.map_congr_left (fun v hv => by
      rw [S.same.collect]
      exact U.collect v (by rw [S.userNodes]; exact (hmid v (by rw [hpp]; simp [hv])).2))
    have hpost : post.map N3.demand = post.map (userDemand P0.G) := List.map_congr_left (fun v hv => by
      rw [S.same.demand]
      exact S.demand v (hmidc v (by rw [hpp]; simp [hv])))
    simp only [load, List.map_append, List.map_cons, List.map_nil, List.sum_append, List.sum_cons, List.sum_nil, hd0, hsource,
      hpre, hpost] at this
    linarith
  · intro _
    have he : Spec.duration N3 (routeOf mid) = Spec.duration N (routeOf mid) := by
      unfold Spec.duration travel
      rw [S.same.time, S.same.service]
    rw [he, duration_user S hal (route_mem_nodes S.wf hrN)] at hdur
    exact hdur

/-- With pricing by LP and no time windows, pricing yields columns within the limits. -/
theorem price_collect_lp {w : World} {a : SolveArgs} {P0 P' : Vrp} {K : Nat} {N N3 : Net} (hw : LpWorldOk PositiveCycles w)
    (hP : VariantData P0) (htw : P0.timeWindows = false) (hD : NonnegativeData P0)
    (hcspy : a.cspy = false)
    (S : Searched P0 P' K N N3) (U : UserData P0 P' N) (rs : List (List Node)) {d : Duals}
    (hfree : EmptyTripFree (({ P' with initialRoutes := rs } : Vrp).solveCfg a w.falsy) d) :
    Solve.PriceOk (({ P' with initialRoutes := rs } : Vrp).solveCfg a w.falsy) w.toEnv d
      (ColumnFor N3 K (fun k r => ∃ mid, r = routeOf mid ∧ RouteLimits P0 k mid)) := by
  obtain ⟨f1, f2, f3, f4, f5, f6, f7, f8, f9, f10, f11⟩ := S.fields
  have hdc : P0.distributionCollection = true := by
    rcases hP.either with h | h
    · rw [htw] at h; cases h
    · exact h
  have hN3 : P'.G.toNet = N3 := by rw [S.graph]; rfl
  generalize hcfg : ({ P' with initialRoutes := rs } : Vrp).solveCfg a w.falsy = cfg at *
  have hMG : cfg.M.G = N3 := by rw [← hcfg]; exact hN3
  have htw' : cfg.timeWindows = false := by rw [← hcfg]; exact f2.trans htw
  have hdur : cfg.duration = P0.duration.limit := by rw [← hcfg, ← f11]; rfl
  have hcaps : cfg.caps = userCapacities P0.loadCapacity := by rw [← hcfg]; exact S.caps
  have hns : cfg.numStops = P'.numStops.stops := by rw [← hcfg]; rfl
  have hdc' : cfg.distributionCollection = true := by rw [← hcfg]; exact f4.trans hdc
  have hK : cfg.K = K := by
    rw [← hcfg]
    show P'.vehicleTypes.getD 0 = K
    rw [S.types]
    rfl
  have hgr : Solve.usesGreedy cfg = false := by simp [Solve.usesGreedy, hdc']
  constructor
  · intro k hk t route cols s cols' _ h c hcc
    obtain ⟨wt, c', r, _, rfl, htype, _, hdraw, hsimple, _, hst, hload, hwithin, _, hgoods, _⟩ :=
      Solve.lp_column (by rw [← hcfg]; exact hcspy) (by rw [hMG]; exact S.wfSearch)
        (by rw [hMG, S.same.demand]; exact S.demandDepots.1)
        (by rw [hMG, S.same.service]; exact (S.serviceDepots hP.service.1 hP.service.2).2)
        (by rw [← hcfg]; exact f3.trans hP.pickupDelivery)
        (fun _ => by rw [hMG]; exact S.collects hP U hdc)
        (hw.paths t) (hw.sound t)
        (fun wt hwt => Solve.noCycles_free hfree hw.exact (by rw [hMG, htw']; exact S.nonnegative hP.demand hD)
          (fun wt => hw.cycles _ wt (by rw [hMG]; exact S.wfSearch)) hwt) h
    rw [List.mem_append, List.mem_singleton] at hcc
    rcases hcc with hcc | rfl
    · exact Or.inl hcc
    · rw [hMG] at hsimple hwithin hload hgoods
      rw [hcaps] at hload hgoods
      rw [hdur] at hwithin
      rw [hns] at hst
      obtain ⟨mid, rfl, _⟩ := id hsimple.1
      refine Or.inr ⟨by rw [htype, ← hK]; exact hk, Or.inr ⟨_, hsimple, hdraw, mid, rfl, ?_⟩⟩
      rw [htype]
      exact limits_collect hP htw S U hsimple hst hload hwithin (fun _ => hgoods hdc')
  · intro k hk st st' h c hcc
    unfold Solve.greedyPhase at h
    rw [hgr] at h
    simp only [Bool.false_eq_true, if_false, Except.ok.injEq] at h
    subst h
    exact Or.inl hcc

/-- What a first call of `solve()` with pricing by LP returns, for problems with collection and without time windows. -/
theorem plan_collect_lp {w : World} {a : SolveArgs} {fuel : Nat} {P0 : Vrp} {o o' : Obj} (hw : LpWorldOk PositiveCycles w)
    (hP : WindowedOrCollecting P0) (htw : P0.timeWindows = false) (hD : NonnegativeData P0)
    (hopt : OptionDuals w.toEnv P0)
    (hpre : a.preassignments = []) (hdive : a.dive = false) (hheur : a.heuristicOnly = false) (hcspy : a.cspy = false)
    (hinit : ∀ r ∈ a.initialRoutes, r.Nodup ∧ ∀ mid k, r = routeOf mid →
      WithinCapacity (userCapacities P0.loadCapacity) k (mid.map (userDemand P0.G)).sum → RouteLimits P0 k mid)
    (hc : Obj.create P0 = .ok o) (h : o.solve w a fuel = .ok (some o')) :
    ∃ K N, (P0.mixedFleet = false → K = 1) ∧ o'.P.H = some N ∧ SolvesVariant P0 K o'.solution ∧
      (P0.minimizeGlobalSpan = false → bestValue N false P0.dropPenalty o'.solution =
        .ok ((userCosts P0 o'.solution).sum + P0.dropPenalty * o'.solution.dropped.length)) ∧
      (P0.minimizeGlobalSpan = true → o'.solution.routes ≠ [] → ∃ m, IsLargest m (userCosts P0 o'.solution) ∧
        bestValue N true P0.dropPenalty o'.solution = .ok (m + P0.dropPenalty * o'.solution.dropped.length)) := by
  unfold Obj.solve at h
  split at h
  · cases h
  rename_i P' hstart
  rw [hheur] at h
  simp only [Bool.false_eq_true, if_false] at h
  obtain ⟨K, N, N3, S⟩ := searched (w := w) hP.wf hP.customer hP.costs hP.demand hpre hc hstart
  have U := userData (w := w) hP.wf hP.demand hpre hc hstart S.reports
  have hold : o.solution.dropped = [] := by
    obtain ⟨G, _, rfl⟩ := create_ok hc
    rfl
  have hi := startSolve_initial hc hstart
  obtain ⟨r1, r2, r3, r4⟩ := plan_of_columns hP.customer hP.periodic S hw.master hw.path
    (fun P'' cols h1 => initial_limits hP.toVariantData S U (by rw [hi]; exact hinit) h1) hdive (fun _ => hold)
    (fun rs stm d cost st1 _ _ hs => price_collect_lp hw hP.toVariantData htw hD hcspy S U rs (hw.free S hD hopt hs)) h
  exact ⟨K, N, S.typesOne, r1, r2, r3, r4⟩

/-- **C61 (partial), LP pricing** with distribution and collection, without time windows: the load is never above the
capacity, under the conditions of `C55_lp_partial` (in particular no cycle has reduced cost 0 where networkx finds none with
negative reduced cost).  What is missing: what is missing there. -/
theorem C61_lp_untimed_partial {w : World} {a : SolveArgs} {fuel : Nat} {P0 : Vrp} {o o' : Obj} (hw : LpWorldOk PositiveCycles w)
    (hP : WindowedOrCollecting P0) (hdc : P0.distributionCollection = true) (htw : P0.timeWindows = false)
    (hD : NonnegativeData P0) (hopt : OptionDuals w.toEnv P0)
    (hpre : a.preassignments = []) (hdive : a.dive = false) (hheur : a.heuristicOnly = false) (hcspy : a.cspy = false)
    (hinit : ∀ r ∈ a.initialRoutes, r.Nodup ∧ ∀ mid k, r = routeOf mid →
      WithinCapacity (userCapacities P0.loadCapacity) k (mid.map (userDemand P0.G)).sum → RouteLimits P0 k mid)
    (hc : Obj.create P0 = .ok o) (h : o.solve w a fuel = .ok (some o')) :
    ∃ K N, (P0.mixedFleet = false → K = 1) ∧ o'.P.H = some N ∧ SolvesVariant P0 K o'.solution ∧
      (∀ i r pre post, (i, r) ∈ o'.solution.routes → r = routeOf (pre ++ post) →
        ∃ k, dget o'.solution.types i = some k ∧ WithinCapacity (userCapacities P0.loadCapacity) k
          ((pre.map (userCollect P0.G)).sum + (post.map (userDemand P0.G)).sum)) ∧
      (P0.minimizeGlobalSpan = false → bestValue N false P0.dropPenalty o'.solution =
        .ok ((userCosts P0 o'.solution).sum + P0.dropPenalty * o'.solution.dropped.length)) ∧
      (P0.minimizeGlobalSpan = true → o'.solution.routes ≠ [] → ∃ m, IsLargest m (userCosts P0 o'.solution) ∧
        bestValue N true P0.dropPenalty o'.solution = .ok (m + P0.dropPenalty * o'.solution.dropped.length)) := by
  obtain ⟨K, N, h1, h2, h3, h4⟩ := plan_collect_lp hw hP htw hD hopt hpre hdive hheur hcspy hinit hc h
  refine ⟨K, N, h1, h2, h3, ?_, h4⟩
  intro i r pre post hir hr
  obtain ⟨_, _, _, _, _, k, _, hk, mid, rfl, hl⟩ := h3.routes i r hir
  refine ⟨k, hk, hl.goods hdc pre post ?_⟩
  simp only [routeOf, List.cons.injEq, true_and] at hr
  exact List.append_cancel_right hr

/-- **C62 (partial), LP pricing** with collection and without time windows: no reported route takes longer than the
duration, if every single customer can be visited within the duration. -/
theorem C62_collect_lp_partial {w : World} {a : SolveArgs} {fuel : Nat} {P0 : Vrp} {o o' : Obj} (hw : LpWorldOk PositiveCycles w)
    (hP : WindowedOrCollecting P0) (htw : P0.timeWindows = false) (hD : NonnegativeData P0) (hfit : RoundTripsFit P0)
    (hopt : OptionDuals w.toEnv P0)
    (hpre : a.preassignments = []) (hdive : a.dive = false) (hheur : a.heuristicOnly = false) (hcspy : a.cspy = false)
    (hinit : ∀ r ∈ a.initialRoutes, r.Nodup ∧ ∀ mid k, r = routeOf mid →
      WithinCapacity (userCapacities P0.loadCapacity) k (mid.map (userDemand P0.G)).sum → RouteLimits P0 k mid)
    (hc : Obj.create P0 = .ok o) (h : o.solve w a fuel = .ok (some o')) :
    ∀ i r, (i, r) ∈ o'.solution.routes → Within P0.duration.limit (userDuration P0.G r) := by
  obtain ⟨K, N, h1, h2, h3, h4⟩ := plan_collect_lp hw hP htw hD hopt hpre hdive hheur hcspy hinit hc h
  intro i r hir
  obtain ⟨_, _, _, _, _, k, _, _, mid, rfl, hl⟩ := h3.routes i r hir
  exact hl.duration hfit

/-! ## An example -/

/-- Two customers that get 2 each; 3 is collected at the first, 1 at the second.  Going back from the second is dear. -/
def collectPlan : Vrp where
  G := {
    nodes := [.source, .cust 1, .cust 2, .sink]
    nd := fun v => match v with
      | .cust 1 => { demand := some 2, collect := some 3 }
      | .cust _ => { demand := some 2, collect := some 1 }
      | _ => {}
    succ := fun u => match u with
      | .source => [.cust 1, .cust 2]
      | .cust 1 => [.cust 2, .sink]
      | .cust 2 => [.cust 1, .sink]
      | _ => []
    ed := fun u v => { cost := some (.scalar (if u = .source ∨ v = .sink then 10 else if u = .cust 2 then 60 else 1)) } }
  loadCapacity := .one (.int 5)
  fixedCost := .one 3
  numStops := .int 2
  numVehicles := .one 2
  distributionCollection := true

theorem collectPlan_ok : WindowedOrCollecting collectPlan where
  wf := by
    refine ⟨by decide, ?_, ?_⟩
    · intro u; simp only [collectPlan]; split <;> decide
    · intro u v hv
      simp only [collectPlan] at hv ⊢
      split at hv <;> simp at hv <;> (try rcases hv with rfl | rfl) <;> (try subst hv) <;> decide
  customer := ⟨1, by decide⟩
  costs := fun _ u v _ => ⟨_, Or.inl rfl⟩
  demand := by decide +kernel
  service := by decide +kernel
  either := Or.inr rfl
  source := fun h => (by cases h)
  windows := fun h => (by cases h)
  collect := fun _ => by decide +kernel
  pickupDelivery := rfl
  periodic := rfl
  oneCapacity := by decide +kernel

theorem collectPlan_nonnegative : NonnegativeData collectPlan where
  service := by decide +kernel
  time := fun _ _ _ => by simp [collectPlan]
  cost := by
    intro k u v _
    simp only [userArcCost, collectPlan, userCost, userFixedCost]
    have h : ∀ x : ℚ, (x = 1 ∨ x = 10 ∨ x = 0 ∨ x = 3 ∨ x = 60) → 0 ≤ x := by
      rintro x (rfl | rfl | rfl | rfl | rfl) <;> norm_num
    refine ite_nonneg' (add_nonneg (h _ ?_) (h _ ?_)) (ite_nonneg' (le_refl _) (add_nonneg (by norm_num) (h _ ?_)))
    all_goals (repeat' split) <;> simp

/-- The graph searched for `collectPlan`. -/
def collectNet : Net where
  nodes := [.source, .cust 1, .cust 2, .sink]
  succ := fun u => match u with
    | .source => [.cust 1, .cust 2, .sink]
    | .cust 1 => [.cust 2, .sink]
    | .cust 2 => [.cust 1, .sink]
    | _ => []
  demand := fun v => if v.isDepot then 0 else 2
  collect := fun v => if v = .cust 1 then 3 else if v = .cust 2 then 1 else 0
  cost := fun u v =>
    if u = .source ∧ v = .sink then [0]
    else if u = .source then [13]
    else if v = .sink then [10]
    else if u = .cust 2 then [60]
    else [1]

theorem collectNet_wf : WellFormed collectNet where
  nodes_nodup := by decide
  succ_nodup := by intro u; simp only [collectNet]; split <;> decide
  edge_mem := by
    intro u v hv
    simp only [collectNet] at hv ⊢
    split at hv <;> simp at hv <;> (try rcases hv with rfl | rfl | rfl) <;> (try rcases hv with rfl | rfl) <;>
      (try subst hv) <;> decide
  source_mem := by decide
  sink_mem := by decide
  no_into_source := by
    intro u
    simp only [collectNet]
    split <;> decide
  no_out_of_sink := by decide

/-- The two pricing problems. -/
def collectPricing (second : Bool) : PricingLP where
  G := collectNet
  weight := fun u v => (collectNet.cost u v).getD 0 0 - lpDual second u
  caps := [5]
  numStops := some 2
  distributionCollection := true
  negCycle := false

/-- The better route is optimal for both. -/
def collectPoint : PVar → ℚ
  | .x .source (.cust 1) => 1
  | .x (.cust 1) (.cust 2) => 1
  | .x (.cust 2) .sink => 1
  | .unloadE .source (.cust 1) => 4
  | .unloadE (.cust 1) (.cust 2) => 2
  | .loadE (.cust 1) (.cust 2) => 3
  | .loadE (.cust 2) .sink => 4
  | _ => 0

theorem collectPoint_optimal (b : Bool) : ((collectPricing b).lp 5).Optimal collectPoint := by
  refine optimal_of_routes_goods (q := collectPricing b) collectNet_wf rfl rfl ?_ rfl ?_ ?_ ?_ rfl ?_ ?_ ?_
  · refine ⟨?_, fun _ _ _ => by simp [collectPricing, collectNet], fun h => (by cases h)⟩
    show ∀ v ∈ collectNet.nodes, 0 ≤ collectNet.demand v
    decide +kernel
  · intro _
    refine ⟨?_, rfl, rfl⟩
    show ∀ v ∈ collectNet.nodes, 0 ≤ collectNet.collect v
    decide +kernel
  · refine noNegativeCycle_brute collectNet_wf ?_
    revert b
    decide +kernel
  · intro _
    revert b
    decide +kernel
  · refine feasible_of _ _ ?_
    revert b
    decide +kernel
  · revert b
    decide +kernel
  · intro r hr
    left
    revert r b
    decide +kernel

noncomputable def collectWorld : World :=
  { exLpWorld with
    pricing := fun _ => knownSolver [((collectPricing false).lp 5, collectPoint), ((collectPricing true).lp 5, collectPoint)] }

theorem collectWorld_ok : LpWorldOk PositiveCycles collectWorld :=
  have hk := knownSolver_ok (known := [((collectPricing false).lp 5, collectPoint), ((collectPricing true).lp 5, collectPoint)])
    (by
      intro k hk
      simp only [List.mem_cons, List.not_mem_nil, or_false] at hk
      rcases hk with rfl | rfl
      · exact collectPoint_optimal false
      · exact collectPoint_optimal true)
  { exLpWorld_ok with
    sound := fun _ => hk.2
    exact := fun _ => hk.1 }

theorem collectArgs_initial : ∀ r ∈ exLpArgs.initialRoutes, r.Nodup ∧ ∀ mid k, r = routeOf mid →
    WithinCapacity (userCapacities collectPlan.loadCapacity) k (mid.map (userDemand collectPlan.G)).sum →
      RouteLimits collectPlan k mid := by
  intro r hr
  have h : r = routeOf [.cust 1] ∨ r = routeOf [.cust 2] := by simpa [exLpArgs, exArgs] using hr
  refine ⟨by rcases h with rfl | rfl <;> decide, ?_⟩
  intro mid k hm hload
  have hmid : mid = [.cust 1] ∨ mid = [.cust 2] := by
    rcases h with rfl | rfl <;> simp only [routeOf, List.cons.injEq, true_and] at hm <;>
      have := List.append_cancel_right hm <;> simp [← this]
  have hd : ∀ v ∈ collectPlan.G.nodes, userCollect collectPlan.G v ≤ 5 ∧ userDemand collectPlan.G v ≤ 5 := by decide +kernel
  have hcap : userCapacities collectPlan.loadCapacity = [5] := by decide +kernel
  refine ⟨?_, hload, fun h => (by cases h), ?_, fun _ d hd => (by cases hd)⟩
  · intro m hm' _
    have hm' : (2 : Nat) = m := by simpa [collectPlan, PyVal.stops] using hm'
    rcases hmid with rfl | rfl <;> simp <;> omega
  · intro _ pre post hpp hne
    obtain ⟨c, hc, _⟩ := hload hne
    refine ⟨c, hc, ?_⟩
    have hc5 : c = 5 := by
      rw [hcap] at hc
      have := List.mem_of_getElem? hc
      simpa using this
    rw [hc5]
    obtain ⟨v, hv, rfl⟩ : ∃ v, v ∈ collectPlan.G.nodes ∧ mid = [v] := by
      rcases hmid with rfl | rfl
      · exact ⟨.cust 1, by decide, rfl⟩
      · exact ⟨.cust 2, by decide, rfl⟩
    have hb := hd v hv
    rcases List.singleton_eq_append_iff.1 hpp with ⟨rfl, rfl⟩ | ⟨rfl, rfl⟩
    · simpa using hb.2
    · simpa using hb.1

/-- All hypotheses of `C61_lp_untimed_partial` and `C62_collect_lp_partial` hold for the example, and column generation finds
the better route. -/
example : LpWorldOk PositiveCycles collectWorld ∧ WindowedOrCollecting collectPlan ∧ NonnegativeData collectPlan ∧ RoundTripsFit collectPlan ∧
    (∀ r ∈ exLpArgs.initialRoutes, r.Nodup ∧ ∀ mid k, r = routeOf mid →
      WithinCapacity (userCapacities collectPlan.loadCapacity) k (mid.map (userDemand collectPlan.G)).sum →
        RouteLimits collectPlan k mid) ∧
    planOf collectWorld exLpArgs 5 collectPlan = .ok (some ⟨[(1, routeOf [.cust 1, .cust 2])], [(1, 0)], []⟩) :=
  ⟨collectWorld_ok, collectPlan_ok, collectPlan_nonnegative, fun _ _ d hd => (by cases hd), collectArgs_initial,
    Solve.eq_ok_of_toOption (by decide +kernel)⟩

end Vrpy
