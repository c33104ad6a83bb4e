import Verif.Props.TerminationDive
import Verif.Props.TerminationSpan
import Verif.Props.EndToEndLockedRequests

/-!
# C59 for pickup and delivery, and for time windows without conditions on cycles

In these problems every feasible point of the pricing problem is a route, so that nothing is asked of the test for negative cycles, and
all vehicles may have to be used.
-/

namespace Vrpy

open Spec PricingLP

theorem subProblem_weight {G : Net} {d : Duals} {k : Nat} {route : Option ColName} {paths : PathsOracle} {s : Strategy}
    {w : Node → Node → ℚ} {S : SubGraph} (hs : subProblem G d k route paths s = .ok (w, S)) : reducedCosts G d k route = .ok w := by
  unfold subProblem at hs
  cases hw : reducedCosts G d k route with
  | error e => simp [hw] at hs
  | ok w' =>
    simp only [hw] at hs
    cases s with
    | exact => simp only [Except.ok.injEq, Prod.mk.injEq] at hs; rw [hs.1]
    | bestEdges1 alpha =>
      simp only at hs
      split at hs
      · cases hs
      · simp only [Except.ok.injEq, Prod.mk.injEq] at hs; rw [hs.1]
    | bestEdges2 ratio => simp only [Except.ok.injEq, Prod.mk.injEq] at hs; rw [hs.1]
    | bestPaths beta =>
      simp only at hs
      split at hs
      · cases hs
      · simp only [Except.ok.injEq, Prod.mk.injEq] at hs; rw [hs.1]

/-- A column found stands for a route of negative reduced cost. -/
theorem timed_column {cfg : SolveCfg} {env : Env} {d : Duals} {t k : Nat} {route : Option ColName} {s : Strategy}
    {cols cols' : List Column} (hcspy : cfg.cspy = false) (hG : WellFormed cfg.M.G) (hsound : SolverSound (env.pricing t))
    (hpaths : PathsOk (env.paths t))
    (htimed : ∀ q : PricingLP, IsSubgraph q.G cfg.M.G → q.timeWindows = cfg.timeWindows →
      q.pickupDelivery = cfg.pickupDelivery → TimedOrRanked q)
    (h : Solve.price cfg env t d k route cols s = .ok (cols', true)) :
    ∃ c w r, cols' = cols ++ [c] ∧ reducedCosts cfg.M.G d k route = .ok w ∧ c.vehicleType = k ∧ Encodes cfg.M.G c r ∧ Draws c r ∧
      IsSimpleRoute cfg.M.G r ∧ legSum w r < 0 := by
  unfold Solve.price at h
  cases hs : subProblem cfg.M.G d k route (env.paths t) s with
  | error e => simp [hs] at h
  | ok wS =>
    obtain ⟨w, S⟩ := wS
    simp only [hs, hcspy, Bool.false_eq_true, if_false] at h
    have hsub := C15_subgraph hs
    have hwf := subProblem_wf hG hpaths hs
    generalize hq : ({ G := S.G, weight := w, vehicleType := k, caps := cfg.caps, numStops := cfg.numStops,
                       duration := cfg.duration, timeWindows := cfg.timeWindows, pickupDelivery := cfg.pickupDelivery,
                       distributionCollection := cfg.distributionCollection, negCycle := env.negCycle cfg.M.G w } :
                         PricingLP) = q at h
    have hqG : q.G = S.G := by rw [← hq]
    have hqk : q.vehicleType = k := by rw [← hq]
    have hqw : q.weight = w := by rw [← hq]
    rw [← hqG] at hwf hsub
    have ht := htimed q hsub (by rw [← hq]) (by rw [← hq])
    obtain ⟨c, r, rfl, _, htype, henc, hsimple, hneg⟩ := solve_column (A := fun r => IsSimpleRoute q.G r) hsound (by
      intro prob hform hfeas _ _
      obtain ⟨cap, rfl, hcap⟩ := formulate_inv hform
      obtain ⟨mid, hne, hr, hperm⟩ := timed_route hwf ht hfeas
      have hobj := objective_split hfeas (r := routeOf mid) (R := []) (by rw [List.append_nil]; exact hperm)
      exact ⟨routeOf mid, hr, hperm, by rw [hobj]; simp, hr⟩) h
    have hpath := PricingLP.solve_no_path h
    have hcost : Spec.cost q.G c.vehicleType r = Spec.cost cfg.M.G c.vehicleType r := by
      simp only [Spec.cost, hsub.cost]
    refine ⟨c, w, r, rfl, subProblem_weight hs, by rw [htype, hqk], ⟨henc.nodes, henc.edges, by rw [← hcost]; exact henc.cost⟩,
      ⟨henc.nodes, henc.edges, fun p hp => by rw [hpath] at hp; cases hp⟩, isSimpleRoute_mono hsub.nodes hsub.arcs hsimple, ?_⟩
    rw [hqw] at hneg
    exact lt_trans hneg (by norm_num)

theorem timed_pricing {cfg : SolveCfg} {env : Env} (hcspy : cfg.cspy = false)
    (hgreedy : Solve.usesGreedy cfg = false) (hK : 0 < cfg.K) (hG : WellFormed cfg.M.G)
    (hcost : ∀ k u v, v ∈ cfg.M.G.succ u → 0 ≤ (cfg.M.G.cost u v).getD k 0) (hspan : cfg.M.globalSpan = false)
    (hsound : ∀ t, SolverSound (env.pricing t)) (hpaths : ∀ t, PathsOk (env.paths t))
    (htimed : ∀ q : PricingLP, IsSubgraph q.G cfg.M.G → q.timeWindows = cfg.timeWindows →
      q.pickupDelivery = cfg.pickupDelivery → TimedOrRanked q) : Solve.LpPricing cfg env where
  types := hK
  wf := hG
  cost := hcost
  span := hspan
  draws := by
    intro _ d _
    constructor
    · intro k hk t route cols s cols' _ h c hc
      obtain ⟨c', w, r, rfl, _, _, _, h1, h2, _⟩ := timed_column hcspy hG (hsound t) (hpaths t) htimed h
      rw [List.mem_append, List.mem_singleton] at hc
      rcases hc with hc | rfl
      · exact Or.inl hc
      · exact Or.inr ⟨r, h2, h1⟩
    · intro k hk st st' h c hc
      unfold Solve.greedyPhase at h
      rw [hgreedy] at h
      simp only [Bool.false_eq_true, if_false, pure, Except.pure, Except.ok.injEq] at h
      subst h
      exact Or.inl hc
  column := by
    intro _ d _ t k route s cols c _ h
    obtain ⟨c', w, r, he, h1, h2, h3, _, h4, h5⟩ := timed_column hcspy hG (hsound t) (hpaths t) htimed h
    simp only [List.append_cancel_left_eq, List.cons.injEq, and_true] at he
    subst he
    exact ⟨w, r, h1, h2, h3, h4, h5⟩

theorem requests_pricing {w : World} {a : SolveArgs} {P0 P' : Vrp} {K : Nat} {N N3 : Net} (hw : LpSound w)
    (hP : PickupDelivery P0) (hD : ∀ k u v, UserArc P0.G u v → 0 ≤ userArcCost P0 k u v) (hspan : P0.minimizeGlobalSpan = false)
    (S : Searched P0 P' K N N3) (hcspy : a.cspy = false) (rs : List (List Node)) :
    Solve.LpPricing (({ P' with initialRoutes := rs } : Vrp).solveCfg a w.falsy) w.toEnv := by
  obtain ⟨f1, f2, f3, f4, f5, f6, f7, f8, f9, f10, f11⟩ := S.fields
  have hMG : (({ P' with initialRoutes := rs } : Vrp).solveCfg a w.falsy).M.G = N3 := by
    show P'.G.toNet = N3
    rw [S.graph]
    rfl
  refine timed_pricing hcspy (by simp [Solve.usesGreedy, Vrp.solveCfg, f3, hP.pickupDelivery]) ?_ (by rw [hMG]; exact S.wfSearch)
    (by rw [hMG]; exact fun k u v hv => S.cost_nonneg hD k (S.same.succ u v hv)) (f9.trans hspan) hw.sound hw.paths ?_
  · show 0 < P'.vehicleTypes.getD 0
    rw [S.types]
    exact S.typesPos
  · intro q _ _ hpd
    left
    have : q.pickupDelivery = true := hpd.trans (f3.trans hP.pickupDelivery)
    simp [PricingLP.ranked, this]

theorem windows_pricing {w : World} {a : SolveArgs} {P0 P' : Vrp} {K : Nat} {N N3 : Net} (hw : LpSound w)
    (htw : P0.timeWindows = true) (htime : TravelTakesTime P0)
    (hD : ∀ k u v, UserArc P0.G u v → 0 ≤ userArcCost P0 k u v) (hspan : P0.minimizeGlobalSpan = false)
    (S : Searched P0 P' K N N3) (hcspy : a.cspy = false) (rs : List (List Node)) :
    Solve.LpPricing (({ P' with initialRoutes := rs } : Vrp).solveCfg a w.falsy) w.toEnv := by
  obtain ⟨f1, f2, f3, f4, f5, f6, f7, f8, f9, f10, f11⟩ := S.fields
  have hMG : (({ P' with initialRoutes := rs } : Vrp).solveCfg a w.falsy).M.G = N3 := by
    show P'.G.toNet = N3
    rw [S.graph]
    rfl
  refine timed_pricing hcspy (by simp [Solve.usesGreedy, Vrp.solveCfg, f2, htw]) ?_ (by rw [hMG]; exact S.wfSearch)
    (by rw [hMG]; exact fun k u v hv => S.cost_nonneg hD k (S.same.succ u v hv)) (f9.trans hspan) hw.sound hw.paths ?_
  · show 0 < P'.vehicleTypes.getD 0
    rw [S.types]
    exact S.typesPos
  · intro q hsub hqtw _
    rw [hMG] at hsub
    refine Or.inr ⟨hqtw.trans (f2.trans htw), fun u v hv hu hs => ?_⟩
    rw [hsub.service, hsub.time]
    exact S.timed htime (hsub.arcs u v hv) hu hs

/-- **C59, pickup and delivery.** Whatever the pricing strategy, with or without diving, preassigned routes, time windows and
with all vehicles used or not: if the costs are not negative and the dual values are as they should be, `solve()` ends after a number of
steps depending only on the network.  Nothing is asked of the test for negative cycles. -/
theorem C59_requests {w : World} {a : SolveArgs} {P0 : Vrp} {o : Obj} (hw : LpSound w)
    (hd : a.dive = true → DiveOk w.toEnv) (hP : PickupDelivery P0) (hD : ∀ k u v, UserArc P0.G u v → 0 ≤ userArcCost P0 k u v)
    (hfree : SomeCustomerFree P0 a.preassignments)
    (hwhole : RequestsWhole P0 a.preassignments) (hinit : RequestsBesideLocked P0 a.preassignments a.initialRoutes)
    (hc : Obj.create P0 = .ok o) (hduals : DualsAsExpected w a o) :
    ∃ n outcome, (∀ fuel, n ≤ fuel → o.solve w a fuel = outcome) ∧ outcome ≠ .ok none := by
  have hdem : ∀ v ∈ P0.G.nodes, P0.pickupDelivery = false ∨ v = .source ∨ v = .sink → 0 ≤ userDemand P0.G v := by
    intro v hv hd
    rcases hd with hd | hd
    · rw [hP.pickupDelivery] at hd
      cases hd
    · exact hP.depots v hv hd
  rcases Bool.eq_false_or_eq_true P0.minimizeGlobalSpan with hspan | hspan
  · exact C59_terminates_span hP.wf hP.customer hP.costs hdem hspan hc
  refine solve_ends (fun P' hs => chooseInitial_locked hP.wf hP.customer hP.costs hdem hc hs) ?_
  intro P' fuel0 rs cols hs hi hnum
  have hcspy := startSolve_no_cspy (w := w) hc hP.pickupDelivery hs
  obtain ⟨K, N, N3, R, S⟩ := searched_locked (w := w) hP.wf hP.customer hP.costs hdem hc hs
  have U := userData_locked (w := w) hP.wf (fun hf => by rw [hP.pickupDelivery] at hf; cases hf) hc hs R.reports
  have hP' := without_requests hP (free_nodes hfree) R.depots.1 (whole_locked hP.toRequestsData hwhole)
  have hN3 : P'.G.toNet = N3 := by
    have := S.graph
    simp only at this
    rw [this]
    rfl
  obtain ⟨_, hgood, _⟩ := initial_requests hP'.toRequestsData S U
    (by
      show ∀ r ∈ P'.initialRoutes, _
      rw [startSolve_initial hc hs]
      exact requests_initial_without R.depots hinit) (initialize_locked _ hi)
  refine locked_ends hd hw.master (requests_pricing hw hP' ?_ hspan S hcspy rs) hN3 hduals hs hi hnum (R.more (free_nodes hfree)) ?_
  · exact without_cost_nonneg hP.wf hD
  intro c hcc
  obtain ⟨n, hn⟩ := initial_names hi c hcc
  obtain ⟨_, ⟨n', hn'⟩ | ⟨r, h1, h2, _⟩⟩ := hgood c hcc
  · rw [hn] at hn'; cases hn'
  exact ⟨r, h1, h2⟩

/-- **C59, time windows.** As `C59_requests`, for problems with time windows, with or without collection, in which going
from a customer to another takes time. -/
theorem C59_windows {w : World} {a : SolveArgs} {P0 : Vrp} {o : Obj} (hw : LpSound w)
    (hd : a.dive = true → DiveOk w.toEnv) (hP : WindowedOrCollecting P0) (htw : P0.timeWindows = true) (htime : TravelTakesTime P0)
    (hD : ∀ k u v, UserArc P0.G u v → 0 ≤ userArcCost P0 k u v)
    (hfree : SomeCustomerFree P0 a.preassignments)
    (hinit : InitialBesideLocked P0 a.preassignments a.initialRoutes)
    (hc : Obj.create P0 = .ok o) (hduals : DualsAsExpected w a o) :
    ∃ n outcome, (∀ fuel, n ≤ fuel → o.solve w a fuel = outcome) ∧ outcome ≠ .ok none := by
  rcases Bool.eq_false_or_eq_true P0.minimizeGlobalSpan with hspan | hspan
  · exact C59_terminates_span hP.wf hP.customer hP.costs (fun v hv _ => hP.demand v hv) hspan hc
  rcases Bool.eq_false_or_eq_true a.cspy with hcspy | hcspy
  · exact C59_terminates_cspy hP.wf hP.customer hP.costs (fun v hv _ => hP.demand v hv) hcspy hc
  refine solve_ends
    (fun P' hs => chooseInitial_locked hP.wf hP.customer hP.costs (fun v hv _ => hP.demand v hv) hc hs) ?_
  intro P' fuel0 rs cols hs hi hnum
  obtain ⟨K, N, N3, R, S⟩ := searched_locked (w := w) hP.wf hP.customer hP.costs (fun v hv _ => hP.demand v hv) hc hs
  have U := userData_locked (w := w) hP.wf (fun _ => hP.demand) hc hs R.reports
  have hP' := without_variant hP (free_nodes hfree) R.depots.1
  have hN3 : P'.G.toNet = N3 := by
    have := S.graph
    simp only at this
    rw [this]
    rfl
  obtain ⟨_, hgood, _⟩ := initial_limits hP'.toVariantData S U
    (by
      show ∀ r ∈ P'.initialRoutes, _
      rw [startSolve_initial hc hs]
      exact initial_without R.depots hinit) (initialize_locked _ hi)
  refine locked_ends hd hw.master (windows_pricing (P0 := withoutNodes P0 _) hw htw (without_travel htime) ?_ hspan S hcspy rs) hN3 hduals hs hi hnum
    (R.more (free_nodes hfree)) ?_
  · exact without_cost_nonneg hP.wf hD
  intro c hcc
  obtain ⟨n, hn⟩ := initial_names hi c hcc
  obtain ⟨_, ⟨n', hn'⟩ | ⟨r, h1, h2, _⟩⟩ := hgood c hcc
  · rw [hn] at hn'; cases hn'
  exact ⟨r, h1, h2⟩

/-! ## The hypotheses can hold -/

/-- The dual values: 20 for each customer, the cost of the round trips; 1 for customer 2 when the route to both is found. -/
def windowsDual (prob : LP MVar) (v : Node) : ℚ :=
  if v.isDepot then 0 else if prob.vars.any (fun d => d.var = .y (.num 3)) && decide (v = .cust 2) then 1 else 20

def windowsDiveArgs : SolveArgs := { cspy := false, dive := true, initialRoutes := [routeOf [.cust 1], routeOf [.cust 2]] }

theorem exBoth_cost_nonneg : ∀ k u v, UserArc exBoth.G u v → 0 ≤ userArcCost exBoth k u v := by
  intro k u v _
  simp only [userArcCost, exBoth, userCost, userFixedCost]
  have h : ∀ x : ℚ, (x = 1 ∨ x = 10 ∨ x = 0 ∨ x = 3) → 0 ≤ x := by rintro x (rfl | rfl | rfl | rfl) <;> norm_num
  refine ite_nonneg' (add_nonneg (h _ ?_) (h _ ?_)) (ite_nonneg' (le_refl _) (add_nonneg (by norm_num) (h _ ?_)))
  all_goals (repeat' split) <;> simp

theorem windowsDive_initial : InitialBesideLocked exBoth [] windowsDiveArgs.initialRoutes := by
  intro r hr
  have h : r = routeOf [.cust 1] ∨ r = routeOf [.cust 2] := by simpa [windowsDiveArgs] using hr
  refine ⟨by rcases h with rfl | rfl <;> decide, fun _ _ p hp => (by cases hp), ?_⟩
  intro mid k hm hload
  have hmid : mid = [.cust 1] ∨ mid = [.cust 2] := by
    rcases h with rfl | rfl <;> simp only [routeOf, List.cons.injEq, true_and] at hm <;>
      have := List.append_cancel_right hm <;> simp [← this]
  have hdur : Within exBoth.duration.limit (userDuration exBoth.G (routeOf mid)) := by
    intro d hd _
    have hd' : (40 : ℚ) = d := by simpa [exBoth, PyVal.limit] using hd
    rw [← hd']
    rcases hmid with rfl | rfl <;> decide +kernel
  have hd : ∀ v ∈ exBoth.G.nodes, userCollect exBoth.G v ≤ 5 ∧ userDemand exBoth.G v ≤ 5 := by decide +kernel
  have hcap : userCapacities exBoth.loadCapacity = [5] := by decide +kernel
  refine ⟨⟨fun m hm' => (by cases hm'), hload, fun _ => ?_, ?_, fun _ => hdur⟩, hdur⟩
  · rcases hmid with rfl | rfl <;> simp only [UserOnTime, routeOf, List.cons_append, List.nil_append] <;> decide +kernel
  · intro _ pre post hpp hne
    obtain ⟨c, hc, _⟩ := hload hne
    refine ⟨c, hc, ?_⟩
    have hc5 : c = 5 := by
      rw [hcap] at hc
      have := List.mem_of_getElem? hc
      simpa using this
    rw [hc5]
    have h1 := hd (.cust 1) (by decide)
    have h2 := hd (.cust 2) (by decide)
    rcases hmid with rfl | rfl <;> rcases pre with _ | ⟨x, _ | ⟨y, l⟩⟩ <;> simp at hpp <;>
      (try obtain ⟨rfl, rfl⟩ := hpp) <;> simp [h1.1, h1.2, h2.1, h2.2]

/-- All hypotheses of `C59_windows` hold for the example; pricing finds the better route. -/
example : let w := diveWorld [choosing [3], choosing [1, 2]] windowsDual [exPoint]
    (∃ o, Obj.create exBoth = .ok o ∧
      ∃ n outcome, (∀ fuel, n ≤ fuel → o.solve w windowsDiveArgs fuel = outcome) ∧ outcome ≠ .ok none) ∧
    planOf w windowsDiveArgs 5 exBoth = .ok (some ⟨[(1, routeOf [.cust 1, .cust 2])], [(1, 0)], []⟩) := by
  intro w
  obtain ⟨o, ho, hd⟩ := diveDualsOk_ok (w := w) (a := windowsDiveArgs) (n := 5) (P := exBoth) (by decide +kernel)
  exact ⟨⟨o, ho, C59_windows (diveWorld_lp _ _ _) (fun _ => diveWorld_dive _ _ _) exBoth_ok rfl exBoth_timed
    exBoth_cost_nonneg ⟨1, by decide, fun p hp => (by cases hp)⟩ windowsDive_initial ho hd⟩,
    Solve.eq_ok_of_toOption (by decide +kernel)⟩

/-- The dual value of the pickup 1 is the cost of its trip. -/
def requestDual (_ : LP MVar) (v : Node) : ℚ := if v = .cust 1 then 21 else 0

def requestDiveArgs : SolveArgs :=
  { cspy := false
    dive := true
    initialRoutes := [routeOf [.cust 1, .cust 3]]
    preassignments := [routeOf [.cust 2, .cust 4]] }

theorem exRequests_cost_nonneg : ∀ k u v, UserArc exRequests.G u v → 0 ≤ userArcCost exRequests k u v := by
  intro k u v _
  simp only [userArcCost, exRequests, userCost, userFixedCost]
  have h : ∀ x : ℚ, (x = 1 ∨ x = 10 ∨ x = 0 ∨ x = 3) → 0 ≤ x := by rintro x (rfl | rfl | rfl | rfl) <;> norm_num
  refine ite_nonneg' (add_nonneg (h _ ?_) (h _ ?_)) (ite_nonneg' (le_refl _) (add_nonneg (by norm_num) (h _ ?_)))
  all_goals (repeat' split) <;> simp

theorem requestDive_initial : RequestsBesideLocked exRequests requestDiveArgs.preassignments requestDiveArgs.initialRoutes := by
  intro r hr
  have h : r = routeOf [.cust 1, .cust 3] := by simpa [requestDiveArgs] using hr
  subst h
  refine ⟨by decide, ?_, ?_⟩
  · intro n hn p hp _
    simp only [requestDiveArgs, List.mem_cons, List.not_mem_nil, or_false] at hp
    subst hp
    simp [routeOf] at hn ⊢
    omega
  intro mid k hm hload
  have hmid : mid = [.cust 1, .cust 3] := by
    simp only [routeOf, List.cons.injEq, true_and] at hm
    exact (List.append_cancel_right hm).symm
  subst hmid
  have hdur : Within exRequests.duration.limit (userDuration exRequests.G (routeOf [.cust 1, .cust 3])) := by
    intro d hd _
    have hd' : (60 : ℚ) = d := by simpa [exRequests, PyVal.limit] using hd
    rw [← hd']
    decide +kernel
  have hwin : UserOnTime exRequests.G (routeOf [.cust 1, .cust 3]) := by
    simp only [UserOnTime, routeOf, List.cons_append, List.nil_append]
    decide +kernel
  refine ⟨⟨?_, ?_, ?_, ?_, by decide +kernel, fun _ _ => hwin, fun _ => hdur⟩, hdur, fun _ => hwin⟩
  · intro m hm' _
    have hm' : (4 : Nat) = m := by simpa [exRequests, PyVal.stops] using hm'
    simp
    omega
  · intro v w hvw
    rcases exRequests_request hvw with ⟨rfl, rfl⟩ | ⟨rfl, rfl⟩ <;> simp
  · intro v w hvw hv
    rcases exRequests_request hvw with ⟨rfl, rfl⟩ | ⟨rfl, rfl⟩
    · exact List.Sublist.refl _
    · simp at hv
  · intro pre post hpp
    have hsum : 0 ≤ (pre.map (userDemand exRequests.G)).sum ∧ (pre.map (userDemand exRequests.G)).sum ≤ 2 := by
      rcases pre with _ | ⟨x, _ | ⟨y, _ | ⟨z, l⟩⟩⟩
      · simp
      · simp at hpp; rw [hpp.1.symm]; decide +kernel
      · simp at hpp; rw [hpp.1.symm, hpp.2.1.symm]; decide +kernel
      · simp at hpp
    refine ⟨hsum.1, fun hne => ?_⟩
    obtain ⟨c, hc, _⟩ := hload hne
    refine ⟨c, hc, ?_⟩
    have hc5 : c = 5 := by
      have hcap : userCapacities exRequests.loadCapacity = [5] := by decide +kernel
      rw [hcap] at hc
      have := List.mem_of_getElem? hc
      simpa using this
    rw [hc5]
    linarith [hsum.2]

/-- All hypotheses of `C59_requests` hold for two requests, one on a preassigned route. -/
example : let w := diveWorld [choosing [1]] requestDual []
    (∃ o, Obj.create exRequests = .ok o ∧
      ∃ n outcome, (∀ fuel, n ≤ fuel → o.solve w requestDiveArgs fuel = outcome) ∧ outcome ≠ .ok none) ∧
    planOf w requestDiveArgs 5 exRequests =
      .ok (some ⟨[(1, routeOf [.cust 1, .cust 3]), (2, routeOf [.cust 2, .cust 4])], [(1, 0), (2, 0)], []⟩) := by
  intro w
  obtain ⟨o, ho, hd⟩ := diveDualsOk_ok (w := w) (a := requestDiveArgs) (n := 5) (P := exRequests) (by decide +kernel)
  refine ⟨⟨o, ho, C59_requests (diveWorld_lp _ _ _) (fun _ => diveWorld_dive _ _ _) exRequests_ok
    exRequests_cost_nonneg ⟨1, by decide, ?_⟩ ?_ requestDive_initial ho hd⟩, Solve.eq_ok_of_toOption (by decide +kernel)⟩
  · intro p hp _
    simp only [requestDiveArgs, List.mem_cons, List.not_mem_nil, or_false] at hp
    subst hp
    decide
  · intro v w hvw
    simp only [requestDiveArgs, List.mem_cons, List.not_mem_nil, or_false, exists_eq_left]
    rcases exRequests_request hvw with ⟨rfl, rfl⟩ | ⟨rfl, rfl⟩
    · simp [routeOf]
    · simp [routeOf]

end Vrpy
