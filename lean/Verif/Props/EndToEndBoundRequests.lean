import Verif.Props.EndToEndBound
import Verif.Props.EndToEndRequests
import Verif.Props.CspyBoundCases

/-!
# C70 for problems with pickup and delivery
-/

namespace Vrpy

open Spec

/-- A vehicle of type `k` can visit `mid`, is on time and does not take too long. -/
structure Spec.RequestRoute (P : Vrp) (k : Nat) (mid : List Node) : Prop where
  limits : RequestLimits P k mid
  windows : P.timeWindows = true → UserOnTime P.G (routeOf mid)
  duration : Within P.duration.limit (userDuration P.G (routeOf mid))

/-- The routes transport the requests, within the limits. -/
def Spec.TransportsWithin (P : Vrp) (K : Nat) (S : Solution) : Prop :=
  PlanFor P K (fun k r => ∃ mid, r = routeOf mid ∧ RequestRoute P k mid) S

/-- The route is within the limits of the pricing problem with requests. -/
structure AllowedRequests (P0 P' : Vrp) (N3 : Net) (k : Nat) (r : List Node) : Prop where
  admissible : Admissible (searchLimits P0 P' N3 k) r
  requests : ∀ c, (userCapacities P0.loadCapacity)[k]? = some c → RequestsFit (searchLimits P0 P' N3 k) c r

theorem within_someCarries {caps : List ℚ} {k : Nat} {x : ℚ} (hx : WithinCapacity caps k x) : SomeCarries caps x := by
  by_cases h0 : caps = []
  · exact Or.inl h0
  · obtain ⟨c, hc, hle⟩ := hx h0
    exact Or.inr ⟨c, List.mem_of_getElem? hc, hle⟩

/-- Such a route is admissible for pricing. -/
theorem Searched.admissible_requests {P0 P' : Vrp} {K : Nat} {N N3 : Net} (S : Searched P0 P' K N N3) (R : Reported P0 P' [] K N)
    (U : UserData P0 P' N) (hP : RequestsData P0) (htimes : P0.timeWindows = true → TimesMakeSense P0)
    {k : Nat}
    {mid : List Node} (hmid : ∀ v ∈ mid, (∃ n, v = .cust n) ∧ v ∈ P0.G.nodes) (hnd : mid.Nodup) (hne : mid ≠ [])
    (hal : Along (UserArc P0.G) (routeOf mid)) (hlim : RequestRoute P0 k mid) : AllowedRequests P0 P' N3 k (routeOf mid) := by
  have hmidc : ∀ v ∈ mid, v ∈ N.customers := by
    intro v hv
    obtain ⟨⟨n, rfl⟩, hn⟩ := hmid v hv
    exact mem_customers.2 ⟨by rw [S.userNodes]; exact hn, by simp, by simp⟩
  have hdem : ∀ l : List Node, (∀ v ∈ l, v ∈ mid) → (l.map N.demand).sum = (l.map (userDemand P0.G)).sum := fun l hl => by
    rw [List.map_congr_left (fun v hv => S.demand v (hmidc v (hl v hv)))]
  have hs : Node.source ∉ mid := fun h => by simpa using (mem_customers.1 (hmidc _ h)).2.1
  have ht : Node.sink ∉ mid := fun h => by simpa using (mem_customers.1 (hmidc _ h)).2.2
  have hnd' : (routeOf mid).Nodup := by
    simp [routeOf, List.nodup_append, hnd, hs]
    intro a ha h
    exact ht (h ▸ ha)
  -- what is on board after the first nodes of the route
  have hpre : ∀ pre post, routeOf mid = pre ++ post → ∃ q q', mid = q ++ q' ∧
      (pre.map N.demand).sum = (q.map (userDemand P0.G)).sum := by
    intro pre post hpp
    cases pre with
    | nil => exact ⟨[], mid, rfl, rfl⟩
    | cons x pre =>
      rw [routeOf, List.cons_append, List.cons.injEq] at hpp
      obtain ⟨rfl, hpp⟩ := hpp
      rcases List.eq_nil_or_concat post with rfl | ⟨post, z, rfl⟩
      · rw [List.append_nil] at hpp
        subst hpp
        refine ⟨mid, [], by simp, ?_⟩
        simp only [List.map_cons, List.map_append, List.map_nil, List.sum_cons, List.sum_append, List.sum_nil, S.demandDepots.1,
          S.demandDepots.2, add_zero, zero_add]
        exact hdem mid (fun _ h => h)
      · rw [List.concat_eq_append, ← List.append_assoc] at hpp
        obtain ⟨h1, _⟩ := List.append_inj' hpp rfl
        refine ⟨pre, post, h1, ?_⟩
        rw [List.map_cons, List.sum_cons, S.demandDepots.1, zero_add]
        exact hdem pre (fun v hv => by rw [h1]; simp [hv])
  have hzero : SomeCarries (userCapacities P0.loadCapacity) (mid.map (userDemand P0.G)).sum :=
    within_someCarries (hlim.limits.load mid [] (by simp)).2
  obtain ⟨h1, h2, h3⟩ := S.keeps_of R U htimes hmid hal (by
    intro u v huv
    obtain ⟨pre, post, hpp⟩ := mem_consecutive_iff.1 huv
    obtain ⟨q1, q1', e1, e2⟩ := hpre pre (u :: v :: post) hpp
    obtain ⟨q2, q2', e3, e4⟩ := hpre (pre ++ [u, v]) post (by rw [hpp]; simp)
    have h5 := (hlim.limits.load q1 q1' e1).1
    have h6 := within_someCarries (hlim.limits.load q2 q2' e3).2
    rw [← e2] at h5
    rw [← e4] at h6
    simp only [List.map_append, List.map_cons, List.map_nil, List.sum_append, List.sum_cons, List.sum_nil, add_zero] at h6
    rcases h6 with h0 | ⟨c, hc, hle⟩
    · exact Or.inl h0
    · exact Or.inr ⟨c, hc, by linarith⟩) hlim.windows
  obtain ⟨hl, hst⟩ := load_user S hmid
  refine ⟨⟨⟨h2, hnd'⟩, by rw [stops_routeOf hmidc]; exact hne, ?_, ?_, ?_, h3⟩, ?_⟩
  · show WithinStops P'.numStops.stops _
    rw [hst]
    refine S.stopsKept (fun hf => ?_) mid hnd hmidc ?_ (fun hf => ?_) hlim.limits.stops
    · rw [hP.distributionCollection] at hf
      cases hf
    · rw [hdem mid (fun _ h => h)]
      exact hzero
    · rw [hP.distributionCollection] at hf
      cases hf
  · show WithinCapacity _ k (load N3 (routeOf mid))
    rw [hl]
    exact (hlim.limits.load mid [] (by simp)).2
  · show Within _ (Spec.duration N3 (routeOf mid))
    have : Spec.duration N3 (routeOf mid) = Spec.duration N (routeOf mid) := by
      unfold Spec.duration travel
      rw [S.same.time, S.same.service]
    rw [this, duration_user S h1.choose_spec.2.2 (route_mem_nodes S.wf h1)]
    exact hlim.duration
  · intro c hc
    have hcpos := S.capsPos c (List.mem_of_getElem? hc)
    have hsmall : ∀ v ∈ N.customers, N.demand v ≤ c := by
      intro v hv
      by_cases hm : P0.mixedFleet = true
      · rw [S.demand v hv]
        obtain ⟨v1, v2, v3⟩ := mem_customers.1 hv
        cases v with
        | source => exact absurd rfl v2
        | sink => exact absurd rfl v3
        | cust n =>
          have hn : Node.cust n ∈ P0.G.nodes := by rw [← S.userNodes]; exact v1
          cases hr : (P0.G.nd (.cust n)).request with
          | some w => exact hP.fits hm _ w ⟨hn, hr⟩ c (List.mem_of_getElem? hc)
          | none =>
            by_cases hto : ∃ u, Request P0 u (.cust n)
            · obtain ⟨u, hu⟩ := hto
              have := hP.amounts u _ hu
              linarith
            · rw [hP.others n hn hr (fun u hu => hto ⟨u, hu⟩)]
              exact hcpos.le
      · have hone := hP.oneCapacity (by simpa using hm)
        rcases S.fit v hv with h0 | ⟨c', hc', hle⟩
        · rw [h0] at hc
          cases hc
        · have : c' = c := by
            have hmem := List.mem_of_getElem? hc
            match hu : userCapacities P0.loadCapacity with
            | [] => rw [hu] at hmem; cases hmem
            | [x] =>
              rw [hu] at hmem hc'
              simp only [List.mem_singleton] at hmem hc'
              rw [hmem, hc']
            | _ :: _ :: _ => rw [hu] at hone; simp at hone
          rw [← this]
          exact hle
    refine ⟨?_, ?_, ?_, ?_, ?_⟩
    · intro v hv
      show -c ≤ N3.demand v ∧ N3.demand v ≤ c
      rw [S.same.demand]
      have hv : v ∈ N.nodes := by rw [← S.nodes]; exact hv
      by_cases hsv : v = .source
      · rw [hsv, S.demandDepots.1]
        constructor <;> linarith
      by_cases htv : v = .sink
      · rw [htv, S.demandDepots.2]
        constructor <;> linarith
      have hvc : v ∈ N.customers := mem_customers.2 ⟨hv, hsv, htv⟩
      refine ⟨?_, hsmall v hvc⟩
      rw [S.demand v hvc]
      have hn : v ∈ P0.G.nodes := by rw [← S.userNodes]; exact hv
      cases v with
      | source => exact absurd rfl hsv
      | sink => exact absurd rfl htv
      | cust n =>
        cases hr : (P0.G.nd (.cust n)).request with
        | some w =>
          have := (hP.amounts _ w ⟨hn, hr⟩).1
          linarith
        | none =>
          by_cases hto : ∃ u, Request P0 u (.cust n)
          · obtain ⟨u, hu⟩ := hto
            obtain ⟨⟨m, rfl⟩, _⟩ := hP.ends u _ hu
            have hmc : Node.cust m ∈ N.customers := mem_customers.2 ⟨by rw [S.userNodes]; exact hu.1, by simp, by simp⟩
            have h5 := (hP.amounts _ _ hu).2
            have h6 := hsmall _ hmc
            rw [S.demand _ hmc] at h6
            linarith
          · rw [hP.others n hn hr (fun u hu => hto ⟨u, hu⟩)]
            linarith
    · intro v hv w hvw
      have hv : v ∈ N.nodes := by rw [← S.nodes]; exact hv
      have hreq : Request P0 v w := by
        refine ⟨by rw [← S.userNodes]; exact hv, ?_⟩
        rw [← U.request v hv, ← S.same.request]
        exact hvw
      obtain ⟨⟨n, rfl⟩, ⟨m, rfl⟩, hw, _⟩ := hP.ends v w hreq
      exact ⟨mem_customers.2 ⟨by rw [← S.nodes] at hv; exact hv, by simp, by simp⟩,
        mem_customers.2 ⟨by show _ ∈ N3.nodes; rw [S.nodes, S.userNodes]; exact hw, by simp, by simp⟩⟩
    · intro v hv w hvw
      have hv : v ∈ N.nodes := by rw [← S.nodes]; exact hv
      have hreq : Request P0 v w := by
        refine ⟨by rw [← S.userNodes]; exact hv, ?_⟩
        rw [← U.request v hv, ← S.same.request]
        exact hvw
      obtain ⟨⟨n, rfl⟩, ⟨m, rfl⟩, hw, _⟩ := hP.ends v w hreq
      have h5 := hlim.limits.together _ _ hreq
      refine ⟨by simpa [routeOf] using h5, fun h6 => ?_⟩
      have h7 := hlim.limits.order _ _ hreq (by simpa [routeOf] using h6)
      exact (h7.trans (List.sublist_append_left mid [.sink])).cons _
    · intro pre post hpp
      obtain ⟨q, q', e1, e2⟩ := hpre pre post hpp
      show 0 ≤ (pre.map N3.demand).sum ∧ (pre.map N3.demand).sum ≤ c
      rw [S.same.demand, e2]
      obtain ⟨h5, h6⟩ := hlim.limits.load q q' e1
      refine ⟨h5, ?_⟩
      obtain ⟨c', hc', hle⟩ := h6 (by intro h0; rw [h0] at hc; cases hc)
      rw [hc] at hc'
      cases hc'
      exact hle
    · show load N3 (routeOf mid) = 0
      rw [hl]
      exact hlim.limits.empty

/-- What column generation ends with, with pickup and delivery. -/
theorem requests_generation {w : World} {a : SolveArgs} {fuel : Nat} {P0 P' : Vrp} {o : Obj} {rs : List (List Node)} {cols : List Column}
    {K : Nat} {N N3 : Net} {m : Heur} {stc : SolveState}
    (hexact : ∀ t, SolverExact (w.pricing t)) (hP : PickupDelivery P0)
    (hwide : P0.timeWindows = true → TimesMakeSense P0 ∧ WindowsWide P0)
    (hspan : P0.minimizeGlobalSpan = false) (hcspy : a.cspy = false) (S : Searched P0 P' K N N3) (U : UserData P0 P' N)
    (hnum : Solve.Numbered cols) (hm : PricingMode.ofName a.strategy = .fixed m)
    (hd : ∀ n stm, Solve.Trace (({ P' with initialRoutes := rs } : Vrp).solveCfg a w.falsy) w.toEnv false
        (o.start a ({ P' with initialRoutes := rs } : Vrp) cols) n stm →
      (w.master stm.tick (({ P' with initialRoutes := rs } : Vrp).master.lp stm.mcols true)).optimal = true →
      DualsOk ({ P' with initialRoutes := rs } : Vrp).master stm.mcols
        (w.master stm.tick (({ P' with initialRoutes := rs } : Vrp).master.lp stm.mcols true)))
    (hcg : Solve.columnGeneration (({ P' with initialRoutes := rs } : Vrp).solveCfg a w.falsy) w.toEnv false fuel
        (o.start a ({ P' with initialRoutes := rs } : Vrp) cols) = .ok (some stc))
    (hlim : Solve.limitReached (({ P' with initialRoutes := rs } : Vrp).solveCfg a w.falsy) stc = false)
    (htime : ∀ t, w.timeUp t = false) :
    ∃ bound, stc.bounds.getLast? = some bound ∧
      ∀ (P : Plan) (dropped : List Node), ValidPlan N3 (userFleet P0.numVehicles) P0.useAllVehicles dropped P →
        (∀ v ∈ dropped, v ∈ ({ P' with initialRoutes := rs } : Vrp).master.drops) → (∀ e ∈ P, e.1 < K) →
        (∀ e ∈ P, AllowedRequests P0 P' N3 e.1 e.2) →
        bound ≤ planCost N3 P + P0.dropPenalty * (N3.customers.filter (fun v => v ∈ dropped)).length + 1 / 1000 * P.length := by
  have hD := hP.toRequestsData
  have hN3 : P'.G.toNet = N3 := by rw [S.graph]; rfl
  obtain ⟨f1, f2, f3, f4, f5, f6, f7, f8, f9, f10, f11⟩ := S.fields
  have hK : (({ P' with initialRoutes := rs } : Vrp).solveCfg a w.falsy).K = K := by
    show P'.vehicleTypes.getD 0 = K
    rw [S.types]
    rfl
  obtain ⟨bound, hb, hbound⟩ := Solve.C34_lower_bound_partial (cfg := ({ P' with initialRoutes := rs } : Vrp).solveCfg a w.falsy)
    (env := w.toEnv) (m := m) (st := o.start a ({ P' with initialRoutes := rs } : Vrp) cols) hnum rfl f10 hm
    (by show WellFormed P'.G.toNet; rw [hN3]; exact S.wfSearch)
    (by show P'.G.toNet.demand .source = 0; rw [hN3, S.same.demand]; exact S.demandDepots.1)
    (by
      show P'.G.toNet.service .sink = 0
      rw [hN3, S.same.service]
      exact (S.serviceDepots hD.service.1 hD.service.2).2)
    hcspy (fun ht => by
      have ht : P'.timeWindows = true := ht
      rw [f2] at ht
      show WindowsFit P'.G.toNet
      rw [hN3]
      exact S.windowsFit U hD.customer hD.service (hwide ht).1 ht (hD.source ht) (hwide ht).2)
    (f9.trans hspan)
    (by
      show decide (P'.periodic.getD 0 ≠ 0) = false
      rw [f7, hP.periodic]
      rfl)
    hexact hd hcg hlim (htime _)
  have hMG : (({ P' with initialRoutes := rs } : Vrp).solveCfg a w.falsy).M.G = N3 := hN3
  have hMf : (({ P' with initialRoutes := rs } : Vrp).solveCfg a w.falsy).M.numVehicles = userFleet P0.numVehicles :=
    S.fleet hP.periodic
  have hMu : (({ P' with initialRoutes := rs } : Vrp).solveCfg a w.falsy).M.useAllVehicles = P0.useAllVehicles := f8
  have hMp : (({ P' with initialRoutes := rs } : Vrp).solveCfg a w.falsy).M.dropPenalty = P0.dropPenalty := f5
  refine ⟨bound, hb, ?_⟩
  intro P dropped p1 p6 p2 p3
  have := hbound P dropped (by rw [hMG, hMf, hMu]; exact p1) p6 (by rw [hK]; exact p2)
    (by
      intro e he
      have hadm := (p3 e he).admissible
      have e1 : (({ P' with initialRoutes := rs } : Vrp).solveCfg a w.falsy).caps = userCapacities P0.loadCapacity := S.caps
      have e2 : (({ P' with initialRoutes := rs } : Vrp).solveCfg a w.falsy).duration = P0.duration.limit := by
        show P'.duration.limit = _
        rw [f11]
      have e3 : (({ P' with initialRoutes := rs } : Vrp).solveCfg a w.falsy).timeWindows = P0.timeWindows := f2
      have e4 : (({ P' with initialRoutes := rs } : Vrp).solveCfg a w.falsy).pickupDelivery = true := f3.trans hD.pickupDelivery
      have e5 : (({ P' with initialRoutes := rs } : Vrp).solveCfg a w.falsy).distributionCollection = false :=
        f4.trans hD.distributionCollection
      have hlims : limitsOf (({ P' with initialRoutes := rs } : Vrp).solveCfg a w.falsy) e.1 =
          { searchLimits P0 P' N3 e.1 with pickupDelivery := true } := by
        unfold limitsOf
        rw [hMG, e1, e2, e3, e4, e5]
        rfl
      rw [hlims]
      refine ⟨⟨hadm.simple, hadm.nonempty, hadm.stops, hadm.load, hadm.duration, hadm.onTime⟩, fun _ c hc => ?_,
        fun hf => (by cases hf)⟩
      obtain ⟨g1, g2, g3, g4, g5⟩ := (p3 e he).requests c hc
      exact ⟨g1, g2, g3, g4, g5⟩)
  rw [hMG, hMp] at this
  exact this

/-- **C70 (partial).** The same for problems with pickup and delivery: no plan that transports the requests, picking up before
delivering in the same vehicle, with a load that always fits and within the limits on stops, duration and time windows, is cheaper
than the last value of `_lower_bound`, up to 1/1000 for each of its vehicles (if all vehicles have to be used, each one for a
customer).  The rest is as for
`C70_lower_bound_partial`. -/
theorem C70_requests_partial {w : World} {a : SolveArgs} {fuel : Nat} {P0 : Vrp} {o o' : Obj}
    (hexact : ∀ t, SolverExact (w.pricing t)) (hP : PickupDelivery P0)
    (hwide : P0.timeWindows = true → TimesMakeSense P0 ∧ WindowsWide P0)
    (hcost : ∀ k, 0 ≤ userArcCost P0 k .source .sink) (hpen : 0 ≤ P0.dropPenalty)
    (hspan : P0.minimizeGlobalSpan = false) (hpre : a.preassignments = [])
    (hheur : a.heuristicOnly = false) (hcspy : a.cspy = false) (hstrat : a.strategy ≠ "Hyper")
    (hc : Obj.create P0 = .ok o)
    (hduals : ∀ P' P'' fuel cols m stm, o.P.startSolve w.dist a.strategy a.cspy a.initialRoutes a.preassignments = .ok P' →
      P'.initialize P'.G.toNet w.cw fuel = .ok (some (P'', cols)) →
      Solve.Trace (P''.solveCfg a w.falsy) w.toEnv false (o.start a P'' cols) m stm →
      (w.master stm.tick (P''.master.lp stm.mcols true)).optimal = true →
      DualsOk P''.master stm.mcols (w.master stm.tick (P''.master.lp stm.mcols true)))
    (h : o.solve w a fuel = .ok (some o')) (hno : Spec.NotStagnant a o')
    (hiter : a.maxIter = 0 ∨ o'.iteration < a.maxIter) (htime : ∀ t, w.timeUp t = false) :
    ∃ K bound, o'.P.vehicleTypes = some K ∧ o'.bounds.getLast? = some bound ∧ ∀ S, TransportsWithin P0 K S →
      (P0.useAllVehicles = true → ∀ p ∈ S.routes, stops p.2 ≠ []) →
      bound ≤ (userCosts P0 S).sum + P0.dropPenalty * S.dropped.length + 1 / 1000 * S.routes.length := by
  have hD := hP.toRequestsData
  refine (bound_of_generation_for (tol := fun _ => 1 / 1000)
    (F := fun k r => ∃ mid, r = routeOf mid ∧ RequestRoute P0 k mid)
    (A := fun P' N3 => AllowedRequests P0 P' N3) hD.wf hD.customer hD.costs
    (fun v hv hor => by
      rcases hor with hf | hf
      · rw [hD.pickupDelivery] at hf
        cases hf
      · exact hD.depots v hv hf)
    (fun _ _ _ _ h => h.admissible.simple)
    (by
      rintro P' K N N3 S R U k _ mid hmid hnd hne hal ⟨mid', h1, h2⟩
      have : mid' = mid := by simpa [routeOf] using h1.symm
      subst this
      exact S.admissible_requests R U hD (fun ht => (hwide ht).1) hmid hnd hne hal h2)
    hcost hpen hpre hheur hstrat hc ?_ h hno hiter).imp
    (fun K => Exists.imp (fun bound hh => ⟨hh.1, hh.2.1, fun S hS hused => hh.2.2 S _ hS hused (by norm_num) (fun _ _ => le_refl _)⟩))
  intro P' rs cols K N N3 m stc hstart h1 S U hnum hm hcg hlim
  obtain ⟨bound, hb, hbound⟩ := requests_generation hexact hP hwide hspan hcspy S U hnum hm
    (fun m stm => hduals P' _ fuel cols m stm hstart h1) hcg hlim htime
  refine ⟨bound, hb, ?_⟩
  intro P dropped ε p1 p6 p2 p3 p4
  refine (hbound P dropped p1 p6 p2 p3).trans ?_
  cases P with
  | nil => simp
  | cons e P => exact add_le_add_right (mul_le_mul_of_nonneg_right (p4 e (by simp)) (by positivity)) _

/-- **C70 (partial), the gap with pickup and delivery.** The value reported exceeds the cost of no plan by more than the
difference to the last lower bound (conditions of `C63_requests_partial` and `C70_requests_partial`). -/
theorem C70_gap_requests_partial {w : World} {a : SolveArgs} {fuel : Nat} {P0 : Vrp} {o o' : Obj}
    (hw : LpSound w) (hexact : ∀ t, SolverExact (w.pricing t)) (hP : PickupDelivery P0)
    (hwide : P0.timeWindows = true → TimesMakeSense P0 ∧ WindowsWide P0)
    (hcost : ∀ k, 0 ≤ userArcCost P0 k .source .sink) (hpen : 0 ≤ P0.dropPenalty)
    (hspan : P0.minimizeGlobalSpan = false) (hpre : a.preassignments = [])
    (hdive : a.dive = false) (hheur : a.heuristicOnly = false) (hcspy : a.cspy = false) (hstrat : a.strategy ≠ "Hyper")
    (hinit : ∀ r ∈ a.initialRoutes, r.Nodup ∧ ∀ mid k, r = routeOf mid →
      WithinCapacity (userCapacities P0.loadCapacity) k (mid.map (userDemand P0.G)).sum → RequestLimits P0 k mid)
    (hc : Obj.create P0 = .ok o)
    (hduals : ∀ P' P'' fuel cols m stm, o.P.startSolve w.dist a.strategy a.cspy a.initialRoutes a.preassignments = .ok P' →
      P'.initialize P'.G.toNet w.cw fuel = .ok (some (P'', cols)) →
      Solve.Trace (P''.solveCfg a w.falsy) w.toEnv false (o.start a P'' cols) m stm →
      (w.master stm.tick (P''.master.lp stm.mcols true)).optimal = true →
      DualsOk P''.master stm.mcols (w.master stm.tick (P''.master.lp stm.mcols true)))
    (h : o.solve w a fuel = .ok (some o')) (hno : o'.noImprovement ≤ 1000)
    (hiter : a.maxIter = 0 ∨ o'.iteration < a.maxIter) (htime : ∀ t, w.timeUp t = false) :
    ∃ K N bound v, o'.P.vehicleTypes = some K ∧ o'.P.H = some N ∧ o'.bounds.getLast? = some bound ∧
      bestValue N false P0.dropPenalty o'.solution = .ok v ∧
      ∀ S, TransportsWithin P0 K S → (P0.useAllVehicles = true → ∀ p ∈ S.routes, stops p.2 ≠ []) → v ≤
        (userCosts P0 S).sum + P0.dropPenalty * S.dropped.length + (v - bound) + 1 / 1000 * S.routes.length := by
  obtain ⟨_, N, _, hN, _, _, hv, _⟩ := C63_requests_partial hw hP hpre hdive hheur hinit hc h
  obtain ⟨K, bound, hK, hb, hS⟩ := C70_requests_partial hexact hP hwide hcost hpen hspan hpre hheur hcspy hstrat hc
    hduals h (Or.inl ⟨hdive, hno⟩) hiter htime
  refine ⟨K, N, bound, _, hK, hN, hb, hv hspan, ?_⟩
  intro S hSol hused
  have := hS S hSol hused
  linarith

/-! ## An example -/

/-- Two requests, from 1 to 3 and from 2 to 4, with time windows. -/
def exTransport : Vrp where
  G := {
    nodes := [.source, .cust 1, .cust 2, .cust 3, .cust 4, .sink]
    nd := fun v => match v with
      | .source => { upper := some 50 }
      | .sink => { upper := some 120 }
      | .cust 1 => { demand := some 2, request := some (.cust 3), lower := some 15, upper := some 30 }
      | .cust 2 => { demand := some 3, request := some (.cust 4), serviceTime := some 1, upper := some 100 }
      | .cust 3 => { demand := some (-2), upper := some 80 }
      | .cust _ => { demand := some (-3), upper := some 100 }
    succ := fun u => match u with
      | .source => [.cust 1, .cust 2, .cust 3, .cust 4]
      | .cust 1 => [.cust 2, .cust 3, .sink]
      | .cust 2 => [.cust 3, .cust 4, .sink]
      | .cust 3 => [.cust 4, .sink]
      | .cust 4 => [.sink]
      | _ => []
    ed := fun u v => {
      cost := some (.scalar (if u = .source ∨ v = .sink then 10 else 1))
      time := some 10 } }
  loadCapacity := .one (.int 5)
  duration := .int 60
  numStops := .int 4
  timeWindows := true
  pickupDelivery := true

theorem exTransport_request {v w : Node} (h : Request exTransport v w) :
    (v = .cust 1 ∧ w = .cust 3) ∨ (v = .cust 2 ∧ w = .cust 4) := by
  obtain ⟨h1, h2⟩ := h
  have h1' : v ∈ [Node.source, .cust 1, .cust 2, .cust 3, .cust 4, .sink] := h1
  simp only [List.mem_cons, List.not_mem_nil, or_false] at h1'
  rcases h1' with rfl | rfl | rfl | rfl | rfl | rfl <;> simp [exTransport] at h2 <;> simp [h2]

theorem exTransport_ok : PickupDelivery exTransport where
  wf := by
    refine ⟨by decide, ?_, ?_⟩
    · intro u; simp only [exTransport]; split <;> decide
    · intro u v hv
      simp only [exTransport] at hv ⊢
      split at hv <;> simp at hv <;> (try rcases hv with rfl | rfl | rfl | rfl) <;> decide
  costs := fun _ u v _ => ⟨_, Or.inl rfl⟩
  depots := by decide +kernel
  service := by decide +kernel
  customer := ⟨1, by decide⟩
  ends := by
    intro v w h
    rcases exTransport_request h with ⟨rfl, rfl⟩ | ⟨rfl, rfl⟩
    · exact ⟨⟨_, rfl⟩, ⟨_, rfl⟩, by decide, by decide +kernel⟩
    · exact ⟨⟨_, rfl⟩, ⟨_, rfl⟩, by decide, by decide +kernel⟩
  amounts := by
    intro v w h
    rcases exTransport_request h with ⟨rfl, rfl⟩ | ⟨rfl, rfl⟩ <;> decide +kernel
  distinct := by
    intro v v' w h h'
    rcases exTransport_request h with ⟨rfl, rfl⟩ | ⟨rfl, rfl⟩ <;>
      rcases exTransport_request h' with ⟨rfl, h2⟩ | ⟨rfl, h2⟩ <;> simp_all
  others := by
    intro n hn h1 h2
    have hn' : Node.cust n ∈ [Node.source, .cust 1, .cust 2, .cust 3, .cust 4, .sink] := hn
    simp at hn'
    rcases hn' with rfl | rfl | rfl | rfl
    · cases h1
    · cases h1
    · exact absurd ⟨by decide, rfl⟩ (h2 (.cust 1))
    · exact absurd ⟨by decide, rfl⟩ (h2 (.cust 2))
  fits := fun h => (by cases h)
  twoStops := by
    intro m hm _
    simp only [exTransport, PyVal.stops] at hm
    cases hm
    decide
  source := fun _ => rfl
  windows := fun _ => by decide +kernel
  pickupDelivery := rfl
  distributionCollection := rfl
  periodic := rfl
  oneCapacity := by decide +kernel

theorem exTransport_arcs {m n : Nat} (h : Node.cust n ∈ exTransport.G.succ (.cust m)) :
    (m, n) ∈ [(1, 2), (1, 3), (2, 3), (2, 4), (3, 4)] := by
  simp only [exTransport] at h
  split at h <;> simp_all

theorem exTransport_times : TimesMakeSense exTransport where
  service := by decide +kernel
  from_source := by
    intro m n h
    have := exTransport_arcs h
    simp only [List.mem_cons, Prod.mk.injEq, List.not_mem_nil, or_false] at this
    rcases this with ⟨rfl, rfl⟩ | ⟨rfl, rfl⟩ | ⟨rfl, rfl⟩ | ⟨rfl, rfl⟩ | ⟨rfl, rfl⟩ <;> decide +kernel
  to_sink := by
    intro m n h
    have := exTransport_arcs h
    simp only [List.mem_cons, Prod.mk.injEq, List.not_mem_nil, or_false] at this
    rcases this with ⟨rfl, rfl⟩ | ⟨rfl, rfl⟩ | ⟨rfl, rfl⟩ | ⟨rfl, rfl⟩ | ⟨rfl, rfl⟩ <;> decide +kernel
  start := by decide +kernel
  home := by decide +kernel

theorem exTransport_wide : WindowsWide exTransport := by
  have hn : ∀ n, Node.cust n ∈ exTransport.G.nodes → n = 1 ∨ n = 2 ∨ n = 3 ∨ n = 4 := by
    intro n hn
    simpa [exTransport] using hn
  refine ⟨by decide +kernel, ?_, by decide +kernel, by decide +kernel, ?_, ?_⟩
  · intro n h
    rcases hn n h with rfl | rfl | rfl | rfl
    · show ∀ p ∈ userArrivals exTransport.G (userLower exTransport.G .source) .source [.cust 1, .sink], _
      decide +kernel
    · show ∀ p ∈ userArrivals exTransport.G (userLower exTransport.G .source) .source [.cust 2, .sink], _
      decide +kernel
    · show ∀ p ∈ userArrivals exTransport.G (userLower exTransport.G .source) .source [.cust 3, .sink], _
      decide +kernel
    · show ∀ p ∈ userArrivals exTransport.G (userLower exTransport.G .source) .source [.cust 4, .sink], _
      decide +kernel
  · intro n h _
    right
    rcases hn n h with rfl | rfl | rfl | rfl <;> decide +kernel
  · intro m n h
    have := exTransport_arcs h
    simp only [List.mem_cons, Prod.mk.injEq, List.not_mem_nil, or_false] at this
    rcases this with ⟨rfl, rfl⟩ | ⟨rfl, rfl⟩ | ⟨rfl, rfl⟩ | ⟨rfl, rfl⟩ | ⟨rfl, rfl⟩ <;> decide +kernel

/-- The graph that is searched. -/
def transportNet : Net where
  nodes := [.source, .cust 1, .cust 2, .cust 3, .cust 4, .sink]
  succ := fun u => match u with
    | .source => [.cust 1, .cust 2, .cust 3, .cust 4, .sink]
    | .cust 1 => [.cust 2, .cust 3, .sink]
    | .cust 2 => [.cust 3, .cust 4, .sink]
    | .cust 3 => [.cust 4, .sink]
    | .cust 4 => [.sink]
    | _ => []
  demand := fun v => if v = .cust 1 then 2 else if v = .cust 2 then 3 else if v = .cust 3 then -2 else if v = .cust 4 then -3 else 0
  service := fun v => if v = .cust 2 then 1 else 0
  lower := fun v => if v = .cust 1 then 15 else if v.isDepot then 0 else 10
  upper := fun v => if v = .source then 50 else if v = .cust 1 then 30 else if v = .cust 3 then 80 else
    if v = .sink then 120 else 100
  request := fun v => if v = .cust 1 then some (.cust 3) else if v = .cust 2 then some (.cust 4) else none
  time := fun u v => if u = .source ∧ v = .sink then 0 else 10
  cost := fun u v => if u = .source ∧ v = .sink then [0] else if u = .source ∨ v = .sink then [10] else [1]

/-- The dual values when the best route is known. -/
def transportDual (v : Node) : ℚ :=
  if v = .cust 1 then 11 else if v = .cust 2 ∨ v = .cust 3 then 1 else if v = .cust 4 then 10 else 0

/-- The pricing problem. -/
def transportPricing : PricingLP where
  G := transportNet
  weight := fun u v => (transportNet.cost u v).getD 0 0 - transportDual u
  caps := [5]
  numStops := some 4
  duration := some 60
  timeWindows := true
  pickupDelivery := true

/-- The route over all customers is optimal. -/
def transportPoint : PVar → ℚ
  | .t (.cust 1) => 15
  | .t (.cust 2) => 25
  | .t (.cust 3) => 36
  | .t (.cust 4) => 46
  | .t .sink => 56
  | v => exRequestsPoint v

theorem transportPoint_optimal : (transportPricing.lp 5).Optimal transportPoint := by
  have hf : (transportPricing.lp 5).Feasible transportPoint := feasible_of _ _ (by decide +kernel)
  refine ⟨hf, fun y hy => ?_⟩
  have h0 : (transportPricing.lp 5).obj.eval transportPoint = 0 := by decide +kernel
  rw [h0]
  have hpos : ∀ u v, (u, v) ∈ transportNet.edges → 0 ≤ y (.x u v) := by
    intro u v huv
    have := hy.vars { var := .x u v, lo := some 0, up := some 1, isInt := true } (by
      show _ ∈ transportPricing.flowVars ++ _ ++ _ ++ _ ++ _
      simp only [List.mem_append]
      exact Or.inl (Or.inl (Or.inl (Or.inl (List.mem_map.2 ⟨(u, v), huv, rfl⟩)))))
    exact this.1 0 rfl
  have hflow := hy.constrs ⟨[(1, .x .source (.cust 1)), (-1, .x (.cust 1) (.cust 2)), (-1, .x (.cust 1) (.cust 3)),
    (-1, .x (.cust 1) .sink)], .eq, 0⟩ (by decide +kernel)
  simp only [Constr.Holds, LinExpr.eval] at hflow
  have hobj : (transportPricing.lp 5).obj = [(10, .x .source (.cust 1)), (10, .x .source (.cust 2)), (10, .x .source (.cust 3)),
      (10, .x .source (.cust 4)), (0, .x .source .sink), (-10, .x (.cust 1) (.cust 2)), (-10, .x (.cust 1) (.cust 3)),
      (-1, .x (.cust 1) .sink), (0, .x (.cust 2) (.cust 3)), (0, .x (.cust 2) (.cust 4)), (9, .x (.cust 2) .sink),
      (0, .x (.cust 3) (.cust 4)), (9, .x (.cust 3) .sink), (0, .x (.cust 4) .sink)] := by decide +kernel
  rw [hobj]
  have p1 := hpos .source (.cust 2) (by decide)
  have p2 := hpos .source (.cust 3) (by decide)
  have p3 := hpos .source (.cust 4) (by decide)
  have p4 := hpos (.cust 1) .sink (by decide)
  have p5 := hpos (.cust 2) .sink (by decide)
  have p6 := hpos (.cust 3) .sink (by decide)
  simp only [LinExpr.eval, List.map_cons, List.map_nil, List.sum_cons, List.sum_nil] at hflow ⊢
  linarith

noncomputable def transportWorld : World :=
  { lpWorld [choosing [1]] (fun _ => transportDual) [] with
    pricing := fun _ => knownSolver [(transportPricing.lp 5, transportPoint)] }

theorem transportSolver_ok : SolverExact (knownSolver [(transportPricing.lp 5, transportPoint)]) ∧
    SolverSound (knownSolver [(transportPricing.lp 5, transportPoint)]) :=
  knownSolver_ok (by
    intro k hk
    simp only [List.mem_cons, List.not_mem_nil, or_false] at hk
    subst hk
    exact transportPoint_optimal)

theorem transportWorld_ok : LpSound transportWorld where
  master := (lpWorld_ok _ _ []).master
  sound := fun _ => transportSolver_ok.2
  paths := (lpWorld_ok [] (fun _ _ => 0) []).paths
  path := (lpWorld_ok [] (fun _ _ => 0) []).path

/-- The best route is known from the start. -/
def transportArgs : SolveArgs where
  initialRoutes := [routeOf [.cust 1, .cust 2, .cust 3, .cust 4]]
  strategy := "Exact"
  cspy := false

theorem transportArgs_initial : ∀ r ∈ transportArgs.initialRoutes, r.Nodup ∧ ∀ mid k, r = routeOf mid →
    WithinCapacity (userCapacities exTransport.loadCapacity) k (mid.map (userDemand exTransport.G)).sum →
      RequestLimits exTransport k mid := by
  intro r hr
  have hr : r = routeOf [.cust 1, .cust 2, .cust 3, .cust 4] := by simpa [transportArgs] using hr
  subst hr
  refine ⟨by decide, ?_⟩
  intro mid k hm hcap
  have hm : mid = [.cust 1, .cust 2, .cust 3, .cust 4] := by
    have := congrArg (fun l => l.tail.dropLast) hm
    simpa [routeOf] using this.symm
  subst hm
  have hcaps : userCapacities exTransport.loadCapacity = [5] := by decide +kernel
  have h5 : [(5 : ℚ)][k]? = some 5 := by
    obtain ⟨c, hc, _⟩ := hcap (by rw [hcaps]; simp)
    rw [hcaps] at hc
    rw [hc]
    have := List.mem_of_getElem? hc
    simpa using this
  refine ⟨?_, ?_, ?_, ?_, by decide +kernel, fun _ _ => ?_, fun _ => ?_⟩
  · intro m hm _
    have : (4 : Nat) = m := by simpa [exTransport, PyVal.stops] using hm
    simp [← this]
  · intro v w h
    rcases exTransport_request h with ⟨rfl, rfl⟩ | ⟨rfl, rfl⟩ <;> decide
  · intro v w h
    rcases exTransport_request h with ⟨rfl, rfl⟩ | ⟨rfl, rfl⟩ <;> decide
  · intro pre post hpp
    have : ∀ n ≤ 4, 0 ≤ ((([Node.cust 1, .cust 2, .cust 3, .cust 4].take n).map (userDemand exTransport.G))).sum ∧
        ((([Node.cust 1, .cust 2, .cust 3, .cust 4].take n).map (userDemand exTransport.G))).sum ≤ 5 := by decide +kernel
    have h1 := this pre.length (by
      have := congrArg List.length hpp
      simp only [List.length_append, List.length_cons, List.length_nil] at this
      omega)
    rw [hpp, List.take_left'] at h1
    · exact ⟨h1.1, fun _ => ⟨5, by rw [hcaps]; exact h5, h1.2⟩⟩
    · rfl
  · show ∀ p ∈ userArrivals exTransport.G (userLower exTransport.G .source) .source [.cust 1, .cust 2, .cust 3, .cust 4, .sink], _
    decide +kernel
  · intro d hd _
    have : (60 : ℚ) = d := by simpa [exTransport, PyVal.limit] using hd
    rw [← this]
    decide +kernel

/-- All hypotheses of `C70_gap_requests_partial` (and of `C70_requests_partial`) hold for the example: no plan is cheaper
than the one reported, which costs 23, by more than 1/1000 per vehicle. -/
example : ∃ K, ∀ S, TransportsWithin exTransport K S → 23 ≤ (userCosts exTransport S).sum + 1 / 1000 * S.routes.length := by
  have hok : onTheWay transportWorld transportArgs 5 exTransport dualsProve = true := by decide +kernel
  have hleft : leftBehind transportWorld transportArgs 5 exTransport = some ([23], 0, 1) := by decide +kernel
  unfold leftBehind at hleft
  split at hleft
  · cases hleft
  rename_i o ho
  split at hleft
  · rename_i o' hsolve
    simp only [Option.some.injEq, Prod.mk.injEq] at hleft
    obtain ⟨K, N, bound, v, _, _, hb, _, hS⟩ := C70_gap_requests_partial (a := transportArgs) transportWorld_ok
      (fun _ => transportSolver_ok.1) exTransport_ok (fun _ => ⟨exTransport_times, exTransport_wide⟩) (by
        intro k
        simp [userArcCost, exTransport]) (le_refl _) rfl rfl rfl rfl rfl (by decide) transportArgs_initial ho (by
        intro P' P'' fuel cols m stm h1 h2 ht _
        exact dualsProve_ok (onTheWay_ok hok ho h1 h2 ht)) hsolve (by rw [hleft.2.1]; decide) (Or.inl rfl) (fun _ => rfl)
    rw [hleft.1] at hb
    simp only [List.getLast?_singleton, Option.some.injEq] at hb
    subst hb
    refine ⟨K, fun S hSol => ?_⟩
    have := hS S hSol (fun hf => (by cases hf))
    have hp : exTransport.dropPenalty = 0 := rfl
    rw [hp] at this
    linarith
  · cases hleft

/-- The same with one vehicle, which has to be used. -/
def exTransportAll : Vrp :=
  { exTransport with
    numVehicles := .one 1
    useAllVehicles := true }

theorem exTransportAll_ok : PickupDelivery exTransportAll := by
  obtain ⟨⟨h1, h2, h3, h4, h5, h6, h7, h8, h9, h10, h11, h12, h13, h14, h15, h16⟩, h17⟩ := exTransport_ok
  exact ⟨⟨h1, h2, h3, h4, h5, h6, h7, h8, h9, h10, h11, h12, h13, h14, h15, h16⟩, h17⟩

/-- The graph that is searched: the empty route is expensive. -/
def transportNetAll : Net :=
  { transportNet with
    cost := fun u v => if u = .source ∧ v = .sink then [bigCost] else if u = .source ∨ v = .sink then [10] else [1] }

def transportPricingAll : PricingLP :=
  { transportPricing with
    G := transportNetAll
    weight := fun u v => (transportNetAll.cost u v).getD 0 0 - transportDual u }

theorem transportPointAll_optimal : (transportPricingAll.lp 5).Optimal transportPoint := by
  have hf : (transportPricingAll.lp 5).Feasible transportPoint := feasible_of _ _ (by decide +kernel)
  refine ⟨hf, fun y hy => ?_⟩
  have h0 : (transportPricingAll.lp 5).obj.eval transportPoint = 0 := by decide +kernel
  rw [h0]
  have hpos : ∀ u v, (u, v) ∈ transportNet.edges → 0 ≤ y (.x u v) := by
    intro u v huv
    have := hy.vars { var := .x u v, lo := some 0, up := some 1, isInt := true } (by
      show _ ∈ transportPricingAll.flowVars ++ _ ++ _ ++ _ ++ _
      simp only [List.mem_append]
      exact Or.inl (Or.inl (Or.inl (Or.inl (List.mem_map.2 ⟨(u, v), huv, rfl⟩)))))
    exact this.1 0 rfl
  have hflow := hy.constrs ⟨[(1, .x .source (.cust 1)), (-1, .x (.cust 1) (.cust 2)), (-1, .x (.cust 1) (.cust 3)),
    (-1, .x (.cust 1) .sink)], .eq, 0⟩ (by decide +kernel)
  simp only [Constr.Holds, LinExpr.eval] at hflow
  have hobj : (transportPricingAll.lp 5).obj = [(10, .x .source (.cust 1)), (10, .x .source (.cust 2)),
      (10, .x .source (.cust 3)), (10, .x .source (.cust 4)), (10000000000, .x .source .sink), (-10, .x (.cust 1) (.cust 2)),
      (-10, .x (.cust 1) (.cust 3)), (-1, .x (.cust 1) .sink), (0, .x (.cust 2) (.cust 3)), (0, .x (.cust 2) (.cust 4)),
      (9, .x (.cust 2) .sink), (0, .x (.cust 3) (.cust 4)), (9, .x (.cust 3) .sink), (0, .x (.cust 4) .sink)] := by
    decide +kernel
  rw [hobj]
  have p1 := hpos .source (.cust 2) (by decide)
  have p2 := hpos .source (.cust 3) (by decide)
  have p3 := hpos .source (.cust 4) (by decide)
  have p4 := hpos (.cust 1) .sink (by decide)
  have p5 := hpos (.cust 2) .sink (by decide)
  have p6 := hpos (.cust 3) .sink (by decide)
  have p7 := hpos .source .sink (by decide)
  simp only [LinExpr.eval, List.map_cons, List.map_nil, List.sum_cons, List.sum_nil] at hflow ⊢
  linarith

theorem transportSolverAll_ok : SolverExact (knownSolver [(transportPricingAll.lp 5, transportPoint)]) ∧
    SolverSound (knownSolver [(transportPricingAll.lp 5, transportPoint)]) :=
  knownSolver_ok (by
    intro k hk
    simp only [List.mem_cons, List.not_mem_nil, or_false] at hk
    subst hk
    exact transportPointAll_optimal)

noncomputable def transportWorldAll : World :=
  { transportWorld with pricing := fun _ => knownSolver [(transportPricingAll.lp 5, transportPoint)] }

/-- All hypotheses of `C70_requests_partial` hold also if all vehicles have to be used. -/
example : ∃ K, ∀ S, TransportsWithin exTransportAll K S → (∀ p ∈ S.routes, stops p.2 ≠ []) →
    23 ≤ (userCosts exTransportAll S).sum + 1 / 1000 * S.routes.length := by
  have hok : onTheWay transportWorldAll transportArgs 5 exTransportAll dualsProve = true := by decide +kernel
  have hleft : leftBehind transportWorldAll transportArgs 5 exTransportAll = some ([23], 0, 1) := by decide +kernel
  unfold leftBehind at hleft
  split at hleft
  · cases hleft
  rename_i o ho
  split at hleft
  · rename_i o' hsolve
    simp only [Option.some.injEq, Prod.mk.injEq] at hleft
    obtain ⟨K, bound, _, hb, hS⟩ := C70_requests_partial (a := transportArgs) (fun _ => transportSolverAll_ok.1) exTransportAll_ok
      (fun _ => ⟨⟨exTransport_times.1, exTransport_times.2, exTransport_times.3, exTransport_times.4, exTransport_times.5⟩,
        ⟨exTransport_wide.1, exTransport_wide.2, exTransport_wide.3, exTransport_wide.4, exTransport_wide.5, exTransport_wide.6⟩⟩)
      (by
        intro k
        simp [userArcCost, exTransportAll, exTransport]) (le_refl _) rfl rfl rfl rfl (by decide) ho (by
        intro P' P'' fuel cols m stm h1 h2 ht _
        exact dualsProve_ok (onTheWay_ok hok ho h1 h2 ht)) hsolve (Or.inl ⟨rfl, by rw [hleft.2.1]; decide⟩) (Or.inl rfl) (fun _ => rfl)
    rw [hleft.1] at hb
    simp only [List.getLast?_singleton, Option.some.injEq] at hb
    subst hb
    refine ⟨K, fun S hSol hused => ?_⟩
    have := hS S hSol (fun _ => hused)
    have hp : exTransportAll.dropPenalty = 0 := rfl
    rw [hp] at this
    linarith
  · cases hleft

end Vrpy
