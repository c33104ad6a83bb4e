import Verif.Props.CspySearch
import Verif.Props.EndToEndBound

/-!
# C70 with cspy: the last lower bound of a run bounds the cost of every solution
-/

namespace Vrpy

open Spec

/-- What is collected in the network that is searched. -/
theorem Searched.collectSearch {P0 P' : Vrp} {K : Nat} {N N3 : Net} (S : Searched P0 P' K N N3) (U : UserData P0 P' N)
    (hP : DeliveryData P0) (hdc : P0.distributionCollection = true) :
    (∀ v ∈ N3.nodes, 0 ≤ N3.collect v) ∧ N3.collect .source = 0 ∧ N3.collect .sink = 0 := by
  have h : ∀ v ∈ N3.nodes, N3.collect v = userCollect P0.G v ∧ v ∈ P0.G.nodes := by
    intro v hv
    rw [S.nodes] at hv
    rw [S.same.collect]
    exact ⟨U.collect v hv, by rw [← S.userNodes]; exact hv⟩
  refine ⟨fun v hv => ?_, ?_, ?_⟩
  · obtain ⟨h1, h2⟩ := h v hv
    rw [h1]
    exact (hP.collect hdc v h2).1
  · obtain ⟨h1, h2⟩ := h _ S.wfSearch.source_mem
    rw [h1]
    exact (hP.collect hdc _ h2).2 (Or.inl rfl)
  · obtain ⟨h1, h2⟩ := h _ S.wfSearch.sink_mem
    rw [h1]
    exact (hP.collect hdc _ h2).2 (Or.inr rfl)

/-- Without time windows, opening times remain. -/
theorem Searched.lowerSearch {P0 P' : Vrp} {K : Nat} {N N3 : Net} (S : Searched P0 P' K N N3) (htw : P0.timeWindows = false) :
    N3.lower = N.lower := by
  obtain ⟨c, N2, _, hprune, hempty⟩ := S.pruned
  obtain ⟨_, _, _, e4, _⟩ := emptyRouteStep_same hempty
  rw [htw] at hprune
  rw [e4]
  cases hcs : userCapacities P0.loadCapacity with
  | nil =>
    rw [hcs] at hprune
    simp only [pruneGraph] at hprune
    cases hprune
    rfl
  | cons x xs =>
    rw [hcs] at hprune
    simp only [pruneGraph] at hprune
    cases hprune
    rfl

/-- With a limit on the stops or a capacity, there is a limit on the stops during column generation. -/
theorem stops_limited_of {w : World} {a : SolveArgs} {P0 P' P2 : Vrp} {o : Obj} {K : Nat} {N N3 : Net} (hP : DeliveryData P0)
    (hstops : P0.numStops.stops ≠ none ∨ userCapacities P0.loadCapacity ≠ [])
    (o2 : o.P.numStops = P0.numStops) (o3 : o.P.distributionCollection = P0.distributionCollection)
    (o4 : o.P.pickupDelivery = P0.pickupDelivery)
    (h : o.P.startSolve w.dist a.strategy a.cspy a.initialRoutes a.preassignments = .ok P') (S : Searched P0 P2 K N N3)
    (hG : P2.G = P'.G) (hL : P2.loadCapacity = P'.loadCapacity)
    (U : UserData P0 P2 N) : ∃ n, P'.numStops.stops = some n ∧ n ≠ 0 := by
  obtain ⟨G1', N', N1, N2, N3', Q⟩ := startSolve_prepared h
  have hN3 : N3' = N3 := by
    have h1 : P'.G = N3'.toDiGraph := by rw [Q.result]
    have h2 : P'.G = N3.toDiGraph := hG.symm.trans S.graph
    have : N3'.toDiGraph.toNet = N3.toDiGraph.toNet := by rw [← h1, h2]
    exact this
  have hlc : capacities (o.P.prepared a.initialRoutes a.preassignments).loadCapacity.toList = userCapacities P0.loadCapacity := by
    rw [← S.caps, hL, Q.result]
  obtain ⟨_, _, f3, _, _, f6, f7, _, _, _, f11, _⟩ := prepared_fields (P := o.P) (R := a.initialRoutes)
    (Q := a.preassignments)
  have he := Q.emptyRoute
  obtain ⟨e1, e2, _⟩ := emptyRouteStep_same he
  have hN2 : ∀ c u d, getNumStopsUpperBound N2 c u d = getNumStopsUpperBound N3 c u d := by
    intro c u d
    rw [← hN3]
    unfold getNumStopsUpperBound maxNumStops
    rw [e1.demand, e1.collect, e2]
  have hst := Q.stops
  unfold stopsStep at hst
  rw [f3, f6, f7, o2, o3, o4] at hst
  split at hst
  · rename_i hcond
    rw [hN2] at hst
    obtain ⟨b, hb1, hb2, _⟩ := C03_stops_bound_sound N3 S.wfSearch.source_mem S.wfSearch.sink_mem
      (by
        intro v hv
        rw [S.same.demand]
        rw [S.nodes] at hv
        by_cases h1 : v = .source
        · rw [h1, S.demandDepots.1]
        · by_cases h2 : v = .sink
          · rw [h2, S.demandDepots.2]
          · rw [S.demand v (mem_customers.2 ⟨hv, h1, h2⟩)]
            exact hP.demand v (by rw [← S.userNodes]; exact hv))
      (by rw [S.same.demand]; exact S.demandDepots) P0.distributionCollection (fun hf => S.collectSearch U hP hf) _
      P0.numStops.stops
    rw [hb1] at hst
    simp only [Except.ok.injEq] at hst
    refine ⟨b, ?_, by omega⟩
    rw [← hst]
    simp [PyVal.stops, hb2]
  · rename_i hcond
    simp only [Except.ok.injEq] at hst
    have hu : userCapacities P0.loadCapacity = [] := by
      rw [← hlc]
      by_contra h0
      refine hcond ⟨fun h1 => h0 ?_, hP.pickupDelivery⟩
      rw [h1]
      rfl
    have hs := hstops.resolve_right (fun h => h hu)
    rw [← hst]
    cases hns : P0.numStops with
    | int z =>
      rw [hns] at hs
      simp only [PyVal.stops] at hs ⊢
      split
      · rename_i hz
        exact ⟨_, rfl, by omega⟩
      · rename_i hz
        simp [hz] at hs
    | _ => simp [hns, PyVal.stops] at hs

theorem stops_limited {w : World} {a : SolveArgs} {P0 P' : Vrp} {o : Obj} {K : Nat} {N N3 : Net} (hP : DeliveryData P0)
    (hstops : P0.numStops.stops ≠ none ∨ userCapacities P0.loadCapacity ≠ [])
    (hc : Obj.create P0 = .ok o)
    (h : o.P.startSolve w.dist a.strategy a.cspy a.initialRoutes a.preassignments = .ok P') (S : Searched P0 P' K N N3)
    (U : UserData P0 P' N) : ∃ n, P'.numStops.stops = some n ∧ n ≠ 0 := by
  obtain ⟨G, _, ho⟩ := create_ok hc
  exact stops_limited_of hP hstops (by rw [ho]) (by rw [ho]) (by rw [ho]) h S rfl rfl U

/-- The initial columns are made of routes. -/
theorem initial_paths {P0 P' P'' : Vrp} {K : Nat} {N N3 : Net} {cw : ℚ → CWOracle} {fuel : Nat} {cols : List Column}
    (hP : DeliveryData P0) (hone : (userCapacities P0.loadCapacity).length ≤ 1) (S : Searched P0 P' K N N3) (hcw : ∀ x, (cw x).Valid)
    (h : P'.initialize P'.G.toNet cw fuel = .ok (some (P'', cols))) : ∀ c ∈ cols, PathColumn N3 c := by
  have hN3 : P'.G.toNet = N3 := by rw [S.graph]; rfl
  rw [hN3] at h
  unfold Vrp.initialize at h
  cases hch : P'.chooseInitial N3 cw fuel with
  | error e => simp [hch] at h
  | ok x =>
    cases x with
    | none => simp [hch] at h
    | some rs =>
      simp only [hch] at h
      cases hcv : convertRoutes N3 (capacities P'.loadCapacity.toList) rs with
      | error e => simp [hcv] at h
      | ok cols' =>
        simp only [hcv, Except.ok.injEq, Option.some.injEq, Prod.mk.injEq] at h
        obtain ⟨rfl, rfl⟩ := h
        rw [S.caps] at hcv
        obtain ⟨f1, f2, f3, f4, f5, f6, f7, f8, f9, f10, f11⟩ := S.fields
        have hrs : ∀ r ∈ rs, Along (fun u v => v ∈ N3.succ u) r → IsRoute N3 r := by
          by_cases hno : P'.initialRoutes = []
          · cases hplain : P'.plain with
            | false =>
              unfold Vrp.chooseInitial Vrp.initialSolution at hch
              rw [if_neg (by simp [hno]), hplain, f3, hP.pickupDelivery] at hch
              simp only [Bool.false_eq_true, if_false, Except.ok.injEq, Option.some.injEq] at hch
              subst hch
              intro r hr hal
              obtain ⟨v, hv, rfl⟩ := List.mem_map.1 hr
              obtain ⟨hvn, hvs, hvt⟩ := mem_customers.1 hv
              obtain ⟨n, rfl⟩ : ∃ n, v = .cust n := by
                cases v with
                | source => exact absurd rfl hvs
                | sink => exact absurd rfl hvt
                | cust n => exact ⟨n, rfl⟩
              exact ⟨[.cust n], rfl, by simpa using hvn, hal⟩
            | true =>
            have htw : P0.timeWindows = false := by
              simp only [Vrp.plain, f2, Bool.and_eq_true, Bool.not_eq_true'] at hplain
              tauto
            obtain ⟨hconn, hdirect⟩ := S.depots htw
            have hcostN3 : CostsFor N3 1 := by
              intro u v hv
              rw [S.same.costLength, S.costs u v (S.same.succ u v hv)]
              exact S.typesPos
            obtain ⟨_, _, h3⟩ := initial_facts P' N3 cw S.wfSearch hconn hcostN3 hdirect hcw
              (by rw [S.same.demand]; exact S.demandDepots)
              (by rw [S.same.service]; exact S.serviceDepots hP.service.1 hP.service.2) hno
              (by rw [f3]; exact hP.pickupDelivery) (by rw [S.caps]; exact S.capsPos)
              (fun _ => by rw [S.caps]; exact hone)
              (by
                intro v hv
                rw [S.caps, S.same.demand]
                apply S.fit
                rw [mem_customers] at hv ⊢
                rw [← S.nodes]
                exact hv) hch
            exact fun r hr _ => (h3 r hr).1.1
          · unfold Vrp.chooseInitial at hch
            rw [if_pos hno] at hch
            split at hch
            · cases hch
            · rename_i hck
              simp only [Except.ok.injEq, Option.some.injEq] at hch
              subst hch
              obtain ⟨hgood, _⟩ := (C38_accepts_exactly _ _).1 hck
              intro r hr _
              obtain ⟨h1, h2, h3⟩ := hgood r hr
              exact route_of_walk S.wfSearch h1 h2 h3
        intro c hc
        have hall := py_mapM_ok.1 hcv
        obtain ⟨p, hp, hcp⟩ : ∃ p ∈ rs.zipIdx 1, convertRoute N3 (userCapacities P0.loadCapacity) p.2 p.1 = .ok c := by
          obtain ⟨i, hi, rfl⟩ := List.getElem_of_mem hc
          have hri : i < (rs.zipIdx 1).length := by rw [hall.length_eq]; exact hi
          exact ⟨_, List.getElem_mem hri, (List.forall₂_iff_get.1 hall).2 i hri hi⟩
        obtain ⟨hal, k, hk, rfl⟩ := convertRoute_ok.1 hcp
        have hr := hrs p.1 (List.fst_mem_of_mem_zipIdx hp) (by
          rw [along_iff] at hal ⊢
          exact fun u v huv => (hal u v huv).1)
        obtain ⟨mid, hmid, _, _⟩ := id hr
        have hk0 : k = 0 := by
          rcases firstType_some.1 hk with ⟨_, rfl⟩ | ⟨hlt, _⟩
          · rfl
          · omega
        refine ⟨hk0, p.1, hr, fun e he => (mem_graphEdges _ e).2 he, ?_⟩
        intro hnd
        have hn : (graphNodes (consecutive p.1)).Perm p.1 := by
          refine (List.perm_ext_iff_of_nodup (nodup_graphNodes _) hnd).2 (fun v => ?_)
          exact mem_graphNodes_consecutive (by rw [hmid]; simp [routeOf]) v
        have he : (graphEdges (consecutive p.1)).Perm (consecutive p.1) := graphEdges_perm (consecutive_nodup hnd)
        refine ⟨⟨hn, he, ?_⟩, hn, he, by simp⟩
        rw [hk0]

/-- What cspy takes for granted about time: with time windows, Source is the first node, does not open before 0, and there is
no limit on the duration; with collection there is a capacity, and without time windows nothing opens after 0
and service times are 0 or there is a limit on the duration. -/
structure Spec.CspyData (P : Vrp) : Prop where
  windows : P.timeWindows = true →
    P.G.nodes.head? = some .source ∧ 0 ≤ userLower P.G .source ∧ active P.duration.limit = none
  capacity : P.distributionCollection = true → userCapacities P.loadCapacity ≠ []
  opening : P.distributionCollection = true → P.timeWindows = false → ∀ v ∈ P.G.nodes, userLower P.G v ≤ 0
  service : P.distributionCollection = true → P.timeWindows = false → active P.duration.limit = none →
    ∀ v ∈ P.G.nodes, userService P.G v = 0

/-- Allowed routes are within the limits of cspy. -/
theorem Searched.withinLimits {P0 P' : Vrp} {K : Nat} {N N3 : Net} (S : Searched P0 P' K N N3) (U : UserData P0 P' N)
    (hP : DeliveryData P0) (hD : NonnegativeData P0) (hC : CspyData P0) {n : Nat} (hn : P'.numStops.stops = some n) (hn0 : n ≠ 0)
    {q : Cspy} {m : Res} (q1 : q.G = N3) (q2 : q.vehicleType = 0)
    (q3 : q.caps = userCapacities P0.loadCapacity) (q4 : q.numStops = P'.numStops.stops) (q5 : q.duration = P0.duration.limit)
    (q6 : q.timeWindows = P0.timeWindows) (q7 : q.pickupDelivery = false)
    (q8 : q.distributionCollection = P0.distributionCollection) (hform : q.formulate = .ok m) {r : List Node}
    (hr : Allowed P0 P' N3 0 r) : WithinLimits q m r := by
  have hnn := S.nonnegative hP.demand hD
  have hserv : ∀ v ∈ q.G.nodes, 0 ≤ q.G.service v := by
    intro v hv
    rw [q1] at hv ⊢
    rw [S.nodes] at hv
    rw [S.same.service, S.service v hv]
    exact hD.service v (by rw [← S.userNodes]; exact hv)
  have htime : ∀ u v, v ∈ q.G.succ u → 0 ≤ q.G.time u v := by
    intro u v hv
    rw [q1] at hv ⊢
    have hv := S.same.succ u v hv
    rw [S.same.time, S.time u v hv]
    split
    · rename_i h
      exact hD.time u v h
    · exact le_refl _
  have hdem : ∀ v ∈ q.G.nodes, 0 ≤ q.G.demand v := by rw [q1]; exact hnn.demand
  have hd : q.G.demand .source = 0 ∧ q.G.demand .sink = 0 := by rw [q1, S.same.demand]; exact S.demandDepots
  obtain ⟨hr, hgoods⟩ := hr
  obtain ⟨hsimple, hcust, hst, hload, hdur, hon⟩ := hr
  cases hcu : q.custom with
  | false =>
    refine within_of_admissible (n := n) (by rw [q1]; exact S.wfSearch) hform hcu (q4.trans hn) hn0 hdem hd.1 hserv htime
      (by rw [q1]; exact hsimple.1) ?_ ?_ ?_
    · rw [q4]; exact hst
    · rw [q1, q2, q3]; exact hload
    · rw [q1, q5]; exact hdur
  | true =>
    obtain ⟨mid, rfl, hmid, hal⟩ := id hsimple.1
    refine within_of_custom (n := n) (by rw [q1]; exact S.wfSearch) hform hcu (q4.trans hn) hn0 hdem hd hserv htime
      (by rw [q1]; exact hsimple) (by rw [q4]; exact hst) (by rw [q1, q2, q3]; exact hload) ?_ ?_ ?_
    · intro htw
      rw [q6] at htw
      obtain ⟨h1, h2, h3⟩ := hC.windows htw
      obtain ⟨w1, w2, w3⟩ := S.windows htw h1
      refine ⟨by rw [q1]; exact hon htw, ?_, by rw [q5]; exact h3⟩
      rw [q1]
      cases mid with
      | nil => exact absurd rfl hcust
      | cons v rest =>
        right
        have hvc : v ∈ N.customers := by
          obtain ⟨⟨n, rfl⟩, hv⟩ := hmid v (by simp)
          exact mem_customers.2 ⟨by rw [← S.nodes]; exact hv, by simp, by simp⟩
        rw [S.same.service, S.same.time, w1]
        have hls : (strengthened N).lower .source = N.lower .source := by simp [strengthened, source_not_customer N]
        rw [hls]
        refine ⟨by rw [U.lower _ S.wf.source_mem]; exact h2, v, rest, rfl, ?_⟩
        rw [(S.serviceDepots hP.service.1 hP.service.2).1]
        simp [strengthened, hvc]
    · intro htw
      rw [q6] at htw
      have hdc : P0.distributionCollection = true := by
        rw [← q8]
        simpa [Cspy.custom, q6, q7, htw] using hcu
      refine ⟨?_, ?_, by rw [q1, q5]; exact hdur⟩
      · intro v hv
        rw [q1] at hv ⊢
        rw [S.nodes] at hv
        rw [S.lowerSearch htw, U.lower v hv]
        exact hC.opening hdc htw v (by rw [← S.userNodes]; exact hv)
      · intro hact v hv
        rw [q5] at hact
        rw [q1] at hv ⊢
        rw [S.nodes] at hv
        rw [S.same.service, S.service v hv]
        exact hC.service hdc htw hact v (by rw [← S.userNodes]; exact hv)
    · intro hdc
      rw [q8] at hdc
      obtain ⟨c, hc, _⟩ := hload (hC.capacity hdc)
      obtain ⟨c1, c2, c3⟩ := S.collectSearch U hP hdc
      rw [q1, q2, q3]
      exact ⟨c1, c2, c3, c, hc, hgoods hdc c hc⟩

/-- What column generation with cspy ends with. -/
theorem cspy_generation {w : World} {a : SolveArgs} {fuel : Nat} {P0 P' : Vrp} {o : Obj} {rs : List (List Node)} {cols : List Column}
    {K : Nat} {N N3 : Net} {m : Heur} {stc : SolveState} {tol : List Node → ℚ} {n : Nat} (hw : WorldOk w)
    (hfinds : ∀ t q, WellFormed q.G → CspyFindsUpTo tol q (w.cspy t q)) (hP : Deliveries P0) (hD : NonnegativeData P0) (hC : CspyData P0)
    (hmixed : P0.mixedFleet = false) (hspan : P0.minimizeGlobalSpan = false) (hcspy : a.cspy = true) (hgreedy : a.greedy = false)
    (S : Searched P0 P' K N N3) (U : UserData P0 P' N) (hn : P'.numStops.stops = some n) (hn0 : n ≠ 0)
    (hpaths : ∀ c ∈ cols, PathColumn N3 c)
    (hnum : Solve.Numbered cols) (hm : PricingMode.ofName a.strategy = .fixed m)
    (hd : ∀ n stm, Solve.Trace (({ P' with initialRoutes := rs } : Vrp).solveCfg a w.falsy) w.toEnv false
        (o.start a ({ P' with initialRoutes := rs } : Vrp) cols) n stm →
      (w.master stm.tick (({ P' with initialRoutes := rs } : Vrp).master.lp stm.mcols true)).optimal = true →
      DualsOk ({ P' with initialRoutes := rs } : Vrp).master stm.mcols
        (w.master stm.tick (({ P' with initialRoutes := rs } : Vrp).master.lp stm.mcols true)) ∧
      ColumnsPriced ({ P' with initialRoutes := rs } : Vrp).master stm.mcols
        (w.master stm.tick (({ P' with initialRoutes := rs } : Vrp).master.lp stm.mcols true)))
    (hcg : Solve.columnGeneration (({ P' with initialRoutes := rs } : Vrp).solveCfg a w.falsy) w.toEnv false fuel
        (o.start a ({ P' with initialRoutes := rs } : Vrp) cols) = .ok (some stc))
    (hlim : Solve.limitReached (({ P' with initialRoutes := rs } : Vrp).solveCfg a w.falsy) stc = false)
    (htime : ∀ t, w.timeUp t = false) :
    ∃ bound, stc.bounds.getLast? = some bound ∧
      ∀ (P : Plan) (dropped : List Node) (ε : ℚ), ValidPlan N3 (userFleet P0.numVehicles) P0.useAllVehicles dropped P →
        (∀ v ∈ dropped, v ∈ ({ P' with initialRoutes := rs } : Vrp).master.drops) → (∀ e ∈ P, e.1 < K) →
        (∀ e ∈ P, Allowed P0 P' N3 e.1 e.2) → (∀ e ∈ P, tol e.2 ≤ ε) →
        bound ≤ planCost N3 P + P0.dropPenalty * (N3.customers.filter (fun v => v ∈ dropped)).length + ε * P.length := by
  have hN3 : P'.G.toNet = N3 := by rw [S.graph]; rfl
  obtain ⟨f1, f2, f3, f4, f5, f6, f7, f8, f9, f10, f11⟩ := S.fields
  have hK1 : K = 1 := S.typesOne hmixed
  have hMG : (({ P' with initialRoutes := rs } : Vrp).solveCfg a w.falsy).M.G = N3 := hN3
  have hMf : (({ P' with initialRoutes := rs } : Vrp).solveCfg a w.falsy).M.numVehicles = userFleet P0.numVehicles :=
    S.fleet hP.periodic
  have hMu : (({ P' with initialRoutes := rs } : Vrp).solveCfg a w.falsy).M.useAllVehicles = P0.useAllVehicles := f8
  have hMp : (({ P' with initialRoutes := rs } : Vrp).solveCfg a w.falsy).M.dropPenalty = P0.dropPenalty := f5
  obtain ⟨bound, hb, hbound⟩ := Solve.lower_bound_upTo (tol := tol) (cfg := ({ P' with initialRoutes := rs } : Vrp).solveCfg a w.falsy)
    (env := w.toEnv) (m := m) (st := o.start a ({ P' with initialRoutes := rs } : Vrp) cols)
    (F := Allowed P0 P' N3 0) hnum rfl f10
    (by rw [hMG]; exact hpaths) hm
    (by rw [hMG]; exact S.wfSearch) hcspy
    (by
      show P'.vehicleTypes.getD 0 = 1
      rw [S.types]
      exact hK1)
    (by
      show (a.greedy && _ && _ && _ && _) = false
      rw [hgreedy]
      rfl)
    (f9.trans hspan)
    (by
      show decide (P'.periodic.getD 0 ≠ 0) = false
      rw [f7, hP.periodic]
      rfl)
    (by
      intro q res r q1 q2 q3 q4 q5 q6 q7 q8 hform hr
      rw [hMG] at q1
      have e1 : (({ P' with initialRoutes := rs } : Vrp).solveCfg a w.falsy).caps = userCapacities P0.loadCapacity := S.caps
      have e2 : (({ P' with initialRoutes := rs } : Vrp).solveCfg a w.falsy).duration = P0.duration.limit := by
        show P'.duration.limit = _
        rw [f11]
      exact ⟨by rw [q1]; exact hr.admissible.simple, S.withinLimits U hP.toDeliveryData hD hC hn hn0 q1 q2 (q3.trans e1) q4 (q5.trans e2) (q6.trans f2)
        (q7.trans (f3.trans hP.pickupDelivery)) (q8.trans f4) hform hr⟩)
    hw.cspy hfinds hw.paths hd hcg hlim (htime _)
  refine ⟨bound, hb, ?_⟩
  intro P dropped ε p1 p6 p2 p3 p4
  have := hbound P dropped ε (by rw [hMG, hMf, hMu]; exact p1) p6 (by
    intro e he
    have h0 : e.1 = 0 := by
      have := p2 e he
      omega
    refine ⟨h0, ?_⟩
    have := p3 e he
    rw [h0] at this
    exact this) p4
  rw [hMG, hMp] at this
  exact this

theorem cspy_bound_upTo {w : World} {a : SolveArgs} {fuel : Nat} {P0 : Vrp} {o o' : Obj} {tol : List Node → ℚ} (hw : WorldOk w)
    (hfinds : ∀ t q, WellFormed q.G → CspyFindsUpTo tol q (w.cspy t q)) (hP : Deliveries P0) (hD : NonnegativeData P0) (hC : CspyData P0) (hpen : 0 ≤ P0.dropPenalty)
    (hmixed : P0.mixedFleet = false) (hone : (userCapacities P0.loadCapacity).length ≤ 1) (hstops : P0.numStops.stops ≠ none ∨ userCapacities P0.loadCapacity ≠ [])
    (hspan : P0.minimizeGlobalSpan = false) (hpre : a.preassignments = [])
    (hheur : a.heuristicOnly = false) (hcspy : a.cspy = true) (hgreedy : a.greedy = false)
    (hstrat : a.strategy ≠ "Hyper") (hc : Obj.create P0 = .ok o)
    (hduals : ∀ P' P'' fuel cols m stm, o.P.startSolve w.dist a.strategy a.cspy a.initialRoutes a.preassignments = .ok P' →
      P'.initialize P'.G.toNet w.cw fuel = .ok (some (P'', cols)) →
      Solve.Trace (P''.solveCfg a w.falsy) w.toEnv false (o.start a P'' cols) m stm →
      (w.master stm.tick (P''.master.lp stm.mcols true)).optimal = true →
      DualsOk P''.master stm.mcols (w.master stm.tick (P''.master.lp stm.mcols true)) ∧
      ColumnsPriced P''.master stm.mcols (w.master stm.tick (P''.master.lp stm.mcols true)))
    (h : o.solve w a fuel = .ok (some o')) (hno : Spec.NotStagnant a o')
    (hiter : a.maxIter = 0 ∨ o'.iteration < a.maxIter) (htime : ∀ t, w.timeUp t = false) :
    ∃ K bound, o'.P.vehicleTypes = some K ∧ o'.bounds.getLast? = some bound ∧ ∀ S ε, SolvesWithin P0 K S →
      (P0.useAllVehicles = true → ∀ p ∈ S.routes, stops p.2 ≠ []) → 0 ≤ ε →
      (∀ e ∈ S.routes, tol e.2 ≤ ε) →
      bound ≤ (userCosts P0 S).sum + P0.dropPenalty * S.dropped.length + ε * S.routes.length := by
  refine bound_of_generation_upTo hP hD.stay hpen hpre hheur hstrat hc ?_ h hno hiter
  intro P' rs cols K N N3 m stc hstart h1 S U hnum hm hcg hlim
  obtain ⟨n, hn, hn0⟩ := stops_limited (w := w) hP.toDeliveryData hstops hc hstart S U
  exact cspy_generation hw hfinds hP hD hC hmixed hspan hcspy hgreedy S U hn hn0 (initial_paths hP.toDeliveryData hone S hw.cw h1) hnum hm
    (fun m stm => hduals P' _ fuel cols m stm hstart h1) hcg hlim htime

/-- **C70 (partial), pricing with cspy** and a fixed strategy, one vehicle type, without greedy pricing, with a limit on the stops or
a capacity: no solution of the user's problem within the limits on stops, load, duration, time windows and capacity (goods to
be delivered and collected) is cheaper than the last value of `_lower_bound`, up to 1/1000 for each of its vehicles
(if `use_all_vehicles` is set, a solution has to use each vehicle for a customer).  What is trusted: cspy (`CspySound`, `CspyFinds`),
networkx' path search, and the LP solver for dual values of the masters on the way that prove their values (`DualsOk`) and
are feasible for their columns without dual values for the bounds `y ≤ 1` (`ColumnsPriced`).  What is missing: a duration together with
time windows, collection without a capacity, or with service times or opening times but without time windows (`CspyData`; cspy
compares the wrong quantities then, `C19_duration_counterexample`), as for `C70_lower_bound_partial`
the global span, preassigned routes (for those see `C70_locked_cspy_partial`), negative costs, and several vehicle types, greedy pricing and dual values for `y ≤ 1`, for which it is false
(`C73_mixed_fleet_counterexample`, `C73_greedy_counterexample`, `C73_bound_counterexample`). -/
theorem C70_cspy_partial {w : World} {a : SolveArgs} {fuel : Nat} {P0 : Vrp} {o o' : Obj} (hw : WorldOk w)
    (hfinds : ∀ t q, CspyFinds q (w.cspy t q)) (hP : Deliveries P0) (hD : NonnegativeData P0) (hC : CspyData P0) (hpen : 0 ≤ P0.dropPenalty)
    (hmixed : P0.mixedFleet = false) (hone : (userCapacities P0.loadCapacity).length ≤ 1) (hstops : P0.numStops.stops ≠ none ∨ userCapacities P0.loadCapacity ≠ [])
    (hspan : P0.minimizeGlobalSpan = false) (hpre : a.preassignments = [])
    (hheur : a.heuristicOnly = false) (hcspy : a.cspy = true) (hgreedy : a.greedy = false)
    (hstrat : a.strategy ≠ "Hyper") (hc : Obj.create P0 = .ok o)
    (hduals : ∀ P' P'' fuel cols m stm, o.P.startSolve w.dist a.strategy a.cspy a.initialRoutes a.preassignments = .ok P' →
      P'.initialize P'.G.toNet w.cw fuel = .ok (some (P'', cols)) →
      Solve.Trace (P''.solveCfg a w.falsy) w.toEnv false (o.start a P'' cols) m stm →
      (w.master stm.tick (P''.master.lp stm.mcols true)).optimal = true →
      DualsOk P''.master stm.mcols (w.master stm.tick (P''.master.lp stm.mcols true)) ∧
      ColumnsPriced P''.master stm.mcols (w.master stm.tick (P''.master.lp stm.mcols true)))
    (h : o.solve w a fuel = .ok (some o')) (hno : Spec.NotStagnant a o')
    (hiter : a.maxIter = 0 ∨ o'.iteration < a.maxIter) (htime : ∀ t, w.timeUp t = false) :
    ∃ K bound, o'.P.vehicleTypes = some K ∧ o'.bounds.getLast? = some bound ∧ ∀ S, SolvesWithin P0 K S →
      (P0.useAllVehicles = true → ∀ p ∈ S.routes, stops p.2 ≠ []) →
      bound ≤ (userCosts P0 S).sum + P0.dropPenalty * S.dropped.length + 1 / 1000 * S.routes.length := by
  obtain ⟨K, bound, h1, h2, h3⟩ := cspy_bound_upTo (tol := fun _ => 1 / 1000) hw (fun t q _ => hfinds t q) hP hD hC hpen hmixed hone hstops hspan hpre
    hheur hcspy hgreedy hstrat hc hduals h hno hiter htime
  exact ⟨K, bound, h1, h2, fun S hS hused => h3 S _ hS hused (by norm_num) (fun _ _ => le_refl _)⟩

end Vrpy
