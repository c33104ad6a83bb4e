import Verif.Model.ObjectReports
import Verif.Proofs.ReportData
import Verif.Props.TimeChecks
import Verif.Props.EndToEndAnyLP
import Verif.Props.EndToEndDurationCases

/-!
# C40, C41: the load and duration reports are computed; C85: all reports after a run, in the user's data
-/

namespace Vrpy

open Spec

/-! ## The reports are computed -/

theorem mapM_eq_map {α β : Type} {f : α → Py β} {g : α → β} {l : List α} (h : ∀ x ∈ l, f x = .ok (g x)) :
    l.mapM f = .ok (l.map g) := by
  rw [py_mapM_ok]
  induction l with
  | nil => exact List.Forall₂.nil
  | cons x l ih => exact List.Forall₂.cons (h x (by simp)) (ih (fun y hy => h y (by simp [hy])))

/-- **C41**, the report is computed: for routes along arcs of the network it is the travel plus service time of every route, under
the number of the route and in the order of the routes; a route with a missing arc raises `KeyError`; nothing is reported without
time windows and `duration`. -/
theorem C41_duration_computed (H : Net) (S : Solution) :
    bestRoutesDuration H false S = .ok [] ∧
    ((∀ i r, (i, r) ∈ S.routes → Along (fun u v => v ∈ H.succ u) r) →
      bestRoutesDuration H true S = .ok (S.routes.map (fun p => (p.1, duration H p.2)))) ∧
    ((∃ i r, (i, r) ∈ S.routes ∧ ¬ Along (fun u v => v ∈ H.succ u) r) →
      ∀ D, bestRoutesDuration H true S ≠ .ok D) := by
  refine ⟨rfl, ?_, ?_⟩
  · intro h
    refine mapM_eq_map ?_
    rintro ⟨i, r⟩ hir
    have hal := (along_iff _ _).1 (h i r hir)
    have : sumEdgeTimes H (consecutive r) = .ok (travel H r) := by
      rw [sumEdgeTimes_ok]
      exact ⟨fun e he => hal e.1 e.2 he, by rw [travel, legSum_eq]⟩
    simp [durationEntry, this, duration]
  · rintro ⟨i, r, hir, hnot⟩ D hD
    obtain ⟨_, h2⟩ := mapM_entries (f := durationEntry H)
      (g := fun r => match sumEdgeTimes H (consecutive r) with
        | .error e => .error e
        | .ok t => .ok (t + (r.map H.service).sum))
      (fun p => by
        unfold durationEntry
        cases sumEdgeTimes H (consecutive p.2) <;> rfl) hD
    obtain ⟨y, hy, _⟩ := h2 _ hir
    simp only at hy
    cases hs : sumEdgeTimes H (consecutive r) with
    | error e => simp [hs] at hy
    | ok t =>
      refine hnot ((along_iff _ _).2 ?_)
      intro u v huv
      exact (sumEdgeTimes_ok.1 hs).1 (u, v) huv

/-- **C40**, `node_load` is computed: always without collection; with collection exactly if every route has a vehicle type that has
a capacity. -/
theorem C40_node_load_computed (H : Net) (caps : List ℚ) (pickDel : Bool) (S : Solution) :
    (∃ D, nodeLoad H caps false pickDel S = .ok D) ∧
    ((∃ D, nodeLoad H caps true pickDel S = .ok D) ↔
      ∀ i r, (i, r) ∈ S.routes → ∃ k q, dget S.types i = some k ∧ caps[k]? = some q) := by
  constructor
  · unfold nodeLoad
    split
    · exact ⟨_, rfl⟩
    · exact ⟨_, mapM_eq_map (g := fun p => (p.1, (p.2.foldl (nodeLoadStep H false) (0, [])).2)) (fun p _ => rfl)⟩
  · unfold nodeLoad
    rw [if_neg (by simp)]
    constructor
    · rintro ⟨D, hD⟩ i r hir
      have hall := py_mapM_ok.1 hD
      clear hD
      generalize S.routes = l at hall hir
      induction hall with
      | nil => simp at hir
      | @cons x y l D hx _ ih =>
        rcases List.mem_cons.1 hir with rfl | hir
        · simp only [nodeLoadEntry, nodeLoadStart, if_true] at hx
          cases hk : dget S.types i with
          | none => simp [hk] at hx
          | some k =>
            by_cases hcaps : caps = []
            · simp [hk, hcaps] at hx
            · cases hq : caps[k]? with
              | none => simp [hk, hcaps, hq] at hx
              | some q => exact ⟨k, q, rfl, hq⟩
        · exact ih hir
    · intro h
      refine py_mapM_total ?_
      rintro ⟨i, r⟩ hir
      obtain ⟨k, q, hk, hq⟩ := h i r hir
      have hcaps : caps ≠ [] := by
        rintro rfl
        simp at hq
      exact ⟨(i, (r.foldl (nodeLoadStep H true) (q, [])).2),
        by simp only [nodeLoadEntry, nodeLoadStart, if_true, hk, hcaps, if_false, hq]⟩

/-! ## C85 -/

/-- When the nodes of a route are reached, in the user's data; Source is left when it opens. -/
def Spec.userTimes (G : DiGraph) : List Node → List (Node × ℚ)
  | [] => []
  | u :: rest => (u, userLower G u) :: userArrivals G (userLower G u) u rest

/-- When the nodes of a route are left: Source when it opens, the others after their service. -/
def Spec.userLeaves (G : DiGraph) : List Node → List (Node × ℚ)
  | [] => []
  | u :: rest => (u, userLower G u) :: (userArrivals G (userLower G u) u rest).map (fun p => (p.1, p.2 + userService G p.1))

/-- All reports of `o` are computed, and say about its routes what follows from the data of the user: cost for the vehicle used, load,
duration, times of arrival and departure, load after every node.  With collection the load after a node counts from a full
vehicle. -/
structure Spec.ReportsFor (P : Vrp) (o : Obj) : Prop where
  cost : o.bestRoutesCost = .ok (o.solution.routes.map
    (fun p => (p.1, legSum (userArcCost P ((dget o.solution.types p.1).getD 0)) p.2)))
  value : P.minimizeGlobalSpan = false →
    o.bestValue = .ok ((userCosts P o.solution).sum + P.dropPenalty * o.solution.dropped.length)
  span : P.minimizeGlobalSpan = true → o.solution.routes ≠ [] → ∃ m, IsLargest m (userCosts P o.solution) ∧
    o.bestValue = .ok (m + P.dropPenalty * o.solution.dropped.length)
  load : o.bestRoutesLoad =
    if userCapacities P.loadCapacity = [] ∨ P.distributionCollection = true ∨ P.pickupDelivery = true then []
    else o.solution.routes.map (fun p => (p.1, ((stops p.2).map (userDemand P.G)).sum))
  duration : o.bestRoutesDuration = .ok
    (if P.duration.truthy = true ∨ P.timeWindows = true then o.solution.routes.map (fun p => (p.1, userDuration P.G p.2)) else [])
  untimed : P.duration.truthy = false → P.timeWindows = false → o.arrivalTime = .ok [] ∧ o.departureTime = .ok []
  arrival : P.duration.truthy = true ∨ P.timeWindows = true → ∃ A, o.arrivalTime = .ok A ∧
    A.map Prod.fst = o.solution.routes.map Prod.fst ∧
    ∀ i r, (i, r) ∈ o.solution.routes → ∃ d, (i, d) ∈ A ∧ ∀ v t, (v, t) ∈ d ↔ (v, t) ∈ userTimes P.G r
  departure : P.duration.truthy = true ∨ P.timeWindows = true → ∃ D, o.departureTime = .ok D ∧
    D.map Prod.fst = o.solution.routes.map Prod.fst ∧
    ∀ i r, (i, r) ∈ o.solution.routes → ∃ d, (i, d) ∈ D ∧ ∀ v t, (v, t) ∈ d ↔ (v, t) ∈ userLeaves P.G r
  nodeLoad : P.distributionCollection = false → userCapacities P.loadCapacity ≠ [] ∨ P.pickupDelivery = true →
    ∃ D, o.nodeLoad = .ok D ∧ D.map Prod.fst = o.solution.routes.map Prod.fst ∧
      ∀ i r, (i, r) ∈ o.solution.routes → ∃ d, (i, d) ∈ D ∧
        ∀ pre v post, r = pre ++ v :: post → dget d v = some ((stops (pre ++ [v])).map (userDemand P.G)).sum
  nodeLoadCollecting : P.distributionCollection = true → userCapacities P.loadCapacity ≠ [] →
    ∃ D, o.nodeLoad = .ok D ∧ D.map Prod.fst = o.solution.routes.map Prod.fst ∧
      ∀ i r, (i, r) ∈ o.solution.routes → ∃ d k q, (i, d) ∈ D ∧ dget o.solution.types i = some k ∧
        (userCapacities P.loadCapacity)[k]? = some q ∧
        ∀ pre v post, r = pre ++ v :: post → dget d v =
          some (q - ((stops (pre ++ [v])).map (userDemand P.G)).sum + ((pre ++ [v]).map (userCollect P.G)).sum)
  unloaded : P.distributionCollection = false → userCapacities P.loadCapacity = [] → P.pickupDelivery = false → o.nodeLoad = .ok []
  noCapacity : P.distributionCollection = true → userCapacities P.loadCapacity = [] → o.solution.routes ≠ [] →
    o.nodeLoad = .error .typeError

/-- The routes start at Source, visit different customers, end at Sink, drive along arcs of the user's graph (completed with depot
arcs), and have a vehicle type below `K`. -/
def Spec.DrivenRoutes (P : Vrp) (K : Nat) (S : Solution) : Prop :=
  ∀ i r, (i, r) ∈ S.routes → ∃ mid, r = routeOf mid ∧ mid.Nodup ∧ (∀ v ∈ mid, (∃ n, v = .cust n) ∧ v ∈ P.G.nodes) ∧
    Along (UserArc P.G) r ∧ ∃ k < K, dget S.types i = some k

theorem arrivals_user {P0 : Vrp} {N : Net} (D : ReportData P0 N) (rest : List Node) (t : ℚ) (u : Node) (hu : u ∈ N.nodes)
    (hr : ∀ v ∈ rest, v ∈ N.nodes) (hal : Along (fun u v => v ∈ N.succ u) (u :: rest)) :
    rest.zip (arrivalsFrom N t u rest) = userArrivals P0.G t u rest := by
  induction rest generalizing t u with
  | nil => rfl
  | cons v rest ih =>
    have hal' := (along_iff _ _).1 hal
    have huv : v ∈ N.succ u := hal' u v (by simp)
    have ha : max (t + N.service u + N.time u v) (N.lower v) = max (t + userService P0.G u + userTime P0.G u v) (userLower P0.G v) := by
      rw [D.service u hu, D.time u v huv, D.lower v (hr v (by simp))]
    simp only [arrivalsFrom, userArrivals, List.zip_cons_cons, ha]
    congr 1
    refine ih _ v (hr v (by simp)) (fun x hx => hr x (by simp [hx])) ?_
    refine (along_iff _ _).2 (fun x y hxy => hal' x y ?_)
    rw [consecutive_cons_cons]
    exact List.mem_cons_of_mem _ hxy

theorem demand_stops {P0 : Vrp} {N : Net} (h0 : N.demand .source = 0 ∧ N.demand .sink = 0)
    (h1 : ∀ v ∈ N.customers, N.demand v = userDemand P0.G v) (l : List Node) (hl : ∀ v ∈ l, v ∈ N.nodes) :
    (l.map N.demand).sum = ((stops l).map (userDemand P0.G)).sum := by
  induction l with
  | nil => rfl
  | cons v l ih =>
    have := ih (fun x hx => hl x (by simp [hx]))
    by_cases hv : v ≠ .source ∧ v ≠ .sink
    · rw [stops, List.filter_cons_of_pos (by simpa using hv)]
      rw [List.map_cons, List.sum_cons, List.map_cons, List.sum_cons, this, h1 v (mem_customers.2 ⟨hl v (by simp), hv.1, hv.2⟩)]
      rfl
    · rw [stops, List.filter_cons_of_neg (by simpa using hv), List.map_cons, List.sum_cons, this]
      have : N.demand v = 0 := by
        rcases not_and_or.1 hv with h | h
        · rw [not_not.1 h]; exact h0.1
        · rw [not_not.1 h]; exact h0.2
      rw [this, zero_add]
      rfl

/-- **C85.**  Whatever the options and the answers of the solvers: if a first `solve()` returns and its routes are driven along the
arcs of the user with a known vehicle type, all reports are computed and give what follows from the user's data. -/
theorem C85_reports {w : World} {a : SolveArgs} {fuel : Nat} {P0 : Vrp} {o o' : Obj} {K : Nat} (hwf : P0.G.WF)
    (hcust : ∃ n, Node.cust n ∈ P0.G.nodes) (hdoc : CostsAsDocumented P0)
    (hdem : ∀ v ∈ P0.G.nodes, P0.pickupDelivery = false ∨ v = .source ∨ v = .sink → 0 ≤ userDemand P0.G v)
    (hc : Obj.create P0 = .ok o) (h : o.solve w a fuel = .ok (some o')) (hK : o'.P.vehicleTypes = some K)
    (hr : DrivenRoutes P0 K o'.solution) : ReportsFor P0 o' := by
  obtain ⟨P', rs, hstart, hP'⟩ := solve_data h
  obtain ⟨K', N, N3, R, Se⟩ := searched_locked (w := w) hwf hcust hdoc hdem hc hstart
  obtain ⟨D, e1, e2, e3, e4, e5, e6⟩ := reportData (w := w) hwf hc hstart R.reports
  have hKK : K' = K := by
    rw [hP'] at hK
    exact Option.some.inj (R.types.symm.trans hK)
  subst hKK
  have hnet : o'.net = N := by
    unfold Obj.net
    rw [hP']
    show (P'.H.getD _) = N
    rw [R.reports]
    rfl
  have hcaps : capacities o'.P.loadCapacity.toList = userCapacities P0.loadCapacity := by
    rw [hP']
    exact R.caps
  have hdc : o'.P.distributionCollection = P0.distributionCollection := by rw [hP']; exact e4
  have hpd : o'.P.pickupDelivery = P0.pickupDelivery := by rw [hP']; exact e3
  have htimed : o'.timed = (P0.duration.truthy || P0.timeWindows) := by
    unfold Obj.timed
    rw [hP']
    show (P'.duration.truthy || P'.timeWindows) = _
    rw [e1, e2]
  have hsrc : Node.source ∈ N.nodes := R.wf.source_mem
  have hsnk : Node.sink ∈ N.nodes := R.wf.sink_mem
  -- the routes in the network
  have hroute : ∀ i r, (i, r) ∈ o'.solution.routes → IsSimpleRoute N r ∧ (∀ v ∈ r, v ∈ N.nodes) ∧
      Along (fun u v => v ∈ N.succ u) r ∧ ∃ k < K', dget o'.solution.types i = some k := by
    intro i r hir
    obtain ⟨mid, rfl, hnd, hmid, hal, hk⟩ := hr i r hir
    have hnodes : ∀ v ∈ routeOf mid, v ∈ N.nodes := by
      intro v hv
      simp only [routeOf, List.mem_cons, List.mem_append, List.not_mem_nil, or_false] at hv
      rcases hv with rfl | hv | rfl
      · exact hsrc
      · rw [R.userNodes]; exact (hmid v hv).2
      · exact hsnk
    have hal' : Along (fun u v => v ∈ N.succ u) (routeOf mid) := by
      refine (along_iff _ _).2 (fun u v huv => ?_)
      have hm := And.intro (fst_mem_of_consecutive huv) (snd_mem_of_consecutive huv)
      exact R.arcs u v (by rw [← R.userNodes]; exact hnodes u hm.1) (by rw [← R.userNodes]; exact hnodes v hm.2)
        ((along_iff _ _).1 hal u v huv)
    have hdep : ∀ v ∈ mid, v ≠ .source ∧ v ≠ .sink := by
      intro v hv
      obtain ⟨⟨n, rfl⟩, _⟩ := hmid v hv
      exact ⟨by simp, by simp⟩
    refine ⟨⟨⟨mid, rfl, ?_, hal'⟩, ?_⟩, hnodes, hal', hk⟩
    · intro v hv
      exact ⟨(hmid v hv).1, by rw [R.userNodes]; exact (hmid v hv).2⟩
    · refine List.nodup_cons.2 ⟨?_, List.nodup_append.2 ⟨hnd, by simp, ?_⟩⟩
      · simp only [List.mem_append, List.mem_singleton, reduceCtorEq, or_false]
        exact fun hv => (hdep _ hv).1 rfl
      · intro x hx y hy
        rw [List.mem_singleton] at hy
        rw [hy]
        exact (hdep x hx).2
  have hcost : o'.bestRoutesCost = .ok (o'.solution.routes.map
      (fun p => (p.1, legSum (userArcCost P0 ((dget o'.solution.types p.1).getD 0)) p.2))) := by
    unfold Obj.bestRoutesCost Vrpy.bestRoutesCost
    refine mapM_eq_map ?_
    rintro ⟨i, r⟩ hir
    obtain ⟨_, _, hal, k, hk, hkt⟩ := hroute i r hir
    have hal := (along_iff _ _).1 hal
    have : sumEdgeCosts o'.net k (consecutive r) = .ok (legSum (userArcCost P0 k) r) := by
      rw [hnet, sumEdgeCosts_route]
      refine ⟨(along_iff _ _).2 (fun u v huv => ⟨hal u v huv, by rw [R.costs u v (hal u v huv)]; exact hk⟩), ?_⟩
      exact legSum_congr (fun u v huv => (R.arcCost u v (hal u v huv) k hk).symm)
    simp only [routeCostEntry, hkt, this, Option.getD_some]
  have hval : ∀ x, totalOf P0.minimizeGlobalSpan (userCosts P0 o'.solution) = .ok x →
      o'.bestValue = .ok (x + P0.dropPenalty * o'.solution.dropped.length) := by
    intro x hx
    unfold Obj.bestValue Vrpy.bestValue
    have hcost' : Vrpy.bestRoutesCost o'.net o'.solution = _ := hcost
    have h5 : o'.P.dropPenalty = P0.dropPenalty := by rw [hP']; exact e5
    have h6 : o'.P.minimizeGlobalSpan = P0.minimizeGlobalSpan := by rw [hP']; exact e6
    have hmap : ((o'.solution.routes.map
      (fun p => (p.1, legSum (userArcCost P0 ((dget o'.solution.types p.1).getD 0)) p.2))).map Prod.snd) =
        userCosts P0 o'.solution := by
      simp [userCosts, Function.comp_def]
    rw [hcost', h5, h6]
    simp only [hmap, hx]
    split
    · rfl
    · rename_i h0
      rw [not_not.1 h0]
      simp
  refine ⟨hcost, ?_, ?_, ?_, ?_, ?_, ?_, ?_, ?_, ?_, ?_, ?_⟩
  · intro hs
    exact hval _ (by simp [totalOf, hs])
  · intro hs hne
    have hne' : userCosts P0 o'.solution ≠ [] := by simpa [userCosts] using hne
    obtain ⟨c, cs, hcs⟩ := List.exists_cons_of_ne_nil hne'
    refine ⟨cs.foldl max c, ?_, hval _ (by simp [totalOf, hs, hcs])⟩
    rw [hcs]
    refine ⟨foldl_max_mem c cs, ?_⟩
    intro x hx
    rcases List.mem_cons.1 hx with rfl | hx
    · exact (le_foldl_max _ _).1
    · exact (le_foldl_max _ _).2 x hx
  · unfold Obj.bestRoutesLoad Vrpy.bestRoutesLoad
    rw [hcaps, hdc, hpd, hnet]
    split
    · rfl
    · refine List.map_congr_left ?_
      rintro ⟨i, r⟩ hir
      obtain ⟨_, hn, _⟩ := hroute i r hir
      rw [demand_stops R.demandDepots R.demand r hn]
  · unfold Obj.bestRoutesDuration
    rw [hnet, htimed]
    by_cases ht : P0.duration.truthy = true ∨ P0.timeWindows = true
    · rw [if_pos ht]
      have : (P0.duration.truthy || P0.timeWindows) = true := by simpa using ht
      rw [this, (C41_duration_computed N o'.solution).2.1 (fun i r hir => (hroute i r hir).2.2.1)]
      congr 1
      refine List.map_congr_left ?_
      rintro ⟨i, r⟩ hir
      obtain ⟨_, hn, hal, _⟩ := hroute i r hir
      have hal := (along_iff _ _).1 hal
      have h1 : legSum N.time r = legSum (userTime P0.G) r := legSum_congr (fun u v huv => D.time u v (hal u v huv))
      have h2 : r.map N.service = r.map (userService P0.G) := List.map_congr_left (fun v hv => D.service v (hn v hv))
      simp only [Spec.duration, travel, userDuration, h1, h2]
    · rw [if_neg ht]
      have : (P0.duration.truthy || P0.timeWindows) = false := by
        push Not at ht
        simpa using ht
      rw [this]
      rfl
  · intro h1 h2
    unfold Obj.arrivalTime Obj.departureTime
    rw [htimed, h1, h2]
    exact ⟨rfl, rfl⟩
  · intro ht
    have ht' : o'.timed = true := by rw [htimed]; simpa using ht
    unfold Obj.arrivalTime
    rw [hnet, ht']
    obtain ⟨A, hA, hmem⟩ := arrivalTime_ok (H := N) (S := o'.solution) (fun i r hir => (hroute i r hir).1)
    refine ⟨A, hA, (C39_arrival_times hA).1, ?_⟩
    intro i r hir
    obtain ⟨hsimple, hn, hal, _⟩ := hroute i r hir
    obtain ⟨d, hd, hdm⟩ := arrivalRoute_times hsimple
    refine ⟨d, (hmem i d).2 ⟨r, hir, hd⟩, ?_⟩
    obtain ⟨mid, rfl, _⟩ := hr i r hir
    intro v t
    rw [hdm, timesAlong, routeOf, List.tail_cons,
      arrivals_user D _ _ _ hsrc (fun v hv => hn v (List.mem_cons_of_mem _ hv)) hal, D.lower _ hsrc]
    rfl
  · intro ht
    have ht' : o'.timed = true := by rw [htimed]; simpa using ht
    unfold Obj.departureTime
    rw [hnet, ht']
    obtain ⟨A, hA, hmem⟩ := departureTime_ok (H := N) (S := o'.solution) (fun i r hir => (hroute i r hir).1)
    obtain ⟨A', hA', _⟩ := arrivalTime_ok (H := N) (S := o'.solution) (fun i r hir => (hroute i r hir).1)
    refine ⟨A, hA, (C39_departure_times hA' hA).1, ?_⟩
    intro i r hir
    obtain ⟨hsimple, hn, hal, _⟩ := hroute i r hir
    obtain ⟨d, hd, hdm⟩ := departureRoute_times hsimple
    refine ⟨d, (hmem i d).2 ⟨r, hir, hd⟩, ?_⟩
    obtain ⟨mid, rfl, _⟩ := hr i r hir
    intro v t
    rw [hdm, routeOf, List.tail_cons,
      arrivals_user D _ _ _ hsrc (fun v hv => hn v (List.mem_cons_of_mem _ hv)) hal, D.lower _ hsrc]
    simp only [userLeaves, List.mem_cons, List.mem_map, Prod.mk.injEq]
    constructor
    · rintro (⟨rfl, rfl⟩ | ⟨s, hs, rfl⟩)
      · exact Or.inl ⟨rfl, rfl⟩
      · have hv : v ∈ mid ++ [Node.sink] := by
          rw [← arrivals_user D _ _ _ hsrc (fun v hv => hn v (List.mem_cons_of_mem _ hv)) hal] at hs
          exact (List.of_mem_zip hs).1
        exact Or.inr ⟨(v, s), hs, rfl, by rw [D.service v (hn v (List.mem_cons_of_mem _ hv))]⟩
    · rintro (⟨rfl, rfl⟩ | ⟨⟨x, s⟩, hs, rfl, rfl⟩)
      · exact Or.inl ⟨rfl, rfl⟩
      · have hv : x ∈ mid ++ [Node.sink] := by
          rw [← arrivals_user D _ _ _ hsrc (fun v hv => hn v (List.mem_cons_of_mem _ hv)) hal] at hs
          exact (List.of_mem_zip hs).1
        exact Or.inr ⟨s, hs, by rw [D.service x (hn x (List.mem_cons_of_mem _ hv))]⟩
  · intro hd hcp
    obtain ⟨A, hA⟩ := (C40_node_load_computed N (userCapacities P0.loadCapacity) P0.pickupDelivery o'.solution).1
    unfold Obj.nodeLoad
    rw [hnet, hcaps, hdc, hpd, hd]
    obtain ⟨h1, h2⟩ := C40_node_load hcp hA
    refine ⟨A, hA, h1, ?_⟩
    intro i r hir
    obtain ⟨hsimple, hn, _⟩ := hroute i r hir
    obtain ⟨d, k1, k2, _⟩ := h2 i r hir hsimple.2
    refine ⟨d, k1, ?_⟩
    intro pre v post hr'
    rw [k2 pre v post hr', demand_stops R.demandDepots R.demand _ (fun x hx => hn x (by rw [hr']; simp at hx ⊢; tauto))]
  · intro hd hcne
    have hk : ∀ i r, (i, r) ∈ o'.solution.routes → ∃ k q, dget o'.solution.types i = some k ∧
        (userCapacities P0.loadCapacity)[k]? = some q := by
      intro i r hir
      obtain ⟨_, _, _, k, hk, hkt⟩ := hroute i r hir
      have hlen : k < (userCapacities P0.loadCapacity).length := by
        cases hm : P0.mixedFleet with
        | true =>
          have : (userCapacities P0.loadCapacity).length = K' := Se.typesCaps hm hcne
          omega
        | false =>
          have : K' = 1 := Se.typesOne hm
          have := List.length_pos_iff.2 hcne
          omega
      exact ⟨k, _, hkt, List.getElem?_eq_getElem hlen⟩
    obtain ⟨A, hA⟩ := (C40_node_load_computed N (userCapacities P0.loadCapacity) P0.pickupDelivery o'.solution).2.2 hk
    unfold Obj.nodeLoad
    rw [hnet, hcaps, hdc, hpd, hd]
    obtain ⟨h1, h2⟩ := C40_node_load_collection_partial hA
    refine ⟨A, hA, h1, ?_⟩
    intro i r hir
    obtain ⟨hsimple, hn, _⟩ := hroute i r hir
    obtain ⟨d, k, q, k1, k2, k3, k4⟩ := h2 i r hir hsimple.2
    refine ⟨d, k, q, k1, k2, k3, ?_⟩
    intro pre v post hr'
    have hsub : ∀ x ∈ pre ++ [v], x ∈ N.nodes := fun x hx => hn x (by rw [hr']; simp at hx ⊢; tauto)
    have hcol : (pre ++ [v]).map N.collect = (pre ++ [v]).map (userCollect P0.G) :=
      List.map_congr_left (fun x hx => D.collect x (hsub x hx))
    rw [k4 pre v post hr', onBoard, hcol, demand_stops R.demandDepots R.demand _ hsub]
    congr 1
    ring
  · intro hd hcs hp
    unfold Obj.nodeLoad Vrpy.nodeLoad
    rw [hcaps, hdc, hpd, if_pos ⟨hcs, hp, hd⟩]
  · intro hd hcs hne
    unfold Obj.nodeLoad Vrpy.nodeLoad
    rw [hcaps, hdc, hpd, if_neg (fun h => by rw [hd] at h; cases h.2.2)]
    cases hrs : o'.solution.routes with
    | nil => exact absurd hrs hne
    | cons p l =>
      obtain ⟨_, _, _, k, _, hkt⟩ := hroute p.1 p.2 (by rw [hrs]; simp)
      have : nodeLoadEntry o'.net (userCapacities P0.loadCapacity) P0.distributionCollection o'.solution.types p =
          .error .typeError := by
        simp only [nodeLoadEntry, nodeLoadStart, hd, if_true, hkt, hcs]
      rw [List.mapM_cons, this]
      rfl

/-- The routes start at Source, visit different customers, end at Sink and drive along arcs of the user's graph (completed with depot
arcs). -/
def Spec.RoutesAlongArcs (P : Vrp) (S : Solution) : Prop :=
  ∀ i r, (i, r) ∈ S.routes → ∃ mid, r = routeOf mid ∧ mid.Nodup ∧ (∀ v ∈ mid, (∃ n, v = .cust n) ∧ v ∈ P.G.nodes) ∧
    Along (UserArc P.G) r

/-- The vehicle types are known if `best_value` is computed. -/
theorem reports_of_value {w : World} {a : SolveArgs} {fuel : Nat} {P0 : Vrp} {o o' : Obj} {N : Net} (hwf : P0.G.WF)
    (hcust : ∃ n, Node.cust n ∈ P0.G.nodes) (hdoc : CostsAsDocumented P0)
    (hdem : ∀ v ∈ P0.G.nodes, P0.pickupDelivery = false ∨ v = .source ∨ v = .sink → 0 ≤ userDemand P0.G v)
    (hc : Obj.create P0 = .ok o) (h : o.solve w a fuel = .ok (some o')) (hH : o'.P.H = some N)
    (hr : RoutesAlongArcs P0 o'.solution)
    (hv : o'.solution.routes ≠ [] → ∃ b x, bestValue N b P0.dropPenalty o'.solution = .ok x) : ReportsFor P0 o' := by
  obtain ⟨P', rs, hstart, hP'⟩ := solve_data h
  obtain ⟨K, N', N3, R, Se⟩ := searched_locked (w := w) hwf hcust hdoc hdem hc hstart
  have hN : N' = N := by
    rw [hP'] at hH
    exact Option.some.inj (R.reports.symm.trans hH)
  subst hN
  refine C85_reports hwf hcust hdoc hdem hc h (K := K) (by rw [hP']; exact R.types) ?_
  intro i r hir
  obtain ⟨mid, rfl, h1, h2, h3⟩ := hr i r hir
  refine ⟨mid, rfl, h1, h2, h3, ?_⟩
  obtain ⟨b, x, hx⟩ := hv (List.ne_nil_of_mem hir)
  unfold bestValue at hx
  cases hcost : bestRoutesCost N' o'.solution with
  | error e => simp [hcost] at hx
  | ok D =>
    unfold bestRoutesCost at hcost
    have hall := py_mapM_ok.1 hcost
    obtain ⟨y, hy⟩ : ∃ y, routeCostEntry N' o'.solution.types (i, routeOf mid) = .ok y := by
      clear hcost hx
      generalize o'.solution.routes = l at hall hir
      induction hall with
      | nil => simp at hir
      | @cons p y l D hp _ ih =>
        rcases List.mem_cons.1 hir with rfl | hir
        · exact ⟨y, hp⟩
        · exact ih hir
    simp only [routeCostEntry] at hy
    cases hk : dget o'.solution.types i with
    | none => simp [hk] at hy
    | some k =>
      simp only [hk] at hy
      cases hs : sumEdgeCosts N' k (consecutive (routeOf mid)) with
      | error e => simp [hs] at hy
      | ok c =>
        obtain ⟨hal, _⟩ := sumEdgeCosts_route.1 hs
        refine ⟨k, ?_, rfl⟩
        have hleg : ∃ v, (Node.source, v) ∈ consecutive (routeOf mid) := by
          cases mid with
          | nil => exact ⟨.sink, by simp [routeOf]⟩
          | cons m mid => exact ⟨m, by simp [routeOf]⟩
        obtain ⟨v, hv⟩ := hleg
        obtain ⟨e1, e2⟩ := (along_iff _ _).1 hal _ _ hv
        rwa [R.costs _ _ e1] at e2

theorem value_computed {P : Vrp} {N : Net} {S : Solution}
    (h : (P.minimizeGlobalSpan = false → bestValue N false P.dropPenalty S =
        .ok ((userCosts P S).sum + P.dropPenalty * S.dropped.length)) ∧
      (P.minimizeGlobalSpan = true → S.routes ≠ [] → ∃ m, IsLargest m (userCosts P S) ∧
        bestValue N true P.dropPenalty S = .ok (m + P.dropPenalty * S.dropped.length))) (hne : S.routes ≠ []) :
    ∃ b x, bestValue N b P.dropPenalty S = .ok x := by
  cases hs : P.minimizeGlobalSpan with
  | false => exact ⟨_, _, h.1 hs⟩
  | true =>
    obtain ⟨m, _, hm⟩ := h.2 hs hne
    exact ⟨_, _, hm⟩

/-- **C85**, capacitated problems: all reports after a run with cspy or LP pricing, with and without diving. -/
theorem C85_capacitated {w : World} {a : SolveArgs} {fuel : Nat} {P0 : Vrp} {o o' : Obj}
    (hw : WorldOk w ∧ a.cspy = true ∨ LpSound w ∧ (∀ x, (w.cw x).Valid) ∧ a.cspy = false)
    (hdive : a.dive = true → DiveOk w.toEnv) (hP : Capacitated P0) (hpre : a.preassignments = []) (hheur : a.heuristicOnly = false)
    (hinit : ∀ r ∈ a.initialRoutes, r.Nodup ∧ WithinStops P0.numStops.stops (stops r).length)
    (hc : Obj.create P0 = .ok o) (h : o.solve w a fuel = .ok (some o')) : ReportsFor P0 o' := by
  rcases hw with ⟨hw, hcspy⟩ | ⟨hw, hcw, hcspy⟩
  · cases hdv : a.dive with
    | true =>
      obtain ⟨K, N, _, hH, h3, hv⟩ := C53_dive_partial hw (hdive hdv) hP hpre hdv hheur hcspy hinit hc h
      refine reports_of_value hP.wf hP.customer hP.costs (fun v hv _ => hP.demand v hv) hc h hH ?_ (value_computed hv)
      intro i r hir
      obtain ⟨mid, h4, h5, h6, h7, _⟩ := h3.routes i r hir
      exact ⟨mid, h4, h5, h6, h7⟩
    | false =>
      obtain ⟨K, N, _, hH, h3, hv⟩ := C55_plan_partial hw hP hpre hdv hheur hcspy hinit hc h
      refine reports_of_value hP.wf hP.customer hP.costs (fun v hv _ => hP.demand v hv) hc h hH ?_ (value_computed hv)
      intro i r hir
      obtain ⟨mid, h4, h5, h6, h7, _⟩ := h3.routes i r hir
      exact ⟨mid, h4, h5, h6, h7⟩
  · obtain ⟨K, N, _, hH, h3, _, hv⟩ := C84_routes hw hcw hdive hP.toCapacitatedData hpre hheur hcspy hinit hc h
    refine reports_of_value hP.wf hP.customer hP.costs (fun v hv _ => hP.demand v hv) hc h hH ?_ (value_computed hv)
    intro i r hir
    obtain ⟨mid, h4, h5, h6, h7, _⟩ := h3.routes i r hir
    exact ⟨mid, h4, h5, h6, h7⟩

/-- **C85**, time windows or distribution and collection: all reports after a run with cspy, with and without diving. -/
theorem C85_variants {w : World} {a : SolveArgs} {fuel : Nat} {P0 : Vrp} {o o' : Obj} (hw : WorldOk w) (hcspy : a.cspy = true)
    (hdive : a.dive = true → DiveOk w.toEnv) (hP : WindowedOrCollecting P0) (hpre : a.preassignments = [])
    (hheur : a.heuristicOnly = false)
    (hinit : ∀ r ∈ a.initialRoutes, r.Nodup ∧ ∀ mid k, r = routeOf mid →
      WithinCapacity (userCapacities P0.loadCapacity) k (mid.map (userDemand P0.G)).sum → RouteLimits P0 k mid)
    (hc : Obj.create P0 = .ok o) (h : o.solve w a fuel = .ok (some o')) : ReportsFor P0 o' := by
  cases hdv : a.dive with
  | true =>
    obtain ⟨K, N, _, hH, h3, hv⟩ := C53_dive_variants_partial hw (hdive hdv) hP hpre hdv hheur hcspy hinit hc h
    refine reports_of_value hP.wf hP.customer hP.costs (fun v hv _ => hP.demand v hv) hc h hH ?_ (value_computed hv)
    intro i r hir
    obtain ⟨mid, h4, h5, h6, h7, _⟩ := h3.routes i r hir
    exact ⟨mid, h4, h5, h6, h7⟩
  | false =>
    obtain ⟨K, N, _, hH, h3, hv⟩ := plan_variant hw hP hpre hdv hheur hcspy hinit hc h
    refine reports_of_value hP.wf hP.customer hP.costs (fun v hv _ => hP.demand v hv) hc h hH ?_ (value_computed hv)
    intro i r hir
    obtain ⟨mid, h4, h5, h6, h7, _⟩ := h3.routes i r hir
    exact ⟨mid, h4, h5, h6, h7⟩

/-- **C85**, time windows: all reports after a run with LP pricing, with and without diving. -/
theorem C85_windows_lp {w : World} {a : SolveArgs} {fuel : Nat} {P0 : Vrp} {o o' : Obj} (hw : LpSound w)
    (hdive : a.dive = true → DiveOk w.toEnv) (hP : WindowedOrCollecting P0) (htw : P0.timeWindows = true)
    (hdc : P0.distributionCollection = false) (hT : TimesForward P0) (hpre : a.preassignments = [])
    (hheur : a.heuristicOnly = false) (hcspy : a.cspy = false)
    (hinit : ∀ r ∈ a.initialRoutes, r.Nodup ∧ ∀ mid k, r = routeOf mid →
      WithinCapacity (userCapacities P0.loadCapacity) k (mid.map (userDemand P0.G)).sum → RouteLimits P0 k mid)
    (hc : Obj.create P0 = .ok o) (h : o.solve w a fuel = .ok (some o')) : ReportsFor P0 o' := by
  obtain ⟨K, N, _, hH, h3, _, hv⟩ := C84_windows hw hdive hP htw hdc hT hpre hheur hcspy hinit hc h
  refine reports_of_value hP.wf hP.customer hP.costs (fun v hv _ => hP.demand v hv) hc h hH ?_ (value_computed hv)
  intro i r hir
  obtain ⟨mid, h4, h5, h6, h7, _⟩ := h3.routes i r hir
  exact ⟨mid, h4, h5, h6, h7⟩

/-- **C85**, pickup and delivery: all reports after a run, with and without diving. -/
theorem C85_requests {w : World} {a : SolveArgs} {fuel : Nat} {P0 : Vrp} {o o' : Obj} (hw : LpSound w)
    (hdive : a.dive = true → DiveOk w.toEnv) (hP : PickupDelivery P0) (hpre : a.preassignments = []) (hheur : a.heuristicOnly = false)
    (hinit : ∀ r ∈ a.initialRoutes, r.Nodup ∧ ∀ mid k, r = routeOf mid →
      WithinCapacity (userCapacities P0.loadCapacity) k (mid.map (userDemand P0.G)).sum → RequestLimits P0 k mid)
    (hc : Obj.create P0 = .ok o) (h : o.solve w a fuel = .ok (some o')) : ReportsFor P0 o' := by
  have hdem : ∀ v ∈ P0.G.nodes, P0.pickupDelivery = false ∨ v = .source ∨ v = .sink → 0 ≤ userDemand P0.G v := by
    intro v hv hd
    rcases hd with hd | hd
    · rw [hP.pickupDelivery] at hd
      cases hd
    · exact hP.depots v hv hd
  cases hdv : a.dive with
  | true =>
    obtain ⟨K, N, _, hH, h3, hv⟩ := C53_dive_requests_partial hw (hdive hdv) hP hpre hdv hheur hinit hc h
    refine reports_of_value hP.wf hP.customer hP.costs hdem hc h hH ?_ (value_computed hv)
    intro i r hir
    obtain ⟨mid, h4, h5, h6, h7, _⟩ := h3.routes i r hir
    exact ⟨mid, h4, h5, h6, h7⟩
  | false =>
    obtain ⟨K, N, _, hH, h3, _, hv⟩ := C63_requests_partial hw hP hpre hdv hheur hinit hc h
    refine reports_of_value hP.wf hP.customer hP.costs hdem hc h hH ?_ (value_computed hv)
    intro i r hir
    obtain ⟨mid, h4, h5, h6, h7, _⟩ := h3.routes i r hir
    exact ⟨mid, h4, h5, h6, h7⟩

/-- **C85**, preassigned routes: all reports, those of the preassigned routes included, if these repeat no customer and some vehicle
can drive each of them. -/
theorem C85_locked {w : World} {a : SolveArgs} {fuel : Nat} {P0 : Vrp} {o o' : Obj} (hw : WorldOk w)
    (hP : Capacitated P0) (hdive : a.dive = false) (hheur : a.heuristicOnly = false) (hcspy : a.cspy = true)
    (hfree : SomeCustomerFree P0 a.preassignments)
    (hinit : ∀ r ∈ a.initialRoutes, r.Nodup ∧ WithinStops P0.numStops.stops (stops r).length)
    (hlock : ∀ r ∈ a.preassignments, Complete r → r.Nodup ∧ ∀ K, o'.P.vehicleTypes = some K → FitsSomeVehicle P0 K r)
    (hc : Obj.create P0 = .ok o) (h : o.solve w a fuel = .ok (some o')) : ReportsFor P0 o' := by
  have hsolve := h
  obtain ⟨P', rs, hstart, hP'⟩ := solve_data h
  unfold Obj.solve at h
  rw [hstart, hheur] at h
  simp only [Bool.false_eq_true, if_false] at h
  obtain ⟨K, N, N3, R, S⟩ := searched_locked (w := w) hP.wf hP.customer hP.costs (fun v hv _ => hP.demand v hv) hc hstart
  have hPw := without_capacitated hP (free_nodes hfree)
  have hold : o.solution.dropped = [] := by
    obtain ⟨G, _, rfl⟩ := create_ok hc
    rfl
  obtain ⟨_, ⟨free, locked, h3⟩, _⟩ := locked_plan R hfree
    (fun _ _ _ h => h)
    (fun o1 ho1 => plan_of_solves (plan_of_good hPw S hw.cw hw.master hw.path
      (by
        show ∀ r ∈ P'.initialRoutes, _
        rw [startSolve_initial hc hstart]
        exact hinit) hdive (fun _ => hold)
      (fun rs _ d _ _ _ _ _ => price_searched hw hPw.toCapacitatedData S hcspy rs d) ho1).2.1) h
  have hK : o'.P.vehicleTypes = some K := by rw [hP']; exact R.types
  refine C85_reports hP.wf hP.customer hP.costs (fun v hv _ => hP.demand v hv) hc hsolve hK ?_
  intro i r hir
  rw [h3.all] at hir
  rcases List.mem_append.1 hir with hir | hir
  · obtain ⟨mid, h4, h5, h6, h7, k, hk, hkt, _⟩ := h3.routes i r hir
    exact ⟨mid, h4, h5, fun v hv => ⟨(h6 v hv).1, (h6 v hv).2.1⟩, h7, k, hk, hkt⟩
  · obtain ⟨mid, rfl, h5, h6⟩ := h3.simple i r hir
    have hm : routeOf mid ∈ a.preassignments.filter (fun r => r.head? = some .source ∧ r.getLast? = some .sink) := by
      rw [← h3.verbatim]
      exact List.mem_map.2 ⟨_, hir, rfl⟩
    obtain ⟨m1, m2⟩ := List.mem_filter.1 hm
    obtain ⟨hnd, hfits⟩ := hlock _ m1 (by simpa [Complete] using m2)
    obtain ⟨j, hj, hj1, hj2⟩ := hfits K hK
    obtain ⟨k, hk, _⟩ := h3.cheapest i _ j hir hj hj1 hj2
    exact ⟨mid, rfl, (List.nodup_append.1 (List.nodup_cons.1 hnd).2).1, h5, h6, k, (h3.vehicles i _ k hir hk).1, hk⟩

/-- **C85**, `heuristic_only`: all reports of the routes that Clarke and Wright's algorithm makes. -/
theorem C85_heuristic {w : World} {a : SolveArgs} {fuel : Nat} {P0 : Vrp} {o o' : Obj} (hcw : ∀ x, (w.cw x).Valid)
    (hP : Capacitated P0) (hmixed : P0.mixedFleet = false) (hpre : a.preassignments = []) (hheur : a.heuristicOnly = true)
    (hc : Obj.create P0 = .ok o) (h : o.solve w a fuel = .ok (some o')) : ReportsFor P0 o' := by
  obtain ⟨P', rs, hstart, hP'⟩ := solve_data h
  obtain ⟨o'', N, hs, hH, _, h3, _, hv1, hv2, _⟩ := C65_heuristic_partial (fuel := fuel) hcw hP hmixed hpre hheur hc hstart
  rw [h] at hs
  simp only [Except.ok.injEq, Option.some.injEq] at hs
  subst hs
  refine reports_of_value hP.wf hP.customer hP.costs (fun v hv _ => hP.demand v hv) hc h hH ?_ (fun _ => ?_)
  · intro i r hir
    obtain ⟨mid, h4, h5, h6, h7, _⟩ := h3.routes i r hir
    exact ⟨mid, h4, h5, h6, h7⟩
  · cases hsp : P0.minimizeGlobalSpan with
    | false => exact ⟨_, _, hv1 hsp⟩
    | true =>
      obtain ⟨m, _, hm⟩ := hv2 hsp
      exact ⟨_, _, hm⟩

structure ReportValues where
  cost : Option (List (Nat × ℚ))
  value : Option ℚ
  duration : Option (List (Nat × ℚ))
  arrival : Option (List (Nat × List (Node × ℚ)))
  departure : Option (List (Nat × List (Node × ℚ)))
  load : Option (List (Nat × List (Node × ℚ)))
deriving DecidableEq

/-- The reports of cost, value, duration, arrival, departure and load after a run, `none` where one is not computed. -/
def reportsOf (w : World) (a : SolveArgs) (fuel : Nat) (P : Vrp) : Option ReportValues :=
  match Obj.create P with
  | .error _ => none
  | .ok o =>
    match o.solve w a fuel with
    | .error _ => none
    | .ok none => none
    | .ok (some o') => some ⟨o'.bestRoutesCost.toOption, o'.bestValue.toOption, o'.bestRoutesDuration.toOption,
        o'.arrivalTime.toOption, o'.departureTime.toOption, o'.nodeLoad.toOption⟩

/-- Meeting `C85_capacitated` and `C85_reports`: the fixed cost 3 is part of the cost, service takes 3, the legs 10, 1 and 10. -/
example : WorldOk exWorld ∧ exArgs.cspy = true ∧ Capacitated (exTravel 3 25) ∧
    (∀ r ∈ exArgs.initialRoutes, r.Nodup ∧ WithinStops (exTravel 3 25).numStops.stops (stops r).length) ∧
    reportsOf exWorld exArgs 5 (exTravel 3 25) = some
      ⟨some [(1, 24)], some 24, some [(1, 27)], some [(1, [(.source, 0), (.cust 1, 10), (.cust 2, 14), (.sink, 27)])],
        some [(1, [(.source, 0), (.cust 1, 13), (.cust 2, 17), (.sink, 27)])],
        some [(1, [(.source, 0), (.cust 1, 2), (.cust 2, 4), (.sink, 4)])]⟩ := by
  refine ⟨exWorld_ok, rfl, exTravel_capacitated _ _, ?_, by decide +kernel⟩
  intro r hr
  simp only [exArgs, List.mem_cons, List.not_mem_nil, or_false] at hr
  rcases hr with rfl | rfl <;> exact ⟨by decide, by intro d hd _; cases hd; decide +kernel⟩

/-- Meeting `C85_windows_lp`. -/
example : LpSound cxWorld2 ∧ WindowedOrCollecting cxTimed ∧ cxTimed.timeWindows = true ∧ cxTimed.distributionCollection = false ∧
    TimesForward cxTimed ∧ (reportsOf cxWorld2 { strategy := "Exact", cspy := false } 5 cxTimed).map ReportValues.cost =
      some (some [(1, 21)]) :=
  ⟨cxWorld2_ok, cxTimed_ok, rfl, rfl, ⟨by decide +kernel, fun _ _ _ => by simp [cxTimed, cxPlan]⟩, by decide +kernel⟩

end Vrpy
