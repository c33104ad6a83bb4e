import Verif.Props.EndToEndVariants
import Verif.Proofs.ExampleWorld

/-!
# C65: what `solve(heuristic_only=True)` returns
-/

namespace Vrpy

open Spec

/-- Going back takes as long as going, also between the depots and a customer. -/
structure Spec.SymmetricUserTimes (G : DiGraph) : Prop where
  sym : ∀ u v, userTime G u v = userTime G v u ∨ ¬ (UserArc G u v ∧ UserArc G v u)
  depot : ∀ n, Node.cust n ∈ G.nodes → userTime G .source (.cust n) = userTime G (.cust n) .sink

/-- The problem without a bound on the fleet. -/
def Spec.anyFleet (P : Vrp) : Vrp := { P with numVehicles := .many [], useAllVehicles := false }

theorem dget_mapIdx {α β : Type} (f : α → β) (l : List α) (i : Nat) :
    dget (l.mapIdx (fun i x => (i, f x))) i = (l[i]?).map f := by
  have key : ∀ (l : List α) (n i : Nat), dget (l.mapIdx (fun j x => (n + j, f x))) (n + i) = (l[i]?).map f := by
    intro l
    induction l with
    | nil => intro n i; simp [dget]
    | cons x l ih =>
      intro n i
      rw [List.mapIdx_cons]
      cases i with
      | zero => simp [dget]
      | succ i =>
        have := ih (n + 1) i
        simp only [dget] at this ⊢
        rw [if_neg (by omega)]
        simp only [List.getElem?_cons_succ]
        rw [← this]
        have e1 : n + (i + 1) = n + 1 + i := by omega
        have e2 : (l.mapIdx fun i x => (n + (i + 1), f x)) = l.mapIdx fun j x => (n + 1 + j, f x) := by
          congr 1
          funext i x
          simp only [Prod.mk.injEq, and_true]
          omega
        rw [e1, e2]
  have := key l 0 i
  simpa using this

/-- **C65 (partial).** Let a capacitated problem with one vehicle type be handed to the constructor and `solve(heuristic_only=True)`
be called.  If preprocessing raises nothing, a solution is returned, whatever the order of the sets: its routes are numbered
0, 1, ..., solve the user's problem except for the bound on the fleet, no customer is dropped, `best_value` is what the routes cost
(their largest cost, with `minimize_global_span`), and if travel times are symmetric and single customers can be visited within the
duration, no route takes longer.  What is missing: the bound on the fleet is ignored (`C65_fleet_counterexample`), preassigned
routes are lost (`C65_locked_counterexample`), and so is the duration in general (C09). -/
theorem C65_heuristic_partial {w : World} {a : SolveArgs} {fuel : Nat} {P0 P' : Vrp} {o : Obj} (hcw : ∀ x, (w.cw x).Valid)
    (hP : Capacitated P0) (hmixed : P0.mixedFleet = false) (hpre : a.preassignments = []) (hheur : a.heuristicOnly = true)
    (hc : Obj.create P0 = .ok o)
    (hstart : o.P.startSolve w.dist a.strategy a.cspy a.initialRoutes a.preassignments = .ok P') :
    ∃ o' N, o.solve w a fuel = .ok (some o') ∧ o'.P.H = some N ∧
      o'.solution.routes.map Prod.fst = List.range o'.solution.routes.length ∧
      SolvesProblem (anyFleet P0) 1 o'.solution ∧ o'.solution.dropped = [] ∧
      (P0.minimizeGlobalSpan = false → bestValue N false P0.dropPenalty o'.solution = .ok (userCosts P0 o'.solution).sum) ∧
      (P0.minimizeGlobalSpan = true → ∃ m, IsLargest m (userCosts P0 o'.solution) ∧
        bestValue N true P0.dropPenalty o'.solution = .ok m) ∧
      (SymmetricUserTimes P0.G → RoundTripsFit P0 →
        ∀ i r, (i, r) ∈ o'.solution.routes → Within P0.duration.limit (userDuration P0.G r)) := by
  obtain ⟨K, N, N3, S⟩ := searched (w := w) hP.wf hP.customer hP.costs hP.demand hpre hc hstart
  obtain rfl := S.typesOne hmixed
  have hold : o.solution.dropped = [] := by
    obtain ⟨G, _, rfl⟩ := create_ok hc
    rfl
  obtain ⟨f1, f2, f3, f4, f5, f6, f7, f8, f9, f10, f11⟩ := S.fields
  have hN3 : P'.G.toNet = N3 := by rw [S.graph]; rfl
  obtain ⟨hconn, _⟩ := S.depots hP.timeWindows
  have hcostN3 : CostsFor N3 1 := by
    intro u v hv
    rw [S.same.costLength, S.costs u v (S.same.succ u v hv)]
  set cfg : CWConfig := { cap := P'.cap0, duration := P'.duration.limit, numStops := P'.numStops.stops.map (fun n => (n : ℚ)),
                          alpha := 1 } with hcfg
  obtain ⟨val, rs, hrun, hsimple, honce⟩ := C07_clarke_wright_partition N3 cfg (w.cw 1) S.wfSearch hconn hcostN3 (hcw 1)
  have hcheck : checkClarkeWrightCompatibility P'.timeWindows P'.pickupDelivery P'.distributionCollection P'.mixedFleet
      (decide (P'.periodic.getD 0 ≠ 0)) = .ok () := by
    simp [checkClarkeWrightCompatibility, f2, f3, f4, f6, f7, hP.timeWindows, hP.pickupDelivery, hP.distributionCollection,
      hmixed, hP.periodic]
  let o' : Obj := { o with
    P := P'
    solution := {
      routes := rs.mapIdx (fun i x => (i, x))
      types := rs.mapIdx (fun i _ => (i, 0))
      dropped := o.solution.dropped } }
  have hsolve : o.solve w a fuel = .ok (some o') := by
    unfold Obj.solve
    simp only [hstart, hheur, if_true]
    unfold Obj.clarkeWright
    simp only [hcheck, hN3, ← hcfg, hrun]
    rfl
  have hmem : ∀ i r, (i, r) ∈ rs.mapIdx (fun i x => (i, x)) → r ∈ rs ∧ dget (rs.mapIdx (fun i _ => (i, 0))) i = some 0 := by
    intro i r hir
    obtain ⟨j, hj, he⟩ := List.mem_mapIdx.1 hir
    simp only [Prod.mk.injEq] at he
    obtain ⟨rfl, rfl⟩ := he
    refine ⟨List.getElem_mem hj, ?_⟩
    rw [dget_mapIdx (fun _ => (0 : Nat)) rs j]
    simp [hj]
  have hmono : ∀ r, IsSimpleRoute N3 r → IsSimpleRoute N r := fun r =>
    isSimpleRoute_mono (fun v hv => by rw [← S.nodes]; exact hv) S.same.succ
  -- limits
  have hdem : N3.demand .source = 0 ∧ N3.demand .sink = 0 := by rw [S.same.demand]; exact S.demandDepots
  have hone : (userCapacities P0.loadCapacity).length ≤ 1 := hP.oneCapacity hmixed
  have hcap : ∀ c, cfg.cap = some c → userCapacities P0.loadCapacity = [c] := by
    intro c hcc
    simp only [hcfg, Vrp.cap0, S.caps] at hcc
    cases hcs : userCapacities P0.loadCapacity with
    | nil => rw [hcs] at hcc; simp at hcc
    | cons x xs =>
      rw [hcs] at hcc hone
      simp only [List.head?_cons, Option.some.injEq] at hcc
      cases xs with
      | nil => rw [hcc]
      | cons _ _ => simp at hone
  have hlim := C08_clarke_wright_capacity_stops N3 cfg (w.cw 1) S.wfSearch hconn hcostN3 (hcw 1) hdem
    (by
      intro c hcc _ v hv
      rw [S.same.demand]
      rcases S.fit v (by
        rw [mem_customers] at hv ⊢
        rw [← S.nodes]
        exact hv) with h0 | ⟨x, hx, hle⟩
      · rw [hcap c hcc] at h0
        cases h0
      · rw [hcap c hcc, List.mem_singleton] at hx
        exact hx ▸ hle)
    (by
      intro m hm _
      cases hns : P'.numStops.stops with
      | none => simp [hcfg, hns] at hm
      | some m' =>
        have hm : (m' : ℚ) = m := by simpa [hcfg, hns] using hm
        rw [← hm]
        have : 1 ≤ m' := by
          unfold PyVal.stops at hns
          split at hns
          · split at hns
            · cases hns; omega
            · cases hns
          · cases hns
        exact_mod_cast this) val rs hrun
  have hroutes : ∀ i r, (i, r) ∈ o'.solution.routes → ∃ mid, r = routeOf mid ∧ mid.Nodup ∧
      (∀ v ∈ mid, (∃ n, v = .cust n) ∧ v ∈ P0.G.nodes) ∧ Along (UserArc P0.G) r ∧
      WithinStops P0.numStops.stops mid.length ∧
      ∃ k < 1, dget o'.solution.types i = some k ∧
        WithinCapacity (userCapacities P0.loadCapacity) k (mid.map (userDemand P0.G)).sum := by
    intro i r hir
    obtain ⟨hr, hk⟩ := hmem i r hir
    obtain ⟨l1, l2⟩ := hlim r hr
    obtain ⟨⟨mid, rfl, hmid, hal⟩, hnd⟩ := hsimple r hr
    have hmid' : ∀ v ∈ mid, (∃ n, v = .cust n) ∧ v ∈ P0.G.nodes := by
      intro v hv
      exact ⟨(hmid v hv).1, by rw [← S.userNodes, ← S.nodes]; exact (hmid v hv).2⟩
    obtain ⟨e1, e2⟩ := load_user S hmid'
    refine ⟨mid, rfl, (List.nodup_append.1 (List.nodup_cons.1 hnd).2).1, hmid', ?_, ?_, 0, by omega, hk, ?_⟩
    · rw [along_iff] at hal ⊢
      exact fun u v huv => S.userArcs u v (S.same.succ u v (hal u v huv))
    · refine S.stops hP.distributionCollection _ ?_
      intro m hm hm0
      have := l2 (m : ℚ) (by simp [hcfg, hm]) (by exact_mod_cast hm0)
      rw [e2] at this
      exact_mod_cast this
    · intro hne
      cases hcs : userCapacities P0.loadCapacity with
      | nil => exact absurd hcs hne
      | cons c cs =>
        have hc0 : cfg.cap = some c := by simp [hcfg, Vrp.cap0, S.caps, hcs]
        refine ⟨c, by simp, ?_⟩
        have := l1 c hc0 (ne_of_gt (S.capsPos c (by rw [hcs]; simp)))
        rw [e1] at this
        exact this
  -- costs
  have hcost : ∀ r ∈ rs, Along (fun u v => v ∈ N.succ u ∧ 0 < (N.cost u v).length) r ∧
      Spec.cost N 0 r = legSum (userArcCost P0 0) r := by
    intro r hr
    obtain ⟨⟨mid, _, _, hal⟩, _⟩ := hmono _ (hsimple r hr)
    rw [along_iff] at hal
    refine ⟨(along_iff _ _).2 (fun u v huv => ⟨hal u v huv, by rw [S.costs u v (hal u v huv)]; omega⟩), ?_⟩
    exact legSum_congr (fun u v huv => S.arcCost u v (hal u v huv) _ (by omega))
  have hne : o'.solution.routes ≠ [] := by
    obtain ⟨n, hn⟩ := hP.customer
    have := honce (.cust n) (mem_customers.2 ⟨by rw [S.nodes, S.userNodes]; exact hn, by simp, by simp⟩)
    intro h0
    have : rs = [] := by
      have h0 : rs.mapIdx (fun i x => (i, x)) = [] := h0
      simpa using h0
    subst this
    simp at *
  have hcosts : userCosts P0 o'.solution = routeCosts N o'.solution := by
    unfold userCosts routeCosts
    apply List.map_congr_left
    rintro ⟨i, r⟩ hir
    obtain ⟨hr, hk⟩ := hmem i r hir
    have hk' : dget o'.solution.types i = some 0 := hk
    simp only [hk', Option.getD_some]
    exact ((hcost r hr).2).symm
  have hval : ∀ span, ∃ v, bestValue N span P0.dropPenalty o'.solution = .ok v := by
    intro span
    refine C26_value_defined ?_ (fun _ => hne)
    intro i r hir
    obtain ⟨hr, hk⟩ := hmem i r hir
    exact ⟨0, hk, (hcost r hr).1⟩
  have hdrop : o'.solution.dropped = [] := hold
  refine ⟨o', N, hsolve, S.reports, ?_, ⟨hroutes, ?_, ?_, fun _ => hdrop, ?_⟩, hdrop, ?_, ?_, ?_⟩
  · apply List.ext_getElem
    · simp
    · intro i h1 h2
      simp [o']
  · intro n hn _
    have h1 := honce (.cust n) (mem_customers.2 ⟨by rw [S.nodes, S.userNodes]; exact hn, by simp, by simp⟩)
    have e : o'.solution.routes.map (fun p => p.2.count (.cust n)) = rs.map (fun r => r.count (.cust n)) := by
      apply List.ext_getElem
      · simp [o']
      · intro i h1 h2
        simp [o']
    rw [e, ← h1]
    have : ∀ l : List (List Node), (l.map (fun r => r.count (.cust n))).sum =
        (l.flatten.filter (fun x => x = .cust n)).length := by
      intro l
      induction l with
      | nil => rfl
      | cons c l ih =>
        simp only [List.map_cons, List.sum_cons, List.flatten_cons, List.filter_append, List.length_append, ih]
        congr 1
        rw [List.count, List.countP_eq_length_filter]
        congr 2
    exact this rs
  · intro v hv
    rw [hdrop] at hv
    cases hv
  · intro k n hkn
    simp [anyFleet, userFleet] at hkn
  · intro _
    obtain ⟨v, hv⟩ := hval false
    rw [hv, (C26_best_value hv).1 rfl, hcosts, hdrop]
    simp
  · intro _
    obtain ⟨v, hv⟩ := hval true
    obtain ⟨m, hm, rfl⟩ := (C26_best_value hv).2 rfl
    rw [hdrop] at hv
    exact ⟨m, by rw [hcosts]; exact hm, by simpa using hv⟩
  · intro hsym hfit i r hir
    obtain ⟨hr, _⟩ := hmem i r hir
    have htime : ∀ u v, v ∈ N3.succ u → N3.time u v = userTime P0.G u v := by
      intro u v hv
      rw [S.same.time, S.time u v (S.same.succ u v hv)]
      rfl
    have hwith := C09_clarke_wright_duration_partial N3 cfg (w.cw 1) S.wfSearch hconn hcostN3 (hcw 1)
      ⟨fun u v hv hu => by
          rw [htime u v hv, htime v u hu]
          exact (hsym.sym u v).resolve_right (fun hn => hn
            ⟨S.userArcs u v (S.same.succ u v hv), S.userArcs v u (S.same.succ v u hu)⟩),
        fun n hn => by
          rw [htime _ _ (hconn n hn).1, htime _ _ (hconn n hn).2]
          exact hsym.depot n (by rw [← S.userNodes, ← S.nodes]; exact hn)⟩
      (by rw [S.same.service]; exact S.serviceDepots hP.service.1 hP.service.2)
      (by
        intro v hv d hd hd0
        obtain ⟨hvn, h1, h2⟩ := mem_customers.1 hv
        obtain ⟨n, rfl⟩ : ∃ n, v = .cust n := by
          cases v with
          | source => exact absurd rfl h1
          | sink => exact absurd rfl h2
          | cust n => exact ⟨n, rfl⟩
        have hd' : P0.duration.limit = some d := by rw [← f11]; exact hd
        have := hfit n (by rw [← S.userNodes, ← S.nodes]; exact hvn) d hd' hd0
        have harc := hconn n hvn
        have he : Spec.duration N3 [.source, .cust n, .sink] = Spec.duration N (routeOf [.cust n]) := by
          unfold Spec.duration travel
          rw [S.same.time, S.same.service]
          rfl
        rw [he, duration_user S (r := routeOf [.cust n])
          ⟨S.same.succ _ _ harc.1, S.same.succ _ _ harc.2, trivial⟩
          (by
            intro v hv
            simp only [routeOf, List.cons_append, List.nil_append, List.mem_cons, List.not_mem_nil, or_false] at hv
            rcases hv with rfl | rfl | rfl
            · exact S.wf.source_mem
            · rw [← S.nodes]; exact hvn
            · exact S.wf.sink_mem)]
        exact this) val rs hrun r hr
    intro d hd hd0
    have hd' : cfg.duration = some d := by rw [← f11] at hd; exact hd
    have := hwith d hd' hd0
    have hrN := hmono _ (hsimple r hr)
    obtain ⟨⟨mid, hmid, hm, hal⟩, hnd⟩ := id hrN
    have he : Spec.duration N3 r = Spec.duration N r := by
      unfold Spec.duration travel
      rw [S.same.time, S.same.service]
    rw [he, duration_user S hal (route_mem_nodes S.wf hrN.1)] at this
    exact this

/-- **C65, refused.** With time windows, pickup and delivery, distribution and collection, a mixed fleet, or periodic visits,
`solve(heuristic_only=True)` returns nothing; it raises ValueError if nothing else is raised before. -/
theorem C65_refused {w : World} {a : SolveArgs} {fuel : Nat} {P0 : Vrp} {o : Obj} (hheur : a.heuristicOnly = true)
    (hc : Obj.create P0 = .ok o)
    (hno : P0.timeWindows = true ∨ P0.pickupDelivery = true ∨ P0.distributionCollection = true ∨ P0.mixedFleet = true ∨
      P0.periodic.getD 0 ≠ 0) :
    (∀ r, o.solve w a fuel ≠ .ok r) ∧
    ∀ P', o.P.startSolve w.dist a.strategy a.cspy a.initialRoutes a.preassignments = .ok P' →
      o.solve w a fuel = .error .valueError := by
  have key : ∀ P', o.P.startSolve w.dist a.strategy a.cspy a.initialRoutes a.preassignments = .ok P' →
      o.solve w a fuel = .error .valueError := by
    intro P' hstart
    obtain ⟨G, _, rfl⟩ := create_ok hc
    obtain ⟨G1, N, N1, N2, N3, S⟩ := startSolve_prepared hstart
    have hres := S.result
    obtain ⟨f1, f2, f3, f4, f5, f6, f7, f8, f9, f10, f11, f12, f13, f14⟩ :=
      prepared_fields (P := { P0 with
        G := G
        numVehiclesSchedule := []
        vehicleTypes := none
        initialRoutes := []
        preassignments := []
        moreRoutes := false
        H := none }) (R := a.initialRoutes) (Q := a.preassignments)
    have hcheck : checkClarkeWrightCompatibility P'.timeWindows P'.pickupDelivery P'.distributionCollection P'.mixedFleet
        (decide (P'.periodic.getD 0 ≠ 0)) = .error .valueError := by
      rw [hres]
      simp only [checkClarkeWrightCompatibility, f5, f6, f7, f9, f10]
      rw [if_pos]
      simpa [or_assoc] using hno
    unfold Obj.solve
    simp only [hstart, hheur, if_true]
    unfold Obj.clarkeWright
    simp only [hcheck]
    rfl
  refine ⟨?_, key⟩
  intro r hr
  cases hs : o.P.startSolve w.dist a.strategy a.cspy a.initialRoutes a.preassignments with
  | error e =>
    unfold Obj.solve at hr
    simp [hs] at hr
  | ok P' =>
    rw [key P' hs] at hr
    cases hr

/-! ## Examples -/

/-- Orders as they come, paths by following edges. -/
noncomputable def followCW : CWOracle where
  order := id
  path := fun r => routePath { name := .num 0, nodes := [], edges := r.edges, cost := 0, vehicleType := 0 }

theorem followCW_valid : followCW.Valid :=
  ⟨fun _ => List.Perm.refl _, fun r ⟨p, hp⟩ => routePath_ok _ p hp⟩

noncomputable def cwWorld : World := { exWorld with cw := fun _ => followCW }

/-- Four customers in a line with demands 3, 2, 2, 3; driving between the two in the middle is cheap; a vehicle carries 5, there
are two of them. -/
def exLine : Vrp where
  G := {
    nodes := [.source, .cust 1, .cust 2, .cust 3, .cust 4, .sink]
    nd := fun v => match v with
      | .cust 1 => { demand := some 3 }
      | .cust 4 => { demand := some 3 }
      | .cust _ => { demand := some 2 }
      | _ => {}
    succ := fun u => match u with
      | .source => [.cust 1, .cust 2, .cust 3, .cust 4]
      | .cust 1 => [.cust 2, .sink]
      | .cust 2 => [.cust 3, .sink]
      | .cust 3 => [.cust 4, .sink]
      | .cust 4 => [.sink]
      | _ => []
    ed := fun u v => { cost := some (.scalar (
      if u = .source ∨ v = .sink then 10 else if u = .cust 2 then 1 else 5)) } }
  loadCapacity := .one (.int 5)
  numVehicles := .one 2

theorem exLine_capacitated : Capacitated exLine where
  wf := by
    refine ⟨by decide, ?_, ?_⟩
    · intro u; simp only [exLine]; split <;> decide
    · intro u v hv
      simp only [exLine] at hv ⊢
      split at hv <;> simp at hv <;> (try rcases hv with rfl | rfl | rfl | rfl) <;> (try rcases hv with rfl | rfl) <;>
        (try subst hv) <;> decide
  customer := ⟨1, by decide⟩
  costs := fun _ u v _ => ⟨_, Or.inl rfl⟩
  demand := by decide +kernel
  service := by decide +kernel
  timeWindows := rfl
  pickupDelivery := rfl
  distributionCollection := rfl
  periodic := rfl
  oneCapacity := by decide +kernel

/-- **C65**, counterexample: two vehicles suffice (1, 2 and 3, 4), but the two customers in the middle are joined first and three
routes are reported. -/
theorem C65_fleet_counterexample : Capacitated exLine ∧ (∀ x, (cwWorld.cw x).Valid) ∧
    planOf cwWorld { heuristicOnly := true } 5 exLine = .ok (some
      ⟨[(0, routeOf [.cust 1]), (1, routeOf [.cust 2, .cust 3]), (2, routeOf [.cust 4])], [(0, 0), (1, 0), (2, 0)], []⟩) ∧
    userFleet exLine.numVehicles = [2] ∧
    SolvesProblem exLine 1 ⟨[(1, routeOf [.cust 1, .cust 2]), (2, routeOf [.cust 3, .cust 4])], [(1, 0), (2, 0)], []⟩ := by
  refine ⟨exLine_capacitated, fun _ => followCW_valid, Solve.eq_ok_of_toOption (by decide +kernel), by decide +kernel, ?_⟩
  have harc : ∀ u v, v ∈ exLine.G.succ u → UserArc exLine.G u v := fun u v h => Or.inl h
  have hcaps : userCapacities exLine.loadCapacity = [5] := by decide +kernel
  refine ⟨?_, ?_, ?_, fun _ => rfl, ?_⟩
  · intro i r hir
    simp only [List.mem_cons, Prod.mk.injEq, List.not_mem_nil, or_false] at hir
    rcases hir with ⟨rfl, rfl⟩ | ⟨rfl, rfl⟩
    · refine ⟨_, rfl, by decide, by simp [exLine], ?_, by simp [WithinStops, exLine, PyVal.stops], 0, by omega, rfl, ?_⟩
      · exact ⟨harc _ _ (by decide), harc _ _ (by decide), harc _ _ (by decide), trivial⟩
      · intro _
        exact ⟨5, by rw [hcaps]; rfl, by decide +kernel⟩
    · refine ⟨_, rfl, by decide, by simp [exLine], ?_, by simp [WithinStops, exLine, PyVal.stops], 0, by omega, rfl, ?_⟩
      · exact ⟨harc _ _ (by decide), harc _ _ (by decide), harc _ _ (by decide), trivial⟩
      · intro _
        exact ⟨5, by rw [hcaps]; rfl, by decide +kernel⟩
  · intro n hn _
    simp only [exLine, List.mem_cons, reduceCtorEq, Node.cust.injEq, List.not_mem_nil, or_false, false_or] at hn
    rcases hn with rfl | rfl | rfl | rfl <;> decide
  · intro v hv
    cases hv
  · intro k n hk
    have hf : userFleet exLine.numVehicles = [2] := by decide +kernel
    rw [hf] at hk
    cases k with
    | zero =>
      simp only [List.getElem?_cons_zero, Option.some.injEq] at hk
      subst hk
      exact ⟨by decide, fun h => (by cases h)⟩
    | succ k => simp at hk

/-- **C65**, counterexample: the customer of a preassigned route is on no reported route. -/
theorem C65_locked_counterexample : Capacitated exLine ∧
    planOf cwWorld { heuristicOnly := true, preassignments := [routeOf [.cust 1]] } 5 exLine = .ok (some
      ⟨[(0, routeOf [.cust 2, .cust 3]), (1, routeOf [.cust 4])], [(0, 0), (1, 0)], []⟩) :=
  ⟨exLine_capacitated, Solve.eq_ok_of_toOption (by decide +kernel)⟩

end Vrpy
