import Verif.Proofs.LpRoutes
import Verif.Proofs.Requests
import Verif.Proofs.ExampleWorld

/-!
# C63, C64: plans for problems with pickup and delivery

As for C55, everything is stated in terms of the problem `P0` handed to the constructor.
-/

namespace Vrpy

/-- What is picked up at `v` is to be delivered at `w`. -/
def Spec.Request (P : Vrp) (v w : Node) : Prop := v ∈ P.G.nodes ∧ (P.G.nd v).request = some w

open Spec

/-- Every request can be served alone within the duration. -/
def Spec.RequestTripsFit (P : Vrp) : Prop :=
  ∀ v w, Request P v w → Within P.duration.limit (userDuration P.G (routeOf [v, w]))

/-- Deliveries need no service time, or a request served alone is on time. -/
def Spec.RequestTripsOnTime (P : Vrp) : Prop :=
  ∀ v w, Request P v w → userService P.G w = 0 ∨ UserOnTime P.G (routeOf [v, w])

/-- A vehicle of type `k` can visit `mid`: not too many stops; pickup and delivery of a request are both on the route, the
pickup first, or neither; what is on board is never negative, nor more than the vehicle can carry, and in the end nothing; it is
not too late and does not take too long (claimed if trips for single requests are not and do not). -/
structure Spec.RequestLimits (P : Vrp) (k : Nat) (mid : List Node) : Prop where
  stops : WithinStops P.numStops.stops mid.length
  together : ∀ v w, Request P v w → (v ∈ mid ↔ w ∈ mid)
  order : ∀ v w, Request P v w → v ∈ mid → List.Sublist [v, w] mid
  load : ∀ pre post, mid = pre ++ post → 0 ≤ (pre.map (userDemand P.G)).sum ∧
    WithinCapacity (userCapacities P.loadCapacity) k (pre.map (userDemand P.G)).sum
  empty : (mid.map (userDemand P.G)).sum = 0
  windows : P.timeWindows = true → RequestTripsOnTime P → UserOnTime P.G (routeOf mid)
  duration : RequestTripsFit P → Within P.duration.limit (userDuration P.G (routeOf mid))

/-- The problem is one with pickup and delivery, possibly with time windows.  The data make sense: a request leads from a
customer to another customer, where as much is delivered as was picked up (not nothing); no two requests share a customer;
customers without request have no demand; in a mixed fleet every vehicle can carry every single request; a vehicle may stop
twice. -/
structure Spec.RequestsData (P : Vrp) : Prop where
  wf : P.G.WF
  costs : CostsAsDocumented P
  depots : ∀ v ∈ P.G.nodes, v = .source ∨ v = .sink → 0 ≤ userDemand P.G v
  service : (P.G.nd .source).serviceTime.getD 0 = 0 ∧ (P.G.nd .sink).serviceTime.getD 0 = 0
  customer : ∃ n, Node.cust n ∈ P.G.nodes
  ends : ∀ v w, Request P v w → (∃ n, v = .cust n) ∧ (∃ n, w = .cust n) ∧ w ∈ P.G.nodes ∧ (P.G.nd w).request = none
  amounts : ∀ v w, Request P v w → 0 < userDemand P.G v ∧ userDemand P.G w = -userDemand P.G v
  distinct : ∀ v v' w, Request P v w → Request P v' w → v = v'
  others : ∀ n, Node.cust n ∈ P.G.nodes → (P.G.nd (.cust n)).request = none → (∀ u, ¬ Request P u (.cust n)) →
    userDemand P.G (.cust n) = 0
  fits : P.mixedFleet = true → ∀ v w, Request P v w → ∀ c ∈ userCapacities P.loadCapacity, userDemand P.G v ≤ c
  twoStops : WithinStops P.numStops.stops 2
  source : P.timeWindows = true → P.G.nodes.head? = some .source
  windows : P.timeWindows = true → ∀ v ∈ P.G.nodes, v ≠ .source → (v = .sink → userUpper P.G .sink ≠ 0) →
    userLower P.G v ≤ userUpper P.G v
  pickupDelivery : P.pickupDelivery = true
  distributionCollection : P.distributionCollection = false
  oneCapacity : P.mixedFleet = false → (userCapacities P.loadCapacity).length ≤ 1

/-- The same without periodic visits. -/
structure Spec.PickupDelivery (P : Vrp) : Prop extends RequestsData P where
  periodic : P.periodic.getD 0 = 0

/-- The routes form a plan whose routes serve requests within the limits. -/
def Spec.SolvesRequests (P : Vrp) (K : Nat) (S : Solution) : Prop :=
  PlanFor P K (fun k r => ∃ mid, r = routeOf mid ∧ RequestLimits P k mid) S

theorem sublist_of_routeOf {mid : List Node} (hmid : ∀ v ∈ mid, ∃ n, v = .cust n) {n m : Nat}
    (h : List.Sublist [.cust n, .cust m] (routeOf mid)) : List.Sublist [.cust n, .cust m] mid := by
  have h1 := h.filter (fun v => decide (v ≠ Node.source ∧ v ≠ .sink))
  have h2 : mid.filter (fun v => decide (v ≠ Node.source ∧ v ≠ .sink)) = mid := by
    rw [List.filter_eq_self]
    intro v hv
    obtain ⟨n, rfl⟩ := hmid v hv
    simp
  have h3 : (routeOf mid).filter (fun v => decide (v ≠ Node.source ∧ v ≠ .sink)) = mid := by
    rw [routeOf, List.filter_cons_of_neg (by simp), List.filter_append, h2]
    simp
  rw [h3] at h1
  simpa using h1

/-- Routes in feasible points of the pricing problem serve requests within the user's limits. -/
theorem requests_lp {P0 P' : Vrp} {K : Nat} {N N3 : Net} (hP : RequestsData P0) (S : Searched P0 P' K N N3)
    (U : UserData P0 P' N) {q : PricingLP} {cap : ℚ} {p : PVar → ℚ} {mid : List Node} (hsub : IsSubgraph q.G N3)
    (hwf : WellFormed q.G) (hpres : ∀ r ∈ q.requests, r.2 ∈ q.G.nodes) (hcaps : q.caps = userCapacities P0.loadCapacity)
    (hst : q.numStops = P'.numStops.stops) (hdur : q.duration = P0.duration.limit) (htw : q.timeWindows = P0.timeWindows)
    (hpd : q.pickupDelivery = true)
    (hcap : q.caps ≠ [] ∨ q.pickupDelivery = true ∨ q.distributionCollection = true → q.caps[q.vehicleType]? = some cap)
    (hfeas : (q.lp cap).Feasible p) (hroute : IsSimpleRoute q.G (routeOf mid))
    (hperm : (q.chosen p).Perm (consecutive (routeOf mid))) : RequestLimits P0 q.vehicleType mid := by
  have hser := S.serviceDepots hP.service.1 hP.service.2
  have hd0 : q.G.demand .source = 0 := by rw [hsub.demand, S.same.demand]; exact S.demandDepots.1
  have hd1 : q.G.demand .sink = 0 := by rw [hsub.demand, S.same.demand]; exact S.demandDepots.2
  have hmidq := route_customers hroute.1
  obtain ⟨l2, _, l4⟩ := PricingLP.limits_of_feasible hd0
    (by rw [hsub.service, S.same.service]; exact hser.2) (fun h => hcap (Or.inl h)) hfeas hmidq hperm
  have hqN : ∀ v ∈ q.G.nodes, v ∈ N.nodes := fun v hv => by rw [← S.nodes]; exact hsub.nodes v hv
  have hmid : ∀ v ∈ mid, (∃ n, v = .cust n) ∧ v ∈ P0.G.nodes := by
    intro v hv
    obtain ⟨h1, h2, h3⟩ := mem_customers.1 (hmidq v hv)
    refine ⟨?_, by rw [← S.userNodes]; exact hqN v h1⟩
    cases v with
    | source => exact absurd rfl h2
    | sink => exact absurd rfl h3
    | cust n => exact ⟨n, rfl⟩
  have hmidc : ∀ v ∈ mid, v ∈ N.customers := by
    intro v hv
    obtain ⟨⟨n, rfl⟩, hn⟩ := hmid v hv
    exact mem_customers.2 ⟨by rw [S.userNodes]; exact hn, by simp, by simp⟩
  have hrN : IsRoute N (routeOf mid) := by
    obtain ⟨mid', he, h1, h2⟩ := hroute.1
    refine ⟨mid', he, fun v hv => ⟨(h1 v hv).1, hqN v (h1 v hv).2⟩, ?_⟩
    rw [along_iff] at h2 ⊢
    exact fun u v huv => S.same.succ u v (hsub.arcs u v (h2 u v huv))
  have hal : Along (fun u v => v ∈ N.succ u) (routeOf mid) := by obtain ⟨_, _, _, h⟩ := hrN; exact h
  have hnd : mid.Nodup := by
    have := hroute.2
    unfold routeOf at this
    exact (List.nodup_append.1 (List.nodup_cons.1 this).2).1
  have hdem : ∀ l : List Node, (∀ v ∈ l, v ∈ mid) → l.map q.G.demand = l.map (userDemand P0.G) := fun l hl =>
    List.map_congr_left (fun v hv => by
      rw [hsub.demand, S.same.demand]
      exact S.demand v (hmidc v (hl v hv)))
  have hreq : ∀ v ∈ q.G.nodes, ∀ w, q.G.request v = some w → Request P0 v w := by
    intro v hv w hvw
    rw [hsub.request, S.same.request, U.request v (hqN v hv)] at hvw
    exact ⟨by rw [← S.userNodes]; exact hqN v hv, hvw⟩
  have hreq' : ∀ v ∈ q.G.nodes, ∀ w, Request P0 v w → q.G.request v = some w := by
    intro v hv w hvw
    rw [hsub.request, S.same.request, U.request v (hqN v hv)]
    exact hvw.2
  obtain ⟨k1, k2, k3⟩ := PricingLP.pd_of_feasible hwf hd0 (by
    intro v hv w hvw
    have hr := hreq v hv w hvw
    obtain ⟨⟨n, rfl⟩, ⟨m, rfl⟩, _, hno⟩ := hP.ends v w hr
    have hw : Node.cust m ∈ q.G.nodes := hpres (.cust n, .cust m) (by
      simp only [PricingLP.requests, List.mem_filterMap]
      exact ⟨_, hv, by rw [hvw]; rfl⟩)
    refine ⟨mem_customers.2 ⟨hv, by simp, by simp⟩, mem_customers.2 ⟨hw, by simp, by simp⟩, ?_⟩
    intro he
    have := hr.2
    rw [he, hno] at this
    cases this) hpd hfeas hroute hperm
  have hempty : (mid.map (userDemand P0.G)).sum = 0 := by
    have := k3
    simp only [load, routeOf, List.map_append, List.map_cons, List.map_nil, List.sum_append, List.sum_cons, List.sum_nil, hd0,
      hd1, hdem mid (fun _ h => h)] at this
    linarith
  have hin : ∀ n, Node.cust n ∈ routeOf mid ↔ Node.cust n ∈ mid := fun n => by simp [routeOf]
  have hpair : ∀ v ∈ mid, ∀ w, Request P0 v w → w ∈ mid ∧ List.Sublist [v, w] mid := by
    intro v hv w hvw
    obtain ⟨⟨n, rfl⟩, ⟨m, rfl⟩, _, _⟩ := hP.ends v w hvw
    have hvq := (mem_customers.1 (hmidq _ hv)).1
    obtain ⟨h1, h2⟩ := k1 _ hvq _ (hreq' _ hvq _ hvw)
    exact ⟨(hin m).1 (h1.1 ((hin n).2 hv)), sublist_of_routeOf (fun v hv => (hmid v hv).1) (h2 ((hin n).2 hv))⟩
  refine ⟨?_, ?_, fun v w hvw hv => (hpair v hv w hvw).2, ?_, hempty, ?_, ?_⟩
  · rw [stops_routeOf hmidq, hst] at l2
    exact S.stops hP.distributionCollection _ l2
  · intro v w hvw
    refine ⟨fun hv => (hpair v hv w hvw).1, fun hw => ?_⟩
    classical
    have hs : ∀ v w, (if v ∈ P0.G.nodes then (P0.G.nd v).request else none) = some w ↔ Request P0 v w := by
      intro v w
      unfold Request
      split <;> simp_all
    refine no_lone_delivery hnd (fun v => if v ∈ P0.G.nodes then (P0.G.nd v).request else none) (userDemand P0.G) ?_ ?_ ?_ ?_ ?_
      hempty ((hs v w).2 hvw) hw
    · intro v v' w h1 h2
      exact hP.distinct v v' w ((hs _ _).1 h1) ((hs _ _).1 h2)
    · intro v w h1
      simp [(hP.ends v w ((hs _ _).1 h1)).2.2.2]
    · intro v w h1
      exact hP.amounts v w ((hs _ _).1 h1)
    · intro v hv h1 h2
      obtain ⟨⟨n, rfl⟩, hn⟩ := hmid v hv
      refine hP.others n hn (by simpa [hn] using h1) (fun u hu => h2 u ((hs _ _).2 hu))
    · intro v hv w h1
      exact (hpair v hv w ((hs _ _).1 h1)).1
  · intro pre post hpp
    have := k2 (.source :: pre) (post ++ [Node.sink]) (by simp [routeOf, hpp])
    simp only [load, List.map_cons, List.sum_cons, hd0, zero_add, hdem pre (fun v hv => by rw [hpp]; simp [hv])] at this
    exact ⟨this.1, fun _ => ⟨cap, by rw [← hcaps]; exact hcap (Or.inr (Or.inl hpd)), this.2⟩⟩
  · intro ht _
    obtain ⟨w1, w2, _⟩ := S.windows ht (hP.source ht)
    have hon := PricingLP.onTime_of_feasible hwf hfeas (by rw [htw]; exact ht) hroute hperm
    exact onTime_user S U hal (S.onTime w1 w2 (onTime_same hsub.service hsub.time hsub.lower hsub.upper hon))
  · intro _
    rw [hdur] at l4
    have he : Spec.duration q.G (routeOf mid) = Spec.duration N (routeOf mid) := by
      unfold Spec.duration travel
      rw [hsub.time, hsub.service, S.same.time, S.same.service]
    rw [he, duration_user S hal (route_mem_nodes S.wf hrN)] at l4
    exact l4

/-- The initial routes for pickup and delivery are the trips for single requests. -/
theorem mem_requestRoutes {G : Net} {tw : Bool} {rs : List (List Node)} (h : requestRoutes G tw = .ok rs) :
    ∀ r ∈ rs, ∃ v ∈ G.nodes, ∃ w, G.request v = some w ∧ r = routeOf [v, w] := by
  unfold requestRoutes at h
  refine foldlM_inv (P := fun acc : List (List Node) => ∀ r ∈ acc, ∃ v ∈ G.nodes, ∃ w, G.request v = some w ∧
    r = routeOf [v, w]) _ _ _ (by simp) ?_ h
  intro acc v acc' hv hacc hs
  split at hs
  · cases hs; exact hacc
  · rename_i w hw
    split at hs
    · cases hs
    · cases hs
      intro r hr
      rcases List.mem_append.1 hr with hr | hr
      · exact hacc r hr
      · exact ⟨v, hv, w, hw, by simpa [routeOf] using hr⟩

/-- The initial columns stand for routes that serve requests within the user's limits. -/
theorem initial_requests {P0 P' P'' : Vrp} {K : Nat} {N N3 : Net} {cw : ℚ → CWOracle} {fuel : Nat} {cols : List Column}
    (hP : RequestsData P0) (S : Searched P0 P' K N N3) (U : UserData P0 P' N)
    (hinit : ∀ r ∈ P'.initialRoutes, r.Nodup ∧ ∀ mid k, r = routeOf mid →
      WithinCapacity (userCapacities P0.loadCapacity) k (mid.map (userDemand P0.G)).sum → RequestLimits P0 k mid)
    (h : P'.initialize P'.G.toNet cw fuel = .ok (some (P'', cols))) :
    Solve.Numbered cols ∧ (∀ c ∈ cols, ColumnFor N3 K (fun k r => ∃ mid, r = routeOf mid ∧ RequestLimits P0 k mid) c) ∧
      ∃ rs, P'' = { P' with initialRoutes := rs } := by
  refine initial_columns hP.oneCapacity S ?_ h
  intro rs hch r hr hal
  obtain ⟨f1, f2, f3, f4, f5, f6, f7, f8, f9, f10, f11⟩ := S.fields
  by_cases hno : P'.initialRoutes = []
  · unfold Vrp.chooseInitial Vrp.initialSolution at hch
    have hplain : P'.plain = false := by simp [Vrp.plain, f3, hP.pickupDelivery]
    rw [if_neg (by simp [hno]), hplain, f3, hP.pickupDelivery] at hch
    simp only [Bool.false_eq_true, if_false, if_true] at hch
    split at hch
    · cases hch
    rename_i rs' hrr
    simp only [Except.ok.injEq, Option.some.injEq] at hch
    subst hch
    obtain ⟨v, hv, w, hvw, rfl⟩ := mem_requestRoutes hrr r hr
    have hvN : v ∈ N.nodes := by rw [← S.nodes]; exact hv
    rw [S.same.request, U.request v hvN] at hvw
    have hreq : Request P0 v w := ⟨by rw [← S.userNodes]; exact hvN, hvw⟩
    obtain ⟨⟨n, rfl⟩, ⟨m, rfl⟩, hw, hwno⟩ := hP.ends v w hreq
    obtain ⟨a1, a2⟩ := hP.amounts _ _ hreq
    have hne : n ≠ m := by
      rintro rfl
      linarith
    have hwN : Node.cust m ∈ N.nodes := by rw [S.userNodes]; exact hw
    have hvc : Node.cust n ∈ N.customers := mem_customers.2 ⟨hvN, by simp, by simp⟩
    have hwc : Node.cust m ∈ N.customers := mem_customers.2 ⟨hwN, by simp, by simp⟩
    refine ⟨⟨⟨[.cust n, .cust m], rfl, ?_, hal⟩, ?_⟩, ?_⟩
    · intro x hx
      simp only [List.mem_cons, List.not_mem_nil, or_false] at hx
      rcases hx with rfl | rfl
      · exact ⟨⟨_, rfl⟩, hv⟩
      · exact ⟨⟨_, rfl⟩, by rw [S.nodes]; exact hwN⟩
    · simp [routeOf, hne]
    intro k hk
    refine ⟨[.cust n, .cust m], rfl, hP.twoStops, ?_, ?_, ?_, ?_, ?_, ?_⟩
    · intro x y hxy
      simp only [List.mem_cons, List.not_mem_nil, or_false]
      constructor
      · rintro (rfl | rfl)
        · have := hxy.2.symm.trans hreq.2
          exact Or.inr (Option.some.inj this)
        · have := hxy.2
          rw [hwno] at this
          cases this
      · rintro (rfl | rfl)
        · have := (hP.ends _ _ hxy).2.2.2
          rw [hreq.2] at this
          cases this
        · exact Or.inl (hP.distinct _ _ _ hxy hreq)
    · intro x y hxy hx
      simp only [List.mem_cons, List.not_mem_nil, or_false] at hx
      rcases hx with rfl | rfl
      · have := hxy.2.symm.trans hreq.2
        rw [Option.some.inj this]
      · have := hxy.2
        rw [hwno] at this
        cases this
    · intro pre post hpp
      have hload : (pre.map (userDemand P0.G)).sum = 0 ∨ (pre.map (userDemand P0.G)).sum = userDemand P0.G (.cust n) := by
        match pre with
        | [] => left; simp
        | [x] =>
          simp only [List.cons_append, List.cons.injEq] at hpp
          right; simp [← hpp.1]
        | [x, y] =>
          simp only [List.cons_append, List.cons.injEq] at hpp
          left; simp [← hpp.1, ← hpp.2.1, a2]
        | x :: y :: z :: pre => simp at hpp
      have hpos : 0 ≤ (pre.map (userDemand P0.G)).sum := by
        rcases hload with h | h <;> rw [h]
        exact a1.le
      refine ⟨hpos, fun hne0 => ?_⟩
      obtain ⟨c, hc, _⟩ := hk hne0
      have hcm : c ∈ userCapacities P0.loadCapacity := List.mem_of_getElem? hc
      have hfit : userDemand P0.G (.cust n) ≤ c := by
        cases hm : P0.mixedFleet with
        | true => exact hP.fits hm _ _ hreq c hcm
        | false =>
          have hone := hP.oneCapacity hm
          rcases S.fit _ hvc with h0 | ⟨c', hc', hle⟩
          · exact absurd h0 hne0
          · rw [S.demand _ hvc] at hle
            obtain ⟨x, hx⟩ : ∃ x, userCapacities P0.loadCapacity = [x] := by
              match hl : userCapacities P0.loadCapacity with
              | [] => exact absurd hl hne0
              | [x] => exact ⟨x, rfl⟩
              | _ :: _ :: _ => rw [hl] at hone; simp at hone
            rw [hx, List.mem_singleton] at hcm hc'
            rw [hcm, ← hc']
            exact hle
      refine ⟨c, hc, ?_⟩
      rcases hload with h | h <;> rw [h]
      · exact (S.capsPos c hcm).le
      · exact hfit
    · simp [a2]
    · intro ht hot
      rcases hot _ _ hreq with h0 | h0
      · obtain ⟨_, _, w3⟩ := S.windows ht (hP.source ht)
        refine pair_onTime S U w3 (S.serviceDepots hP.service.1 hP.service.2).1 (fun v hv hs h0 => ?_) (fun v hv => ?_)
          hvc hwc h0 hal
        · exact hP.windows ht v hv (by rw [hs]; simp) (fun _ => h0)
        · obtain ⟨a, b, c⟩ := mem_customers.1 hv
          exact hP.windows ht v (by rw [← S.userNodes]; exact a) b (fun h => absurd h c)
      · exact h0
    · intro hfit
      exact hfit _ _ hreq
  · unfold Vrp.chooseInitial at hch
    rw [if_pos hno] at hch
    split at hch
    · cases hch
    · rename_i hck
      simp only [Except.ok.injEq, Option.some.injEq] at hch
      subst hch
      obtain ⟨hgood, _⟩ := (C38_accepts_exactly _ _).1 hck
      obtain ⟨h1, h2, h3⟩ := hgood r hr
      have hroute := route_of_walk S.wfSearch h1 h2 h3
      obtain ⟨mid, rfl, hmid, _⟩ := id hroute
      refine ⟨⟨hroute, (hinit _ hr).1⟩, ?_⟩
      intro k hk
      refine ⟨mid, rfl, (hinit _ hr).2 mid k rfl ?_⟩
      rw [← (load_user S (fun v hv => ⟨(hmid v hv).1, by rw [← S.userNodes, ← S.nodes]; exact (hmid v hv).2⟩)).1]
      exact hk

/-- Pickup and delivery is refused with cspy. -/
theorem startSolve_no_cspy {w : World} {a : SolveArgs} {P0 P' : Vrp} {o : Obj} (hc : Obj.create P0 = .ok o)
    (hpd : P0.pickupDelivery = true)
    (h : o.P.startSolve w.dist a.strategy a.cspy a.initialRoutes a.preassignments = .ok P') : a.cspy = false := by
  obtain ⟨G, _, rfl⟩ := create_ok hc
  obtain ⟨P2, G1, N, N1, N2, N3, S, _, _, _, _, _, _, _, _, hp, _⟩ := startSolve_inv h
  have hcons := S.consistent
  rw [hp] at hcons
  cases hcs : a.cspy with
  | false => rfl
  | true =>
    exfalso
    unfold checkConsistency at hcons
    simp [hcs, hpd] at hcons
    cases hcons

/-- Pricing yields columns within the limits. -/
theorem price_requests {w : World} {a : SolveArgs} {P0 P' : Vrp} {K : Nat} {N N3 : Net} (hw : LpSound w)
    (hP : RequestsData P0) (S : Searched P0 P' K N N3) (U : UserData P0 P' N) (hcspy : a.cspy = false)
    (rs : List (List Node)) (d : Duals) :
    Solve.PriceOk (({ P' with initialRoutes := rs } : Vrp).solveCfg a w.falsy) w.toEnv d
      (ColumnFor N3 K (fun k r => ∃ mid, r = routeOf mid ∧ RequestLimits P0 k mid)) := by
  obtain ⟨f1, f2, f3, f4, f5, f6, f7, f8, f9, f10, f11⟩ := S.fields
  have hN3 : P'.G.toNet = N3 := by rw [S.graph]; rfl
  have hK : (({ P' with initialRoutes := rs } : Vrp).solveCfg a w.falsy).K = K := by
    show P'.vehicleTypes.getD 0 = K
    rw [S.types]
    rfl
  have hMG : (({ P' with initialRoutes := rs } : Vrp).solveCfg a w.falsy).M.G = N3 := hN3
  rw [← hK, ← hMG]
  refine price_lp hcspy (by simp [Solve.usesGreedy, Vrp.solveCfg, f3, hP.pickupDelivery]) (by rw [hMG]; exact S.wfSearch)
    hw.sound hw.paths ?_ ?_
  · intro q _ _ hpd
    left
    have : q.pickupDelivery = true := hpd.trans (f3.trans hP.pickupDelivery)
    simp [PricingLP.ranked, this]
  · intro q cap p mid hsub hwf hpres hcaps hst hdur hqtw hpd hdc hcap hfeas hroute hne hperm
    rw [hMG] at hsub
    have hpd' : q.pickupDelivery = true := hpd.trans (f3.trans hP.pickupDelivery)
    refine ⟨mid, rfl, requests_lp hP S U hsub hwf (hpres hpd') (hcaps.trans S.caps) hst (hdur.trans ?_) (hqtw.trans f2) hpd'
      hcap hfeas hroute hperm⟩
    show P'.duration.limit = P0.duration.limit
    rw [f11]

/-- **C63 (partial).** Let a problem with pickup and delivery (possibly with time windows, a mixed fleet, fleet bounds, drop
penalty) be handed to the constructor and `solve()` be called with any pricing strategy, any limits on iterations and time,
possibly with initial routes (without repeated nodes and within the limits), and let it return, however the solvers behave
within their contracts.  Then the reported routes form a plan for the user's problem, every route contains pickup and delivery
of a request or neither, the pickup first, and the vehicle never carries less than nothing or more than its capacity; a request
is dropped as a whole or not at all; and `best_value` is what the routes cost plus penalties.  For diving see
`C63_dive_partial`; what is missing: preassigned routes.  The conditions on the data in `PickupDelivery` are needed (counterexamples below). -/
theorem C63_requests_partial {w : World} {a : SolveArgs} {fuel : Nat} {P0 : Vrp} {o o' : Obj} (hw : LpSound w)
    (hP : PickupDelivery P0) (hpre : a.preassignments = []) (hdive : a.dive = false) (hheur : a.heuristicOnly = false)
    (hinit : ∀ r ∈ a.initialRoutes, r.Nodup ∧ ∀ mid k, r = routeOf mid →
      WithinCapacity (userCapacities P0.loadCapacity) k (mid.map (userDemand P0.G)).sum → RequestLimits P0 k mid)
    (hc : Obj.create P0 = .ok o) (h : o.solve w a fuel = .ok (some o')) :
    ∃ K N, (P0.mixedFleet = false → K = 1) ∧ o'.P.H = some N ∧ SolvesRequests P0 K o'.solution ∧
      (∀ v w, Request P0 v w → (v ∈ o'.solution.dropped ↔ w ∈ o'.solution.dropped)) ∧
      (P0.minimizeGlobalSpan = false → bestValue N false P0.dropPenalty o'.solution =
        .ok ((userCosts P0 o'.solution).sum + P0.dropPenalty * o'.solution.dropped.length)) ∧
      (P0.minimizeGlobalSpan = true → o'.solution.routes ≠ [] → ∃ m, IsLargest m (userCosts P0 o'.solution) ∧
        bestValue N true P0.dropPenalty o'.solution = .ok (m + P0.dropPenalty * o'.solution.dropped.length)) := by
  unfold Obj.solve at h
  split at h
  · cases h
  rename_i P' hstart
  rw [hheur] at h
  simp only [Bool.false_eq_true, if_false] at h
  have hcspy := startSolve_no_cspy (w := w) hc hP.pickupDelivery hstart
  obtain ⟨K, N, N3, S⟩ := searched_of (w := w) hP.wf hP.customer hP.costs (fun v hv hd => by
    rcases hd with hd | hd
    · rw [hP.pickupDelivery] at hd
      cases hd
    · exact hP.depots v hv hd) hpre hc hstart
  have U := userData_of (w := w) hP.wf (fun hf => by rw [hP.pickupDelivery] at hf; cases hf) hpre hc hstart S.reports
  have hold : o.solution.dropped = [] := by
    obtain ⟨G, _, rfl⟩ := create_ok hc
    rfl
  have hi := startSolve_initial hc hstart
  have hplan := plan_of_columns hP.customer hP.periodic S hw.master hw.path
    (fun P'' cols h1 => initial_requests hP.toRequestsData S U (by rw [hi]; exact hinit) h1) hdive (fun _ => hold)
    (fun rs _ d _ _ _ _ _ => price_requests hw hP.toRequestsData S U hcspy rs d) h
  obtain ⟨h1, h2, h3⟩ := hplan
  refine ⟨K, N, S.typesOne, h1, h2, ?_, h3⟩
  -- a customer is dropped iff it is on no route
  have hiff : ∀ n, Node.cust n ∈ P0.G.nodes →
      (Node.cust n ∈ o'.solution.dropped ↔ ∀ i r, (i, r) ∈ o'.solution.routes → Node.cust n ∉ r) := by
    intro n hn
    refine ⟨fun hd => (h2.dropped _ hd).2.2, fun hno => ?_⟩
    by_contra hd
    have := h2.once n hn hd
    rw [List.sum_eq_zero] at this
    · cases this
    · intro x hx
      obtain ⟨⟨i, r⟩, hir, rfl⟩ := List.mem_map.1 hx
      exact List.count_eq_zero.2 (hno i r hir)
  intro x y hxy
  obtain ⟨⟨n, rfl⟩, ⟨m, rfl⟩, hy, _⟩ := hP.ends x y hxy
  rw [hiff n hxy.1, hiff m hy]
  have hsame : ∀ i r, (i, r) ∈ o'.solution.routes → (Node.cust n ∈ r ↔ Node.cust m ∈ r) := by
    intro i r hir
    obtain ⟨_, _, _, _, _, k, _, _, mid, rfl, hl⟩ := h2.routes i r hir
    have := hl.together _ _ hxy
    simpa [routeOf] using this
  exact ⟨fun h i r hir => fun hm => h i r hir ((hsame i r hir).2 hm),
    fun h i r hir => fun hm => h i r hir ((hsame i r hir).1 hm)⟩

/-! ## An example -/

/-- Two requests, from 1 to 3 and from 2 to 4, with time windows. -/
def exRequests : Vrp where
  G := {
    nodes := [.source, .cust 1, .cust 2, .cust 3, .cust 4, .sink]
    nd := fun v => match v with
      | .source => { upper := some 100 }
      | .sink => { upper := some 100 }
      | .cust 1 => { demand := some 2, request := some (.cust 3), lower := some 15, upper := some 30 }
      | .cust 2 => { demand := some 3, request := some (.cust 4), serviceTime := some 1, upper := some 100 }
      | .cust 3 => { demand := some (-2), upper := some 80 }
      | .cust _ => { demand := some (-3), upper := some 100 }
    succ := fun u => match u with
      | .source => [.cust 1, .cust 2]
      | .cust 1 => [.cust 2, .cust 3]
      | .cust 2 => [.cust 3, .cust 4]
      | .cust 3 => [.cust 4, .sink]
      | .cust 4 => [.sink]
      | _ => []
    ed := fun u v => {
      cost := some (.scalar (if u = .source ∨ v = .sink then 10 else 1))
      time := some 10 } }
  loadCapacity := .one (.int 5)
  duration := .int 60
  numStops := .int 4
  timeWindows := true
  pickupDelivery := true

theorem exRequests_request {v w : Node} (h : Request exRequests v w) :
    (v = .cust 1 ∧ w = .cust 3) ∨ (v = .cust 2 ∧ w = .cust 4) := by
  obtain ⟨h1, h2⟩ := h
  have h1' : v ∈ [Node.source, .cust 1, .cust 2, .cust 3, .cust 4, .sink] := h1
  simp only [List.mem_cons, List.not_mem_nil, or_false] at h1'
  rcases h1' with rfl | rfl | rfl | rfl | rfl | rfl <;> simp [exRequests] at h2 <;> simp [h2]

theorem exRequests_ok : PickupDelivery exRequests where
  wf := by
    refine ⟨by decide, ?_, ?_⟩
    · intro u; simp only [exRequests]; split <;> decide
    · intro u v hv
      simp only [exRequests] at hv ⊢
      split at hv <;> simp at hv <;> (try rcases hv with rfl | rfl) <;> (try subst hv) <;> decide
  costs := fun _ u v _ => ⟨_, Or.inl rfl⟩
  depots := by decide +kernel
  service := by decide +kernel
  customer := ⟨1, by decide⟩
  ends := by
    intro v w h
    rcases exRequests_request h with ⟨rfl, rfl⟩ | ⟨rfl, rfl⟩
    · exact ⟨⟨_, rfl⟩, ⟨_, rfl⟩, by decide, by decide +kernel⟩
    · exact ⟨⟨_, rfl⟩, ⟨_, rfl⟩, by decide, by decide +kernel⟩
  amounts := by
    intro v w h
    rcases exRequests_request h with ⟨rfl, rfl⟩ | ⟨rfl, rfl⟩ <;> decide +kernel
  distinct := by
    intro v v' w h h'
    rcases exRequests_request h with ⟨rfl, rfl⟩ | ⟨rfl, rfl⟩ <;>
      rcases exRequests_request h' with ⟨rfl, h2⟩ | ⟨rfl, h2⟩ <;> simp_all
  others := by
    intro n hn h1 h2
    have hn' : Node.cust n ∈ [Node.source, .cust 1, .cust 2, .cust 3, .cust 4, .sink] := hn
    simp at hn'
    rcases hn' with rfl | rfl | rfl | rfl
    · cases h1
    · cases h1
    · exact absurd ⟨by decide, rfl⟩ (h2 (.cust 1))
    · exact absurd ⟨by decide, rfl⟩ (h2 (.cust 2))
  fits := fun h => (by cases h)
  twoStops := by
    intro m hm _
    simp only [exRequests, PyVal.stops] at hm
    cases hm
    decide
  source := fun _ => rfl
  windows := fun _ => by decide +kernel
  pickupDelivery := rfl
  distributionCollection := rfl
  periodic := rfl
  oneCapacity := by decide +kernel

theorem exRequests_onTime : RequestTripsOnTime exRequests := by
  intro v w h
  left
  rcases exRequests_request h with ⟨rfl, rfl⟩ | ⟨rfl, rfl⟩ <;> decide +kernel

theorem exRequests_fit : RequestTripsFit exRequests := by
  intro v w h d hd _
  have hd' : (60 : ℚ) = d := by simpa [exRequests, PyVal.limit] using hd
  rw [← hd']
  rcases exRequests_request h with ⟨rfl, rfl⟩ | ⟨rfl, rfl⟩ <;> decide +kernel

/-- The route over all four customers. -/
def exRequestsPoint : PVar → ℚ
  | .x .source (.cust 1) => 1
  | .x (.cust 1) (.cust 2) => 1
  | .x (.cust 2) (.cust 3) => 1
  | .x (.cust 3) (.cust 4) => 1
  | .x (.cust 4) .sink => 1
  | .t (.cust 1) => 15
  | .t (.cust 2) => 25
  | .t (.cust 3) => 36
  | .t (.cust 4) => 46
  | .t .sink => 56
  | .y (.cust n) => n
  | .y .sink => 5
  | .load (.cust 1) => 2
  | .load (.cust 2) => 5
  | .load (.cust 3) => 3
  | _ => 0

/-- The duals: what the trips cost, until the better route is found. -/
def exRequestsDual (prob : LP MVar) (v : Node) : ℚ :=
  if v = .cust 1 ∨ v = .cust 2 then (if prob.vars.any (fun d => d.var = .y (.num 3)) then 23 / 2 else 21) else 0

noncomputable def exWorld5 : World := lpWorld [choosing [3], choosing [1, 2]] exRequestsDual [exRequestsPoint]

/-- All hypotheses of `C63_requests_partial` hold for the example, and column generation finds the better route. -/
example : LpSound exWorld5 ∧ PickupDelivery exRequests ∧ RequestTripsOnTime exRequests ∧ RequestTripsFit exRequests ∧
    planOf exWorld5 { cspy := false } 5 exRequests =
      .ok (some ⟨[(1, routeOf [.cust 1, .cust 2, .cust 3, .cust 4])], [(1, 0)], []⟩) := by
  refine ⟨lpWorld_ok _ _ _, exRequests_ok, exRequests_onTime, exRequests_fit, Solve.eq_ok_of_toOption (by decide +kernel)⟩

/-! ## Counterexamples -/

/-- One request, from 1 to 2; the amounts picked up and delivered, the service time at 2 and the costs of arcs can be chosen. -/
def oneRequest (pick deliver service : ℚ) (cost : Cost) : DiGraph where
  nodes := [.source, .cust 1, .cust 2, .sink]
  nd := fun v => match v with
    | .cust 1 => { demand := some pick, request := some (.cust 2), upper := some 100 }
    | .cust _ => { demand := some (-deliver), serviceTime := some service, upper := some 100 }
    | _ => { upper := some 30 }
  succ := fun u => match u with
    | .source => [.cust 1, .cust 2]
    | .cust 1 => [.cust 2, .sink]
    | .cust 2 => [.sink]
    | _ => []
  ed := fun _ _ => {
    cost := some cost
    time := some 10 }

/-- The only route is selected, pricing finds nothing. -/
noncomputable def exWorld6 : World := lpWorld [choosing [1]] (fun _ _ => 0) []

/-- Vehicles that carry 5 and 10; 8 are to be transported. -/
def mixedRequest : Vrp where
  G := oneRequest 8 8 0 (.list [1, 1])
  loadCapacity := .many [.int 5, .int 10]
  mixedFleet := true
  pickupDelivery := true

/-- **C63**, counterexample: the vehicle of an initial route is chosen by the sum of its demands, which is 0 for the trip of a
request, so the smallest vehicle is to carry 8. -/
theorem C63_fleet_counterexample : LpSound exWorld6 ∧
    planOf exWorld6 { cspy := false } 5 mixedRequest = .ok (some ⟨[(1, routeOf [.cust 1, .cust 2])], [(1, 0)], []⟩) ∧
    ¬ RequestLimits mixedRequest 0 [.cust 1, .cust 2] := by
  refine ⟨lpWorld_ok _ _ _, Solve.eq_ok_of_toOption (by decide +kernel), ?_⟩
  intro h
  obtain ⟨c, hc, hle⟩ := (h.load [.cust 1] [.cust 2] rfl).2 (by decide +kernel)
  have h5 : (userCapacities mixedRequest.loadCapacity)[0]? = some 5 := by decide +kernel
  rw [h5] at hc
  cases hc
  exact absurd hle (by decide +kernel)

/-- Only one stop is allowed. -/
def oneStop : Vrp where
  G := oneRequest 3 3 0 (.scalar 1)
  loadCapacity := .one (.int 5)
  numStops := .int 1
  pickupDelivery := true

/-- **C63**, counterexample: the number of stops is not checked when the trips for requests are built. -/
theorem C63_stops_counterexample : LpSound exWorld6 ∧
    planOf exWorld6 { cspy := false } 5 oneStop = .ok (some ⟨[(1, routeOf [.cust 1, .cust 2])], [(1, 0)], []⟩) ∧
    ¬ RequestLimits oneStop 0 [.cust 1, .cust 2] := by
  refine ⟨lpWorld_ok _ _ _, Solve.eq_ok_of_toOption (by decide +kernel), ?_⟩
  intro h
  have := h.stops 1 rfl (by decide)
  simp at this

/-- More is delivered than picked up. -/
def moreDelivered : Vrp where
  G := oneRequest 3 4 0 (.scalar 1)
  loadCapacity := .one (.int 5)
  pickupDelivery := true

/-- **C63**, counterexample: whether the amounts agree is not checked. -/
theorem C63_amounts_counterexample : LpSound exWorld6 ∧
    planOf exWorld6 { cspy := false } 5 moreDelivered = .ok (some ⟨[(1, routeOf [.cust 1, .cust 2])], [(1, 0)], []⟩) ∧
    ¬ RequestLimits moreDelivered 0 [.cust 1, .cust 2] := by
  refine ⟨lpWorld_ok _ _ _, Solve.eq_ok_of_toOption (by decide +kernel), ?_⟩
  intro h
  exact absurd h.empty (by decide +kernel)

/-- Two requests with the same delivery. -/
def sharedDelivery : Vrp where
  G := {
    nodes := [.source, .cust 1, .cust 2, .cust 3, .sink]
    nd := fun v => match v with
      | .cust 3 => { demand := some (-1) }
      | .cust _ => { demand := some 1, request := some (.cust 3) }
      | _ => {}
    succ := fun u => match u with
      | .source => [.cust 1, .cust 2, .cust 3]
      | .cust 3 => [.sink]
      | .cust _ => [.cust 3, .sink]
      | _ => []
    ed := fun _ _ => { cost := some (.scalar 1) } }
  loadCapacity := .one (.int 5)
  dropPenalty := 1
  pickupDelivery := true

noncomputable def exWorld7 : World := lpWorld [choosing [2] [1]] (fun _ _ => 0) []

/-- **C63**, counterexample: if requests share a delivery, one pickup can be dropped while the delivery is made. -/
theorem C63_shared_counterexample : LpSound exWorld7 ∧
    planOf exWorld7 { cspy := false } 5 sharedDelivery =
      .ok (some ⟨[(1, routeOf [.cust 2, .cust 3])], [(1, 0)], [.cust 1]⟩) ∧
    Request sharedDelivery (.cust 1) (.cust 3) := by
  refine ⟨lpWorld_ok _ _ _, Solve.eq_ok_of_toOption (by decide +kernel), by decide, rfl⟩

/-! ## C64: the check of the trips for requests -/

/-- One request with time windows: Sink closes at 30, every arc takes 10, serving 2 takes 5. -/
def lateDelivery : Vrp where
  G := oneRequest 3 3 5 (.scalar 1)
  loadCapacity := .one (.int 5)
  timeWindows := true
  pickupDelivery := true

/-- **C64**, counterexample: the trip is accepted although the vehicle is back at 35. -/
theorem C64_service_counterexample : LpSound exWorld6 ∧
    planOf exWorld6 { cspy := false } 5 lateDelivery = .ok (some ⟨[(1, routeOf [.cust 1, .cust 2])], [(1, 0)], []⟩) ∧
    ¬ UserOnTime lateDelivery.G (routeOf [.cust 1, .cust 2]) := by
  refine ⟨lpWorld_ok _ _ _, Solve.eq_ok_of_toOption (by decide +kernel), ?_⟩
  intro h
  have := h (.sink, 35) (by decide +kernel)
  exact absurd this (by decide +kernel)

end Vrpy
