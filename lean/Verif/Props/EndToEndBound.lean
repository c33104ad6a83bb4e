import Verif.Props.EndToEndLP
import Verif.Props.TimeChecks

/-!
# C70: the last lower bound of a run bounds the cost of every solution of the user's problem
-/

namespace Vrpy

open Spec

/-- What is known about the networks of a first `solve()` without preassigned routes. -/
theorem searched_reported {w : World} {a : SolveArgs} {P0 P' : Vrp} {o : Obj} (hwf : P0.G.WF)
    (hcust : ∃ n, Node.cust n ∈ P0.G.nodes) (hdoc : CostsAsDocumented P0)
    (hdem : ∀ v ∈ P0.G.nodes, P0.pickupDelivery = false ∨ v = .source ∨ v = .sink → 0 ≤ userDemand P0.G v)
    (hpre : a.preassignments = []) (hc : Obj.create P0 = .ok o)
    (h : o.P.startSolve w.dist a.strategy a.cspy a.initialRoutes a.preassignments = .ok P') :
    ∃ K N N3, Reported P0 P' [] K N ∧ Searched P0 P' K N N3 := by
  obtain ⟨K, N, N3, R, S⟩ := searched_locked (w := w) hwf hcust hdoc hdem hc h
  obtain ⟨K', N', N3', S'⟩ := searched_of (w := w) hwf hcust hdoc hdem hpre hc h
  have hK : K' = K := Option.some.inj (S'.types.symm.trans R.types)
  have hN : N' = N := Option.some.inj (S'.reports.symm.trans R.reports)
  subst hK hN
  rw [hpre] at R
  exact ⟨_, _, _, R, S'⟩

/-- Once the arguments are accepted, there is a fleet bound for every vehicle type if there are any. -/
theorem fleet_types {w : World} {a : SolveArgs} {P0 P' : Vrp} {o : Obj} {K : Nat} (hc : Obj.create P0 = .ok o)
    (h : o.P.startSolve w.dist a.strategy a.cspy a.initialRoutes a.preassignments = .ok P')
    (hK : P'.vehicleTypes = some K) (hne : userFleet P0.numVehicles ≠ []) : K ≤ (userFleet P0.numVehicles).length := by
  obtain ⟨G, _, rfl⟩ := create_ok hc
  obtain ⟨G1, N', N1, N2, N3', S⟩ := startSolve_prepared h
  have hfl := prepared_fleet S.vt
  have hargs := ((C44_accepts_exactly _ _ _ _ _ _ _ _ _).1 S.args).2.2.2.2
  have hvt := S.vt
  rw [hK] at hvt
  generalize Vrp.prepared _ a.initialRoutes a.preassignments = P at hfl hargs hvt
  change P.numVehicles.toList = userFleet P0.numVehicles at hfl
  rw [← hfl] at hne ⊢
  unfold Vrp.typesStep at hvt
  split at hvt
  · rename_i hm
    obtain ⟨⟨d1, d2, d3⟩, _⟩ := hargs hm
    split at hvt
    · cases hvt
    · have hveh : Vrp.defineVehicleTypes.vehicles P = .ok (some K) → K ≤ P.numVehicles.toList.length := by
        intro hv
        unfold Vrp.defineVehicleTypes.vehicles at hv
        split at hv
        · rename_i n hn
          split at hv
          · cases hv
          · rw [hn] at hne
            exact absurd rfl hne
        · rename_i hn
          rw [hn] at hne
          exact absurd rfl hne
        · rename_i xs _ hn
          rw [hn]
          cases hv
          exact le_refl _
      have hfix : Vrp.defineVehicleTypes.fixed P = .ok (some K) → K ≤ P.numVehicles.toList.length := by
        intro hv
        unfold Vrp.defineVehicleTypes.fixed at hv
        split at hv
        · split at hv
          · cases hv
          · exact hveh hv
        · exact hveh hv
        · rename_i xs hx hn
          rw [hn] at d3
          cases hv
          exact le_of_eq (d3 hne (by simpa [Arg.toList] using hx)).symm
      unfold Vrp.defineVehicleTypes at hvt
      split at hvt
      · split at hvt
        · cases hvt
        · exact hfix hvt
      · exact hfix hvt
      · rename_i xs hx hn
        rw [hn] at d1
        cases hvt
        exact le_of_eq (d1 (by simpa [Arg.toList] using hx) hne)
  · cases hvt
    exact List.length_pos_iff.2 hne

/-- Goods are delivered, possibly also collected, possibly within time windows.  The data make sense: demands and
collects are not negative, the depots have no service time and nothing is collected there, arcs have costs as documented; with time
windows, the times make sense (`TimesMakeSense`). -/
structure Spec.DeliveryData (P : Vrp) : Prop where
  wf : P.G.WF
  customer : ∃ n, Node.cust n ∈ P.G.nodes
  costs : CostsAsDocumented P
  demand : ∀ v ∈ P.G.nodes, 0 ≤ userDemand P.G v
  service : (P.G.nd .source).serviceTime.getD 0 = 0 ∧ (P.G.nd .sink).serviceTime.getD 0 = 0
  collect : P.distributionCollection = true → ∀ v ∈ P.G.nodes, 0 ≤ userCollect P.G v ∧
    (v = .source ∨ v = .sink → userCollect P.G v = 0)
  times : P.timeWindows = true → TimesMakeSense P
  pickupDelivery : P.pickupDelivery = false

/-- … and the problem is not periodic. -/
structure Spec.Deliveries (P : Vrp) : Prop extends DeliveryData P where
  periodic : P.periodic.getD 0 = 0

theorem Spec.Capacitated.deliveries {P : Vrp} (h : Capacitated P) : Deliveries P :=
  ⟨⟨h.wf, h.customer, h.costs, h.demand, h.service, fun hf => (by rw [h.distributionCollection] at hf; cases hf),
    fun hf => (by rw [h.timeWindows] at hf; cases hf), h.pickupDelivery⟩, h.periodic⟩

/-- Removing arcs for their loads, then for the time windows. -/
theorem prune_steps {N N2 : Net} {caps : List ℚ} {tw : Bool} (hG : WellFormed N) (hconn : DepotConnected N)
    (hd : N.demand .source = 0 ∧ N.demand .sink = 0)
    (hfit : ∀ v ∈ N.customers, SomeCarries caps (N.demand v)) (h : pruneGraph N caps tw = .ok N2) :
    ∃ s, pruneGraph { N with succ := s } [] tw = .ok N2 ∧ (∀ u v, v ∈ s u → v ∈ N.succ u) ∧ WellFormed { N with succ := s } ∧
      DepotConnected { N with succ := s } ∧
      ∀ r, IsRoute N r → (∀ u v, (u, v) ∈ consecutive r → SomeCarries caps (N.demand u + N.demand v)) →
        IsRoute { N with succ := s } r := by
  cases caps with
  | nil => exact ⟨N.succ, h, fun _ _ h => h, hG, hconn, fun _ h _ => h⟩
  | cons c cs =>
    obtain ⟨succ', h1, h2, h3⟩ := C05_capacity_pruning_exact N c cs hG
    have hcut : removeInfeasibleArcsCapacities N (maxOf c cs) = { N with succ := succ' } := by
      simpa [pruneGraph] using h1
    refine ⟨succ', ?_, fun u v hv => ((h2 u v).1 hv).1, ?_, ?_, ?_⟩
    · rw [← hcut]
      simpa [pruneGraph] using h
    · rw [← hcut]
      exact removeEdges_wf hG _
    · intro n hn
      have hmem : Node.cust n ∈ N.customers := mem_customers.2 ⟨hn, by simp, by simp⟩
      rcases hfit _ hmem with h0 | hfit
      · cases h0
      · obtain ⟨k1, k2⟩ := h3 hd.1 hd.2 _ hmem hfit
        exact ⟨k1 (hconn n hn).1, k2 (hconn n hn).2⟩
    · rintro r ⟨mid, rfl, hmid, hal⟩ hload
      refine ⟨mid, rfl, hmid, ?_⟩
      rw [along_iff] at hal ⊢
      intro u v huv
      rcases hload u v huv with h0 | hload
      · cases h0
      · exact (h2 u v).2 ⟨hal u v huv, hload⟩

theorem onTime_with {N : Net} {c : Node → Node → List ℚ} {s : Node → List Node} {r : List Node} (h : OnTime N r) :
    OnTime { ({ N with cost := c } : Net) with succ := s } r := by
  cases r with
  | nil => trivial
  | cons u rest =>
    intro p hp
    refine h p ?_
    rw [arrivalsFrom_congr (G := N) (H := { ({ N with cost := c } : Net) with succ := s }) rfl rfl rfl] at hp
    exact hp

/-- Routes of the user's problem are routes of the network that is searched, if they are on time and no two customers in a row are
too much for every vehicle. -/
theorem Searched.keeps_of {P0 P' : Vrp} {K : Nat} {N N3 : Net} (S : Searched P0 P' K N N3) (R : Reported P0 P' [] K N)
    (U : UserData P0 P' N) (htimes : P0.timeWindows = true → TimesMakeSense P0)
    {mid : List Node} (hmid : ∀ v ∈ mid, (∃ n, v = .cust n) ∧ v ∈ P0.G.nodes) (hal : Along (UserArc P0.G) (routeOf mid))
    (hload : ∀ u v, (u, v) ∈ consecutive (routeOf mid) → SomeCarries (userCapacities P0.loadCapacity) (N.demand u + N.demand v))
    (hon : P0.timeWindows = true → UserOnTime P0.G (routeOf mid)) :
    IsRoute N (routeOf mid) ∧ IsRoute N3 (routeOf mid) ∧ (P0.timeWindows = true → OnTime N3 (routeOf mid)) := by
  have hnode : ∀ v ∈ routeOf mid, v ∈ P0.G.nodes := by
    intro v hv
    simp only [routeOf, List.mem_cons, List.mem_append, List.not_mem_nil, or_false] at hv
    rcases hv with rfl | hv | rfl
    · rw [← S.userNodes]; exact S.wf.source_mem
    · exact (hmid v hv).2
    · rw [← S.userNodes]; exact S.wf.sink_mem
  have hN : IsRoute N (routeOf mid) := by
    refine ⟨mid, rfl, fun v hv => ⟨(hmid v hv).1, by rw [S.userNodes]; exact (hmid v hv).2⟩, ?_⟩
    rw [along_iff] at hal ⊢
    intro u v huv
    exact R.arcs u v (hnode u (fst_mem_of_consecutive huv)) (hnode v (snd_mem_of_consecutive huv)) (hal u v huv)
  refine ⟨hN, ?_⟩
  obtain ⟨c0, N2, _, hprune, hempty⟩ := S.pruned
  obtain ⟨e1, e2, e3, e4, e5, _⟩ := emptyRouteStep_same hempty
  suffices hN2 : IsRoute N2 (routeOf mid) ∧ (P0.timeWindows = true → OnTime N2 (routeOf mid)) by
    obtain ⟨⟨mid', k1, k2, k3⟩, k4⟩ := hN2
    exact ⟨⟨mid', k1, fun v hv => ⟨(k2 v hv).1, by rw [e2]; exact (k2 v hv).2⟩, by rw [e3]; exact k3⟩,
      fun h => (onTime_congr e1.service e1.time e4 e5 _).2 (k4 h)⟩
  have hwf0 : WellFormed { N with cost := c0 } := ⟨S.wf.1, S.wf.2, S.wf.3, S.wf.4, S.wf.5, S.wf.6, S.wf.7⟩
  obtain ⟨s, h1, h2, h3, h4, h5⟩ := prune_steps hwf0 S.connected S.demandDepots S.fit hprune
  have hcut := h5 _ hN hload
  cases htw : P0.timeWindows with
  | false =>
    rw [htw] at h1
    cases h1
    exact ⟨hcut, fun hf => (by cases hf)⟩
  | true =>
    rw [htw] at h1
    have hT := S.triangle (htimes htw)
    obtain ⟨G', k1, k2⟩ := C06_tw_pruning_sound_partial _ h3 h4
      ⟨hT.service_nonneg, fun u v hu hv huv => hT.from_source u v hu hv (h2 u v huv),
        fun u v hu hv huv => hT.to_sink u v hu hv (h2 u v huv)⟩
    rw [h1] at k1
    simp only [Except.ok.injEq] at k1
    subst k1
    obtain ⟨k3, k4⟩ := k2 _ hcut (onTime_with (onTime_searched S U (htimes htw) hN (hon htw)))
    exact ⟨k3, fun _ => k4⟩

/-- Routes of the user's problem within the limits are routes of the network that is searched. -/
theorem Searched.keeps {P0 P' : Vrp} {K : Nat} {N N3 : Net} (S : Searched P0 P' K N N3) (R : Reported P0 P' [] K N)
    (U : UserData P0 P' N) (hP : DeliveryData P0)
    {mid : List Node} (hmid : ∀ v ∈ mid, (∃ n, v = .cust n) ∧ v ∈ P0.G.nodes) (hal : Along (UserArc P0.G) (routeOf mid))
    (hload : SomeCarries (userCapacities P0.loadCapacity) (mid.map (userDemand P0.G)).sum)
    (hon : P0.timeWindows = true → UserOnTime P0.G (routeOf mid)) :
    IsRoute N (routeOf mid) ∧ IsRoute N3 (routeOf mid) ∧ (P0.timeWindows = true → OnTime N3 (routeOf mid)) := by
  refine S.keeps_of R U hP.times hmid hal (fun u v huv => ?_) hon
  have hmem : ∀ v ∈ routeOf mid, 0 ≤ N.demand v := by
    intro v hv
    simp only [routeOf, List.mem_cons, List.mem_append, List.not_mem_nil, or_false] at hv
    rcases hv with rfl | hv | rfl
    · exact S.demandDepots.1.ge
    · obtain ⟨⟨n, rfl⟩, hn⟩ := hmid v hv
      rw [S.demand _ (mem_customers.2 ⟨by rw [S.userNodes]; exact hn, by simp, by simp⟩)]
      exact hP.demand _ hn
    · exact S.demandDepots.2.ge
  have h1 := consecutive_sum_le N.demand _ hmem huv
  have h2 := (load_user S hmid).1
  unfold load at h2
  rw [S.same.demand] at h2
  rcases hload with h0 | ⟨c, hc, hle⟩
  · exact Or.inl h0
  · exact Or.inr ⟨c, hc, by linarith⟩

/-- A route within the limits of the user: not too many stops, not too much to deliver, not too long, on time, and (if goods are
also collected) never too much on board. -/
structure Spec.WithinLimitsOf (P : Vrp) (k : Nat) (mid : List Node) : Prop where
  stops : WithinStops P.numStops.stops mid.length
  load : WithinCapacity (userCapacities P.loadCapacity) k (mid.map (userDemand P.G)).sum
  duration : Within P.duration.limit (userDuration P.G (routeOf mid))
  windows : P.timeWindows = true → UserOnTime P.G (routeOf mid)
  goods : P.distributionCollection = true → ∀ pre post, mid = pre ++ post →
    WithinCapacity (userCapacities P.loadCapacity) k ((pre.map (userCollect P.G)).sum + (post.map (userDemand P.G)).sum)

/-- The limits of the pricing problems. -/
def searchLimits (P0 P' : Vrp) (N3 : Net) (k : Nat) : PricingLP where
  G := N3
  weight := fun _ _ => 0
  vehicleType := k
  caps := userCapacities P0.loadCapacity
  numStops := P'.numStops.stops
  duration := P0.duration.limit
  timeWindows := P0.timeWindows

/-- The route is within the limits in the network that is searched. -/
structure Allowed (P0 P' : Vrp) (N3 : Net) (k : Nat) (r : List Node) : Prop where
  admissible : Admissible (searchLimits P0 P' N3 k) r
  goods : P0.distributionCollection = true → ∀ c, (userCapacities P0.loadCapacity)[k]? = some c → GoodsWithin N3 c r

/-- Such a route is admissible for pricing. -/
theorem Searched.admissible {P0 P' : Vrp} {K : Nat} {N N3 : Net} (S : Searched P0 P' K N N3) (R : Reported P0 P' [] K N)
    (U : UserData P0 P' N) (hP : DeliveryData P0) {k : Nat}
    {mid : List Node} (hmid : ∀ v ∈ mid, (∃ n, v = .cust n) ∧ v ∈ P0.G.nodes) (hnd : mid.Nodup) (hne : mid ≠ [])
    (hal : Along (UserArc P0.G) (routeOf mid)) (hlim : WithinLimitsOf P0 k mid) : Allowed P0 P' N3 k (routeOf mid) := by
  have hsome : ∀ x, WithinCapacity (userCapacities P0.loadCapacity) k x → SomeCarries (userCapacities P0.loadCapacity) x := by
    intro x hx
    by_cases h0 : userCapacities P0.loadCapacity = []
    · exact Or.inl h0
    · obtain ⟨c, hc, hle⟩ := hx h0
      exact Or.inr ⟨c, List.mem_of_getElem? hc, hle⟩
  obtain ⟨h1, h2, h3⟩ := S.keeps R U hP hmid hal (hsome _ hlim.load) hlim.windows
  obtain ⟨hl, hs⟩ := load_user S hmid
  have hmidc : ∀ v ∈ mid, v ∈ N.customers := by
    intro v hv
    obtain ⟨⟨n, rfl⟩, hn⟩ := hmid v hv
    exact mem_customers.2 ⟨by rw [S.userNodes]; exact hn, by simp, by simp⟩
  have hcol : ∀ v ∈ N.nodes, N.collect v = userCollect P0.G v := U.collect
  have hcol0 : P0.distributionCollection = true → ∀ v ∈ N.nodes, 0 ≤ N.collect v ∧
      (v = .source ∨ v = .sink → N.collect v = 0) := by
    intro hdc v hv
    rw [hcol v hv]
    exact hP.collect hdc v (by rw [← S.userNodes]; exact hv)
  have hnd' : (routeOf mid).Nodup := by
    have hs : Node.source ∉ mid := fun h => by simpa using (mem_customers.1 (hmidc _ h)).2.1
    have ht : Node.sink ∉ mid := fun h => by simpa using (mem_customers.1 (hmidc _ h)).2.2
    simp [routeOf, List.nodup_append, hnd, hs, ht]
    intro a ha h
    exact ht (h ▸ ha)
  refine ⟨⟨⟨h2, hnd'⟩, by rw [stops_routeOf hmidc]; exact hne, ?_, ?_, ?_, h3⟩, ?_⟩
  · show WithinStops P'.numStops.stops _
    rw [hs]
    refine S.stopsKept hcol0 mid hnd hmidc ?_ ?_ hlim.stops
    · rw [List.map_congr_left (fun v hv => S.demand v (hmidc v hv))]
      exact hsome _ hlim.load
    · intro hdc
      rw [List.map_congr_left (fun v hv => hcol v (mem_customers.1 (hmidc v hv)).1)]
      have := hsome _ (hlim.goods hdc mid [] (by simp))
      simpa using this
  · show WithinCapacity _ k (load N3 (routeOf mid))
    rw [hl]
    exact hlim.load
  · show Within _ (Spec.duration N3 (routeOf mid))
    have : Spec.duration N3 (routeOf mid) = Spec.duration N (routeOf mid) := by
      unfold Spec.duration travel
      rw [S.same.time, S.same.service]
    rw [this, duration_user S h1.choose_spec.2.2 (route_mem_nodes S.wf h1)]
    exact hlim.duration
  · intro hdc c hc pre post hpp hpre hpost
    obtain ⟨x, pre, rfl⟩ := List.exists_cons_of_ne_nil hpre
    rw [routeOf, List.cons_append, List.cons.injEq] at hpp
    obtain ⟨rfl, hpp⟩ := hpp
    obtain ⟨post, rfl⟩ : ∃ post', post = post' ++ [Node.sink] := by
      refine ⟨post.dropLast, ?_⟩
      have h5 := List.dropLast_append_getLast hpost
      have h6 : post.getLast hpost = .sink := by
        have := congrArg List.getLast? hpp
        rw [List.getLast?_append_of_ne_nil _ (by simp), List.getLast?_append_of_ne_nil _ hpost,
          List.getLast?_eq_some_getLast hpost] at this
        simpa using this.symm
      rw [h6] at h5
      exact h5.symm
    rw [← List.append_assoc] at hpp
    have hmid2 := List.append_cancel_right hpp
    have hne' : userCapacities P0.loadCapacity ≠ [] := by
      intro h0
      rw [h0] at hc
      simp at hc
    obtain ⟨c', hc', hle⟩ := hlim.goods hdc pre post hmid2 hne'
    rw [hc] at hc'
    cases hc'
    have e1 : (pre.map N3.collect).sum = (pre.map (userCollect P0.G)).sum := by
      rw [S.same.collect, List.map_congr_left (fun v hv => hcol v (mem_customers.1 (hmidc v (by rw [hmid2]; simp [hv]))).1)]
    have e2 : (post.map N3.demand).sum = (post.map (userDemand P0.G)).sum := by
      rw [S.same.demand, List.map_congr_left (fun v hv => S.demand v (hmidc v (by rw [hmid2]; simp [hv])))]
    have e3 : N3.collect .source = 0 := by
      rw [S.same.collect]
      exact (hcol0 hdc _ S.wf.source_mem).2 (Or.inl rfl)
    have e4 : N3.demand .sink = 0 := by rw [S.same.demand]; exact S.demandDepots.2
    simp only [Spec.load, List.map_append, List.map_cons, List.map_nil, List.sum_append, List.sum_cons, List.sum_nil, e1, e2,
      e3, e4, add_zero, zero_add]
    linarith

/-- The routes solve the problem, within the limits. -/
def Spec.SolvesWithin (P : Vrp) (K : Nat) (S : Solution) : Prop :=
  PlanFor P K (fun k r => ∃ mid, r = routeOf mid ∧ WithinLimitsOf P k mid) S

/-- The routes with customers of a solution, with their vehicle types. -/
def routesWithCustomers (S : Solution) : Plan :=
  (S.routes.filter (fun p => stops p.2 ≠ [])).map (fun p => ((dget S.types p.1).getD 0, p.2))

theorem sum_count_flatten (v : Node) (rs : List (List Node)) :
    (rs.flatten.filter (fun x => x = v)).length = (rs.map (fun r => r.count v)).sum := by
  induction rs with
  | nil => rfl
  | cons r rs ih =>
    rw [List.flatten_cons, List.filter_append, List.length_append, ih, List.map_cons, List.sum_cons]
    congr 1
    rw [List.count, List.countP_eq_length_filter]
    congr 1

theorem legSum_le {f g : Node → Node → ℚ} : ∀ {r : List Node}, (∀ u v, (u, v) ∈ consecutive r → f u v ≤ g u v) →
    legSum f r ≤ legSum g r
  | [], _ => le_refl _
  | [_], _ => le_refl _
  | a :: b :: rest, h => by
    have h1 := h a b (by simp [consecutive])
    have h2 := legSum_le (r := b :: rest) (f := f) (g := g) (fun u v huv => h u v (by
      rw [consecutive]
      exact List.mem_cons_of_mem _ huv))
    simp only [legSum]
    linarith

theorem sum_filter_le {α : Type} (p : α → Bool) {f g : α → ℚ} : ∀ l : List α, (∀ x ∈ l, p x = true → f x ≤ g x) →
    (∀ x ∈ l, ¬ p x = true → 0 ≤ g x) → ((l.filter p).map f).sum ≤ (l.map g).sum
  | [], _, _ => le_refl _
  | x :: l, h1, h2 => by
    have ih := sum_filter_le p l (fun y hy => h1 y (List.mem_cons_of_mem _ hy)) (fun y hy => h2 y (List.mem_cons_of_mem _ hy))
    by_cases hp : p x = true
    · rw [List.filter_cons_of_pos hp, List.map_cons, List.sum_cons, List.map_cons, List.sum_cons]
      have := h1 x (by simp) hp
      linarith
    · rw [List.filter_cons_of_neg hp, List.map_cons, List.sum_cons]
      have := h2 x (by simp) hp
      linarith

/-- Staying at the depot costs nothing or more. -/
theorem Spec.NonnegativeData.stay {P : Vrp} (h : NonnegativeData P) (k : Nat) : 0 ≤ userArcCost P k .source .sink :=
  h.cost k _ _ (Or.inr (Or.inr (Or.inr ⟨rfl, rfl⟩)))

/-- Without preassigned routes, costs in the graph that is searched are those of the graph with the fixed costs, as far as arcs
other than the one of the empty route are concerned. -/
theorem searched_costs {w : World} {a : SolveArgs} {P0 P' : Vrp} {o : Obj} {Q : List (List Node)} {K : Nat} {N N3 : Net}
    (hc : Obj.create P0 = .ok o) (hpre : a.preassignments = [])
    (h : o.P.startSolve w.dist a.strategy a.cspy a.initialRoutes a.preassignments = .ok P') (S : Searched P0 P' K N N3)
    (R : Reported P0 P' Q K N) (k : Nat) (_ : k < K) (u v : Node) (_ : v ∈ N.succ u) (huv : ¬ (u = .source ∧ v = .sink)) :
    (N3.cost u v).getD k 0 ≤ (N.cost u v).getD k 0 := by
  obtain ⟨G, hG, rfl⟩ := create_ok hc
  obtain ⟨G1, N', N1, N2, N3', T⟩ := startSolve_prepared h
  have hlock := T.locked
  rw [prepared_fields.1, hpre] at hlock
  simp only [ne_eq, not_true, if_false] at hlock
  unfold lockStep at hlock
  simp only [ne_eq, not_true, if_false, Except.ok.injEq] at hlock
  have hN : N' = N := by
    have h1 := R.reports
    rw [T.result] at h1
    simpa using h1
  have hN3 : N3' = N3 := by
    have h1 := S.graph
    rw [T.result] at h1
    have h2 : N3'.toDiGraph.toNet = N3.toDiGraph.toNet := congrArg DiGraph.toNet h1
    exact h2
  have hprune := T.pruned
  obtain ⟨_, _, _, _, _, hlast⟩ := emptyRouteStep_same T.emptyRoute
  rw [← hN3, hlast u v huv, (pruneStep_same hprune).cost_eq, ← hlock, hN]

/-- The routes of the user's solution are routes of the network that is searched, and not dearer there. -/
theorem searched_routes_of {F : Nat → List Node → Prop} {A : Nat → List Node → Prop} {P0 P' : Vrp} {K : Nat} {N N3 : Net} (Sr : Searched P0 P' K N N3)
    (hsimple : ∀ k r, A k r → IsSimpleRoute N3 r)
    (hadm : ∀ k < K, ∀ mid, (∀ v ∈ mid, (∃ n, v = .cust n) ∧ v ∈ P0.G.nodes) → mid.Nodup → mid ≠ [] →
      Along (UserArc P0.G) (routeOf mid) → F k (routeOf mid) → A k (routeOf mid))
    (hsame : ∀ k < K, ∀ u v, v ∈ N.succ u → ¬ (u = .source ∧ v = .sink) → (N3.cost u v).getD k 0 ≤ (N.cost u v).getD k 0)
    (hcost : ∀ k, 0 ≤ userArcCost P0 k .source .sink) {S : Solution}
    (hroutes : ∀ i r, (i, r) ∈ S.routes → ∃ mid, r = routeOf mid ∧ mid.Nodup ∧
      (∀ v ∈ mid, (∃ n, v = .cust n) ∧ v ∈ P0.G.nodes) ∧ Along (UserArc P0.G) r ∧ ∃ k < K, dget S.types i = some k ∧ F k r) :
    (∀ e ∈ routesWithCustomers S, e.1 < K ∧ A e.1 e.2) ∧
      (∀ v, v ∈ N3.customers ↔ (∃ n, v = .cust n) ∧ v ∈ P0.G.nodes) ∧
      (∀ n, (((routesWithCustomers S).map Prod.snd).flatten.filter (fun x => x = Node.cust n)).length =
        (S.routes.map (fun p => p.2.count (Node.cust n))).sum) ∧
      planCost N3 (routesWithCustomers S) ≤ (userCosts P0 S).sum ∧ (routesWithCustomers S).length ≤ S.routes.length := by
  have hroute : ∀ p ∈ S.routes, ∃ mid, p.2 = routeOf mid ∧ mid.Nodup ∧ (∀ v ∈ mid, (∃ n, v = .cust n) ∧ v ∈ P0.G.nodes) ∧
      Along (UserArc P0.G) p.2 ∧ ∃ k < K, dget S.types p.1 = some k ∧ F k p.2 := by
    rintro ⟨i, r⟩ hp
    exact hroutes i r hp
  have hstops : ∀ mid : List Node, (∀ v ∈ mid, (∃ n, v = .cust n) ∧ v ∈ P0.G.nodes) → stops (routeOf mid) = mid := by
    intro mid hmid
    refine stops_routeOf (G := N) (fun v hv => ?_)
    obtain ⟨⟨n, rfl⟩, hn⟩ := hmid v hv
    exact mem_customers.2 ⟨by rw [Sr.userNodes]; exact hn, by simp, by simp⟩
  have hplan : ∀ e ∈ routesWithCustomers S, e.1 < K ∧ A e.1 e.2 := by
    intro e he
    obtain ⟨p, hp, rfl⟩ := List.mem_map.1 he
    obtain ⟨hp, hne⟩ := List.mem_filter.1 hp
    obtain ⟨mid, h1, h2, h3, h4, k, hk, h5, h6⟩ := hroute p hp
    simp only [h5, Option.getD_some]
    rw [h1] at hne h4 h6 ⊢
    rw [hstops mid h3] at hne
    exact ⟨hk, hadm k hk mid h3 h2 (by simpa using hne) h4 h6⟩
  have hcust : ∀ v, v ∈ N3.customers ↔ (∃ n, v = .cust n) ∧ v ∈ P0.G.nodes := by
    intro v
    rw [mem_customers, Sr.nodes, Sr.userNodes]
    constructor
    · rintro ⟨h1, h2, h3⟩
      cases v with
      | cust n => exact ⟨⟨n, rfl⟩, h1⟩
      | _ => contradiction
    · rintro ⟨⟨n, rfl⟩, h1⟩
      exact ⟨h1, by simp, by simp⟩
  refine ⟨hplan, hcust, ?_, ?_, ?_⟩
  · intro n
    rw [sum_count_flatten]
    have : ∀ l : List (Nat × List Node), (∀ p ∈ l, p ∈ S.routes) →
        (((l.filter (fun p => stops p.2 ≠ [])).map (fun p => ((dget S.types p.1).getD 0, p.2))).map Prod.snd |>.map
          (fun r => r.count (Node.cust n))).sum = (l.map (fun p => p.2.count (Node.cust n))).sum := by
      intro l hl
      induction l with
      | nil => rfl
      | cons p l ih =>
        have ih := ih (fun q hq => hl q (List.mem_cons_of_mem _ hq))
        by_cases hp : stops p.2 ≠ []
        · rw [List.filter_cons_of_pos (by simpa using hp)]
          simp only [List.map_cons, List.sum_cons, ih]
        · rw [List.filter_cons_of_neg (by simpa using hp), ih, List.map_cons, List.sum_cons]
          have : p.2.count (Node.cust n) = 0 := by
            rw [List.count_eq_zero]
            intro hmem
            apply hp
            intro h0
            have : Node.cust n ∈ stops p.2 := List.mem_filter.2 ⟨hmem, by simp⟩
            rw [h0] at this
            cases this
          omega
    exact this S.routes (fun _ h => h)
  · unfold planCost routesWithCustomers userCosts
    rw [List.map_map]
    refine sum_filter_le _ _ ?_ ?_
    · intro p hp hne
      have he : ((dget S.types p.1).getD 0, p.2) ∈ routesWithCustomers S := List.mem_map.2 ⟨p, List.mem_filter.2 ⟨hp, hne⟩, rfl⟩
      obtain ⟨hk, hA⟩ := hplan _ he
      obtain ⟨⟨mid, _, _, hal⟩, _⟩ := hsimple _ _ hA
      refine legSum_le (fun u v huv => ?_)
      have hv : v ∈ N.succ u := Sr.same.succ u v ((along_iff _ _).1 hal u v huv)
      show (N3.cost u v).getD _ 0 ≤ _
      have hb : ¬ (u = .source ∧ v = .sink) := by
        rintro ⟨rfl, rfl⟩
        obtain ⟨mid', h1, _, h3, _⟩ := hroute p hp
        rw [h1] at huv hne
        rw [hstops mid' h3] at hne
        cases mid' with
        | nil => simp at hne
        | cons x mid' =>
          obtain ⟨pre, post, hpp⟩ := mem_consecutive_iff.1 huv
          have hnd : (routeOf (x :: mid')).Nodup := h1 ▸ (hsimple _ _ hA).2
          cases pre with
          | nil =>
            simp only [routeOf, List.cons_append, List.nil_append, List.cons.injEq, true_and] at hpp
            have := (h3 x (by simp)).1
            rw [hpp.1] at this
            obtain ⟨n, hn⟩ := this
            cases hn
          | cons y pre =>
            rw [hpp] at hnd
            simp only [routeOf, List.cons_append, List.cons.injEq] at hpp
            rw [← hpp.1] at hnd
            simp at hnd
      exact (hsame _ hk u v hv hb).trans (le_of_eq (Sr.arcCost u v hv _ hk))
    · intro p hp hz
      obtain ⟨mid, h1, h2, h3, h4, k', hk', h5, h6⟩ := hroute p hp
      have hmid : mid = [] := by
        by_contra hne
        exact hz (by simpa [h1, hstops mid h3] using hne)
      rw [h1, hmid]
      show 0 ≤ userArcCost P0 _ .source .sink + 0
      rw [add_zero]
      exact hcost _
  · unfold routesWithCustomers
    rw [List.length_map]
    exact List.length_filter_le _ _

/-- A solution of the user's problem is a plan for the network that is searched, and not dearer there. -/
theorem searched_plan_of {F : Nat → List Node → Prop} {A : Nat → List Node → Prop} {P0 P' : Vrp} {K : Nat} {N N3 : Net} (Sr : Searched P0 P' K N N3)
    (hsimple : ∀ k r, A k r → IsSimpleRoute N3 r)
    (hadm : ∀ k < K, ∀ mid, (∀ v ∈ mid, (∃ n, v = .cust n) ∧ v ∈ P0.G.nodes) → mid.Nodup → mid ≠ [] →
      Along (UserArc P0.G) (routeOf mid) → F k (routeOf mid) → A k (routeOf mid))
    (hsame : ∀ k < K, ∀ u v, v ∈ N.succ u → ¬ (u = .source ∧ v = .sink) → (N3.cost u v).getD k 0 ≤ (N.cost u v).getD k 0)
    (hcost : ∀ k, 0 ≤ userArcCost P0 k .source .sink)
    (hfl : userFleet P0.numVehicles ≠ [] → K ≤ (userFleet P0.numVehicles).length) {S : Solution} (hS : PlanFor P0 K F S)
    (hused : P0.useAllVehicles = true → ∀ p ∈ S.routes, stops p.2 ≠ []) :
    ValidPlan N3 (userFleet P0.numVehicles) P0.useAllVehicles S.dropped (routesWithCustomers S) ∧ (∀ e ∈ routesWithCustomers S, e.1 < K) ∧
      (∀ e ∈ routesWithCustomers S, A e.1 e.2) ∧
      planCost N3 (routesWithCustomers S) ≤ (userCosts P0 S).sum ∧ (routesWithCustomers S).length ≤ S.routes.length ∧
      (∀ v ∈ S.dropped, v ∈ N3.customers) ∧ (N3.customers.filter (fun v => v ∈ S.dropped)).length ≤ S.dropped.length := by
  obtain ⟨hplan, hcust, hcount, hsum, hlen⟩ := searched_routes_of Sr hsimple hadm hsame hcost hS.routes
  have hroute : ∀ p ∈ S.routes, ∃ k, dget S.types p.1 = some k := by
    rintro ⟨i, r⟩ hp
    obtain ⟨_, _, _, _, _, k, _, h, _⟩ := hS.routes i r hp
    exact ⟨k, h⟩
  refine ⟨⟨?_, ?_, ?_, ?_, ?_⟩, fun e he => (hplan e he).1, fun e he => (hplan e he).2, ?_, ?_, ?_, ?_⟩
  · exact fun e he => (hsimple _ _ (hplan e he).2).1
  · intro v hv
    rw [List.mem_filter, hcust] at hv
    obtain ⟨⟨⟨n, rfl⟩, hn⟩, hd⟩ := hv
    rw [hcount, hS.once n hn (by simpa using hd)]
  · intro v hv e he
    obtain ⟨p, hp, rfl⟩ := List.mem_map.1 he
    exact (hS.dropped v hv).2.2 p.1 p.2 (List.mem_filter.1 hp).1
  · intro k n hk
    have hleft : ((routesWithCustomers S).filter (fun e => e.1 = k)).length =
        S.routes.countP (fun p => decide (dget S.types p.1 = some k) && decide (stops p.2 ≠ [])) := by
      unfold routesWithCustomers
      rw [List.filter_map, List.length_map, List.filter_filter, ← List.countP_eq_length_filter]
      refine List.countP_congr ?_
      intro p hp
      obtain ⟨k', h5⟩ := hroute p hp
      simp only [Function.comp, h5, Option.getD_some, Bool.and_eq_true, decide_eq_true_eq, Option.some.injEq]
    rw [hleft]
    refine ⟨?_, fun h => ?_⟩
    · refine le_trans ?_ (hS.fleet k n hk).1
      rw [← List.countP_eq_length_filter]
      refine List.countP_mono_left ?_
      intro p hp hh
      simp only [Bool.and_eq_true] at hh
      exact hh.1
    · rw [← (hS.fleet k n hk).2 h, ← List.countP_eq_length_filter]
      refine List.countP_congr ?_
      intro p hp
      simp only [Bool.and_eq_true, decide_eq_true_eq]
      exact ⟨fun h => h.1, fun h' => ⟨h', hused h p hp⟩⟩
  · intro hne e he
    exact lt_of_lt_of_le (hplan e he).1 (hfl hne)
  · exact hsum
  · exact hlen
  · intro v hv
    exact (hcust v).2 ⟨(hS.dropped v hv).1, (hS.dropped v hv).2.1⟩
  · refine List.Subperm.length_le (List.subperm_of_subset ?_ ?_)
    · exact (List.Nodup.filter _ Sr.wfSearch.nodes_nodup).filter _
    · intro v hv
      simpa using (List.mem_filter.1 hv).2

/-- A diving phase records no value (vrp.py:615). -/
theorem Solve.Trace.bounds_dive {cfg : SolveCfg} {env : Env} {st st' : SolveState} {n : Nat} (hinv : Solve.Inv st)
    (ht : Solve.Trace cfg env true st n st') : st'.bounds = st.bounds := by
  induction ht with
  | zero => rfl
  | @snoc n a b h1 h2 h3 h4 ih =>
    obtain ⟨d, cost, st1, hh, st2, st3, e1, e2, e3, e4⟩ := Solve.findColumns_inv h4
    obtain ⟨i1, _⟩ := Solve.Trace.pool (Q := fun _ => True) hinv (fun _ _ _ _ _ _ _ _ => Solve.PriceOk.true) h1
    obtain ⟨m1, m2, m3, m4, m5, _⟩ := Solve.solveMaster_step e1
    obtain ⟨n1, n2, n3, n4, _⟩ := Solve.nextStrategy_step e2
    obtain ⟨_, _, _, _, _, _, _, _, c9, _⟩ := Solve.count_step e4
    have hinv2 : Solve.Inv st2 := by
      unfold Solve.Inv
      rw [n1, n2, m1, m2]
      exact i1
    obtain ⟨_, _, v3, _⟩ := Solve.vehicleLoop_step (Q := fun _ => True) Solve.PriceOk.true (Or.inr fun _ => trivial)
      (fun k hk => List.mem_range.1 hk) hinv2 e3
    rw [c9, if_pos rfl, v3.bounds, n4, m5, ih]

/-- The search was not given up for want of progress (vrp.py:542): the counter is not above 1000. With diving the
counter at the end is that of the diving phase, and it is enough that there were at most 1000 iterations. -/
def Spec.NotStagnant (a : SolveArgs) (o : Obj) : Prop :=
  a.dive = false ∧ o.noImprovement ≤ 1000 ∨ o.iteration ≤ 1000

/-- The end of column generation with a fixed strategy in a first `solve()` that returns. -/
theorem generation_of_run {w : World} {a : SolveArgs} {fuel : Nat} {P0 P' : Vrp} {o o' : Obj} (hstrat : a.strategy ≠ "Hyper")
    (hc : Obj.create P0 = .ok o)
    (h : Obj.columnGeneration w a fuel P' o = .ok (some o')) (hno : Spec.NotStagnant a o')
    (hiter : a.maxIter = 0 ∨ o'.iteration < a.maxIter) :
    ∃ rs cols m stc, P'.initialize P'.G.toNet w.cw fuel = .ok (some ({ P' with initialRoutes := rs }, cols)) ∧
      Solve.Numbered cols ∧ PricingMode.ofName a.strategy = .fixed m ∧
      Solve.columnGeneration (({ P' with initialRoutes := rs } : Vrp).solveCfg a w.falsy) w.toEnv false fuel
        (o.start a ({ P' with initialRoutes := rs } : Vrp) cols) = .ok (some stc) ∧
      Solve.limitReached (({ P' with initialRoutes := rs } : Vrp).solveCfg a w.falsy) stc = false ∧
      o'.P.vehicleTypes = P'.vehicleTypes ∧ o'.bounds = stc.bounds := by
  unfold Obj.columnGeneration at h
  cases h1 : P'.initialize P'.G.toNet w.cw fuel with
  | error e => simp [h1] at h
  | ok x =>
  cases x with
  | none => simp [h1] at h
  | some x =>
  obtain ⟨P'', cols⟩ := x
  simp only [h1] at h
  obtain ⟨hnum, rs, rfl⟩ : Solve.Numbered cols ∧ ∃ rs, P'' = { P' with initialRoutes := rs } := by
    unfold Vrp.initialize at h1
    cases hch : P'.chooseInitial P'.G.toNet w.cw fuel with
    | error e => simp [hch] at h1
    | ok x =>
      cases x with
      | none => simp [hch] at h1
      | some rs =>
        simp only [hch] at h1
        cases hcv : convertRoutes P'.G.toNet (capacities P'.loadCapacity.toList) rs with
        | error e => simp [hcv] at h1
        | ok cols' =>
          simp only [hcv, Except.ok.injEq, Option.some.injEq, Prod.mk.injEq] at h1
          obtain ⟨rfl, rfl⟩ := h1
          exact ⟨Solve.C33_initial hcv, rs, rfl⟩
  split at h
  · cases h
  split at h
  · cases h
  · cases h
  rename_i st f hrun
  split at h
  · cases h
  rename_i o1 hpost
  simp only [Except.ok.injEq, Option.some.injEq] at h
  subst h
  unfold Obj.postProcess at hpost
  simp only [py_bind_ok] at hpost
  obtain ⟨dropped, hdrop, rt, hrt, sch, _, hpost⟩ := hpost
  simp only [pure, Except.pure, Except.ok.injEq] at hpost
  subst hpost
  unfold Solve.run at hrun
  cases hcg : Solve.columnGeneration (({ P' with initialRoutes := rs } : Vrp).solveCfg a w.falsy) w.toEnv false fuel
      (o.start a ({ P' with initialRoutes := rs } : Vrp) cols) with
  | error e => simp [hcg] at hrun
  | ok x =>
  cases x with
  | none => simp [hcg] at hrun
  | some stc =>
  obtain ⟨m, hm⟩ : ∃ m, PricingMode.ofName a.strategy = .fixed m := by
    unfold PricingMode.ofName
    rw [if_neg hstrat]
    split
    · exact ⟨_, rfl⟩
    · split
      · exact ⟨_, rfl⟩
      · split
        · exact ⟨_, rfl⟩
        · exact ⟨_, rfl⟩
  have hinv0 : Solve.Inv (o.start a ({ P' with initialRoutes := rs } : Vrp) cols) := ⟨hnum, rfl⟩
  obtain ⟨n1, _, ht1, _⟩ := Solve.columnGeneration_trace hcg
  have hinv1 : Solve.Inv stc :=
    (Solve.Trace.pool (Q := fun _ => True) hinv0 (fun _ _ _ _ _ _ _ _ => Solve.PriceOk.true) ht1).1
  have hsame : stc.bounds = st.bounds ∧ stc.iteration ≤ st.iteration ∧
      (a.dive = false → st.noImprovement = stc.noImprovement) := by
    cases hdv : a.dive with
    | false =>
      simp only [hcg, hdv, Bool.false_eq_true, if_false] at hrun
      cases hmip : Solve.solveMIP (({ P' with initialRoutes := rs } : Vrp).solveCfg a w.falsy) w.toEnv o.graphs stc with
      | error e => simp [hmip] at hrun
      | ok r =>
      simp only [hmip, Except.ok.injEq, Option.some.injEq] at hrun
      subst hrun
      unfold Solve.solveMIP at hmip
      split at hmip
      · simp only at hmip
        split at hmip
        · cases hmip
          exact ⟨rfl, Nat.le_refl _, fun _ => rfl⟩
        · cases hmip
      · cases hmip
        exact ⟨rfl, Nat.le_refl _, fun _ => rfl⟩
    | true =>
      simp only [hcg, hdv, if_true] at hrun
      cases hcg2 : Solve.columnGeneration (({ P' with initialRoutes := rs } : Vrp).solveCfg a w.falsy) w.toEnv true fuel
          { stc with more := true } with
      | error e => simp [hcg2] at hrun
      | ok y =>
      cases y with
      | none => simp [hcg2] at hrun
      | some st2 =>
      simp only [hcg2] at hrun
      obtain ⟨n2, _, ht2, _⟩ := Solve.columnGeneration_trace hcg2
      have hb := Solve.Trace.bounds_dive (st := { stc with more := true }) hinv1 ht2
      have hi := Solve.Trace.iteration (st := { stc with more := true }) ht2 hinv1
      simp only [Except.ok.injEq, Option.some.injEq, Prod.mk.injEq] at hrun
      obtain ⟨rfl, _⟩ := hrun
      exact ⟨hb.symm, by rw [hi]; exact Nat.le_add_right _ _, fun h => by cases h⟩
  have hcount : stc.noImprovement ≤ stc.iteration := by
    obtain ⟨G, _, rfl⟩ := create_ok hc
    have hit := Solve.Trace.iteration ht1 hinv0
    have hst := Solve.Trace.bounds (m := m) hm hinv0 rfl rfl ht1
    rcases Nat.eq_zero_or_pos n1 with rfl | hn
    · cases ht1
      exact Nat.le_refl _
    · obtain ⟨pre, b, hpre', _⟩ := hst.2 (Nat.pos_iff_ne_zero.1 hn)
      have := hst.1
      rw [hpre'] at this
      simp only [List.length_append, List.length_replicate] at this
      have h0 : stc.iteration = n1 := by rw [hit]; exact Nat.zero_add _
      omega
  refine ⟨rs, cols, m, stc, rfl, hnum, hm, hcg, (by
      have h1 : stc.noImprovement ≤ 1000 := by
        rcases hno with ⟨hd, hno⟩ | hno
        · rw [← hsame.2.2 hd]; exact hno
        · exact Nat.le_trans hcount (Nat.le_trans hsame.2.1 hno)
      have h2 : a.maxIter = 0 ∨ stc.iteration < a.maxIter := hiter.imp id (Nat.lt_of_le_of_lt hsame.2.1)
      unfold Solve.limitReached
      simp only [Vrp.solveCfg, Bool.or_eq_false_iff, decide_eq_false_iff_not, not_lt, Bool.and_eq_false_iff, not_not,
        ge_iff_le, not_le, gt_iff_lt]
      exact ⟨h1, h2.imp (fun h => by simp [h]) id⟩), rfl, hsame.1.symm⟩

/-- A first `solve()` with a fixed strategy that returns: the network that was searched, and the end of column generation. -/
theorem generation_of_solve {w : World} {a : SolveArgs} {fuel : Nat} {P0 : Vrp} {o o' : Obj} (hwf : P0.G.WF)
    (hcust : ∃ n, Node.cust n ∈ P0.G.nodes) (hdoc : CostsAsDocumented P0)
    (hdem : ∀ v ∈ P0.G.nodes, P0.pickupDelivery = false ∨ v = .source ∨ v = .sink → 0 ≤ userDemand P0.G v)
    (hpre : a.preassignments = [])
    (hheur : a.heuristicOnly = false) (hstrat : a.strategy ≠ "Hyper")
    (hc : Obj.create P0 = .ok o)
    (h : o.solve w a fuel = .ok (some o')) (hno : Spec.NotStagnant a o')
    (hiter : a.maxIter = 0 ∨ o'.iteration < a.maxIter) :
    ∃ P' rs cols K N N3 m stc, o.P.startSolve w.dist a.strategy a.cspy a.initialRoutes a.preassignments = .ok P' ∧
      P'.initialize P'.G.toNet w.cw fuel = .ok (some ({ P' with initialRoutes := rs }, cols)) ∧ Searched P0 P' K N N3 ∧
      Reported P0 P' [] K N ∧ UserData P0 P' N ∧ Solve.Numbered cols ∧ PricingMode.ofName a.strategy = .fixed m ∧
      Solve.columnGeneration (({ P' with initialRoutes := rs } : Vrp).solveCfg a w.falsy) w.toEnv false fuel
        (o.start a ({ P' with initialRoutes := rs } : Vrp) cols) = .ok (some stc) ∧
      Solve.limitReached (({ P' with initialRoutes := rs } : Vrp).solveCfg a w.falsy) stc = false ∧
      o'.P.vehicleTypes = some K ∧ o'.bounds = stc.bounds := by
  unfold Obj.solve at h
  split at h
  · cases h
  rename_i P' hstart
  rw [hheur] at h
  simp only [Bool.false_eq_true, if_false] at h
  obtain ⟨K, N, N3, R, S⟩ := searched_reported (w := w) hwf hcust hdoc hdem hpre hc hstart
  have U := userData_of (w := w) hwf (fun hpd v hv => hdem v hv (Or.inl hpd)) hpre hc hstart S.reports
  obtain ⟨rs, cols, m, stc, h1, hnum, hm, hcg, hlim, hvt, hbs⟩ := generation_of_run hstrat hc h hno hiter
  exact ⟨P', rs, cols, K, N, N3, m, stc, hstart, h1, S, R, U, hnum, hm, hcg, hlim, hvt.trans S.types, hbs⟩

/-- The lower bound of a first `solve()` with a fixed strategy, if column generation (`hgen`) ends with on, up to a
tolerance for each route. -/
theorem bound_of_generation_for {w : World} {a : SolveArgs} {fuel : Nat} {P0 : Vrp} {o o' : Obj}
    {tol : List Node → ℚ} {F : Nat → List Node → Prop} {A : Vrp → Net → Nat → List Node → Prop} (hwf : P0.G.WF)
    (hcust : ∃ n, Node.cust n ∈ P0.G.nodes) (hdoc : CostsAsDocumented P0)
    (hdem : ∀ v ∈ P0.G.nodes, P0.pickupDelivery = false ∨ v = .source ∨ v = .sink → 0 ≤ userDemand P0.G v)
    (hsimple : ∀ P' N3 k r, A P' N3 k r → IsSimpleRoute N3 r)
    (hadm : ∀ P' K N N3, Searched P0 P' K N N3 → Reported P0 P' [] K N → UserData P0 P' N → ∀ k < K, ∀ mid,
      (∀ v ∈ mid, (∃ n, v = .cust n) ∧ v ∈ P0.G.nodes) → mid.Nodup → mid ≠ [] →
      Along (UserArc P0.G) (routeOf mid) → F k (routeOf mid) → A P' N3 k (routeOf mid))
    (hcost : ∀ k, 0 ≤ userArcCost P0 k .source .sink) (hpen : 0 ≤ P0.dropPenalty)
    (hpre : a.preassignments = [])
    (hheur : a.heuristicOnly = false) (hstrat : a.strategy ≠ "Hyper")
    (hc : Obj.create P0 = .ok o)
    (hgen : ∀ P' rs cols K N N3 m stc, o.P.startSolve w.dist a.strategy a.cspy a.initialRoutes a.preassignments = .ok P' →
      P'.initialize P'.G.toNet w.cw fuel = .ok (some ({ P' with initialRoutes := rs }, cols)) → Searched P0 P' K N N3 →
      UserData P0 P' N →
      Solve.Numbered cols → PricingMode.ofName a.strategy = .fixed m →
      Solve.columnGeneration (({ P' with initialRoutes := rs } : Vrp).solveCfg a w.falsy) w.toEnv false fuel
        (o.start a ({ P' with initialRoutes := rs } : Vrp) cols) = .ok (some stc) →
      Solve.limitReached (({ P' with initialRoutes := rs } : Vrp).solveCfg a w.falsy) stc = false →
      ∃ bound, stc.bounds.getLast? = some bound ∧
        ∀ (P : Plan) (dropped : List Node) (ε : ℚ), ValidPlan N3 (userFleet P0.numVehicles) P0.useAllVehicles dropped P →
          (∀ v ∈ dropped, v ∈ ({ P' with initialRoutes := rs } : Vrp).master.drops) → (∀ e ∈ P, e.1 < K) →
          (∀ e ∈ P, A P' N3 e.1 e.2) → (∀ e ∈ P, tol e.2 ≤ ε) →
          bound ≤ planCost N3 P + P0.dropPenalty * (N3.customers.filter (fun v => v ∈ dropped)).length + ε * P.length)
    (h : o.solve w a fuel = .ok (some o')) (hno : Spec.NotStagnant a o')
    (hiter : a.maxIter = 0 ∨ o'.iteration < a.maxIter) :
    ∃ K bound, o'.P.vehicleTypes = some K ∧ o'.bounds.getLast? = some bound ∧ ∀ S ε, PlanFor P0 K F S →
      (P0.useAllVehicles = true → ∀ p ∈ S.routes, stops p.2 ≠ []) → 0 ≤ ε →
      (∀ e ∈ S.routes, tol e.2 ≤ ε) →
      bound ≤ (userCosts P0 S).sum + P0.dropPenalty * S.dropped.length + ε * S.routes.length := by
  obtain ⟨P', rs, cols, K, N, N3, m, stc, hstart, h1, S, R, U, hnum, hm, hcg, hlim, hK, hbs⟩ :=
    generation_of_solve hwf hcust hdoc hdem hpre hheur hstrat hc h hno hiter
  have hN3 : P'.G.toNet = N3 := by rw [S.graph]; rfl
  obtain ⟨f1, f2, f3, f4, f5, f6, f7, f8, f9, f10, f11⟩ := S.fields
  obtain ⟨bound, hb, hbound⟩ := hgen P' rs cols K N N3 m stc hstart h1 S U hnum hm hcg hlim
  refine ⟨K, bound, hK, by rw [hbs]; exact hb, ?_⟩
  intro Sol ε hSol hused hε htol
  obtain ⟨p1, p2, p3, p4, p5, p6, p7⟩ := searched_plan_of S (hsimple P' N3) (hadm P' K N N3 S R U)
    (searched_costs (w := w) hc hpre hstart S R) hcost (fleet_types (w := w) hc hstart S.types) hSol hused
  have hMG : (({ P' with initialRoutes := rs } : Vrp).solveCfg a w.falsy).M.G = N3 := hN3
  have hMp : (({ P' with initialRoutes := rs } : Vrp).solveCfg a w.falsy).M.dropPenalty = P0.dropPenalty := f5
  have := hbound (routesWithCustomers Sol) Sol.dropped ε p1
    (by
      intro v hv
      unfold Master.drops
      rw [show ({ P' with initialRoutes := rs } : Vrp).master.dropPenalty = P0.dropPenalty from hMp,
        show ({ P' with initialRoutes := rs } : Vrp).master.G = N3 from hMG]
      by_cases h0 : P0.dropPenalty = 0
      · rw [hSol.penalty h0] at hv
        cases hv
      · simp only [h0, if_false]
        exact p6 v hv)
    p2 p3
    (by
      intro e he
      obtain ⟨x, hx, rfl⟩ := List.mem_map.1 he
      exact htol x (List.mem_filter.1 hx).1)
  have q1 : P0.dropPenalty * ((N3.customers.filter (fun v => v ∈ Sol.dropped)).length : ℚ) ≤
      P0.dropPenalty * (Sol.dropped.length : ℚ) := mul_le_mul_of_nonneg_left (by exact_mod_cast p7) hpen
  have q2 : ((routesWithCustomers Sol).length : ℚ) ≤ Sol.routes.length := by exact_mod_cast p5
  have q3 := mul_le_mul_of_nonneg_left q2 hε
  linarith

/-- The lower bound of a first `solve()` with a fixed strategy, if column generation (`hgen`) ends with on, up to a
tolerance for each route. -/
theorem bound_of_generation_upTo {w : World} {a : SolveArgs} {fuel : Nat} {P0 : Vrp} {o o' : Obj}
    {tol : List Node → ℚ} (hP : Deliveries P0)
    (hcost : ∀ k, 0 ≤ userArcCost P0 k .source .sink) (hpen : 0 ≤ P0.dropPenalty)
    (hpre : a.preassignments = [])
    (hheur : a.heuristicOnly = false) (hstrat : a.strategy ≠ "Hyper")
    (hc : Obj.create P0 = .ok o)
    (hgen : ∀ P' rs cols K N N3 m stc, o.P.startSolve w.dist a.strategy a.cspy a.initialRoutes a.preassignments = .ok P' →
      P'.initialize P'.G.toNet w.cw fuel = .ok (some ({ P' with initialRoutes := rs }, cols)) → Searched P0 P' K N N3 →
      UserData P0 P' N →
      Solve.Numbered cols → PricingMode.ofName a.strategy = .fixed m →
      Solve.columnGeneration (({ P' with initialRoutes := rs } : Vrp).solveCfg a w.falsy) w.toEnv false fuel
        (o.start a ({ P' with initialRoutes := rs } : Vrp) cols) = .ok (some stc) →
      Solve.limitReached (({ P' with initialRoutes := rs } : Vrp).solveCfg a w.falsy) stc = false →
      ∃ bound, stc.bounds.getLast? = some bound ∧
        ∀ (P : Plan) (dropped : List Node) (ε : ℚ), ValidPlan N3 (userFleet P0.numVehicles) P0.useAllVehicles dropped P →
          (∀ v ∈ dropped, v ∈ ({ P' with initialRoutes := rs } : Vrp).master.drops) → (∀ e ∈ P, e.1 < K) →
          (∀ e ∈ P, Allowed P0 P' N3 e.1 e.2) → (∀ e ∈ P, tol e.2 ≤ ε) →
          bound ≤ planCost N3 P + P0.dropPenalty * (N3.customers.filter (fun v => v ∈ dropped)).length + ε * P.length)
    (h : o.solve w a fuel = .ok (some o')) (hno : Spec.NotStagnant a o')
    (hiter : a.maxIter = 0 ∨ o'.iteration < a.maxIter) :
    ∃ K bound, o'.P.vehicleTypes = some K ∧ o'.bounds.getLast? = some bound ∧ ∀ S ε, SolvesWithin P0 K S →
      (P0.useAllVehicles = true → ∀ p ∈ S.routes, stops p.2 ≠ []) → 0 ≤ ε →
      (∀ e ∈ S.routes, tol e.2 ≤ ε) →
      bound ≤ (userCosts P0 S).sum + P0.dropPenalty * S.dropped.length + ε * S.routes.length := by
  refine bound_of_generation_for (A := fun P' N3 => Allowed P0 P' N3) hP.wf hP.customer hP.costs (fun v hv _ => hP.demand v hv)
    (fun _ _ _ _ h => h.admissible.simple) ?_ hcost hpen hpre hheur hstrat hc hgen h hno hiter
  rintro P' K N N3 S R U k _ mid hmid hnd hne hal ⟨mid', h1, h2⟩
  have : mid' = mid := by simpa [routeOf] using h1.symm
  subst this
  exact S.admissible R U hP.toDeliveryData hmid hnd hne hal h2

/-- The lower bound of a first `solve()` with a fixed strategy, if column generation (`hgen`) ends with one. -/
theorem bound_of_generation {w : World} {a : SolveArgs} {fuel : Nat} {P0 : Vrp} {o o' : Obj} (hP : Deliveries P0)
    (hcost : ∀ k, 0 ≤ userArcCost P0 k .source .sink) (hpen : 0 ≤ P0.dropPenalty)
    (hpre : a.preassignments = [])
    (hheur : a.heuristicOnly = false) (hstrat : a.strategy ≠ "Hyper")
    (hc : Obj.create P0 = .ok o)
    (hgen : ∀ P' rs cols K N N3 m stc, o.P.startSolve w.dist a.strategy a.cspy a.initialRoutes a.preassignments = .ok P' →
      P'.initialize P'.G.toNet w.cw fuel = .ok (some ({ P' with initialRoutes := rs }, cols)) → Searched P0 P' K N N3 →
      UserData P0 P' N →
      Solve.Numbered cols → PricingMode.ofName a.strategy = .fixed m →
      Solve.columnGeneration (({ P' with initialRoutes := rs } : Vrp).solveCfg a w.falsy) w.toEnv false fuel
        (o.start a ({ P' with initialRoutes := rs } : Vrp) cols) = .ok (some stc) →
      Solve.limitReached (({ P' with initialRoutes := rs } : Vrp).solveCfg a w.falsy) stc = false →
      ∃ bound, stc.bounds.getLast? = some bound ∧
        ∀ (P : Plan) (dropped : List Node), ValidPlan N3 (userFleet P0.numVehicles) P0.useAllVehicles dropped P →
          (∀ v ∈ dropped, v ∈ ({ P' with initialRoutes := rs } : Vrp).master.drops) → (∀ e ∈ P, e.1 < K) →
          (∀ e ∈ P, Allowed P0 P' N3 e.1 e.2) →
          bound ≤ planCost N3 P + P0.dropPenalty * (N3.customers.filter (fun v => v ∈ dropped)).length + 1 / 1000 * P.length)
    (h : o.solve w a fuel = .ok (some o')) (hno : Spec.NotStagnant a o')
    (hiter : a.maxIter = 0 ∨ o'.iteration < a.maxIter) :
    ∃ K bound, o'.P.vehicleTypes = some K ∧ o'.bounds.getLast? = some bound ∧ ∀ S, SolvesWithin P0 K S →
      (P0.useAllVehicles = true → ∀ p ∈ S.routes, stops p.2 ≠ []) →
      bound ≤ (userCosts P0 S).sum + P0.dropPenalty * S.dropped.length + 1 / 1000 * S.routes.length := by
  refine (bound_of_generation_for (tol := fun _ => 1 / 1000) (A := fun P' N3 => Allowed P0 P' N3) hP.wf hP.customer hP.costs
    (fun v hv _ => hP.demand v hv) (fun _ _ _ _ h => h.admissible.simple) ?_ hcost hpen hpre hheur hstrat hc ?_
    h hno hiter).imp (fun K => Exists.imp (fun bound hh => ⟨hh.1, hh.2.1, fun S hS hused =>
      hh.2.2 S _ hS hused (by norm_num) (fun _ _ => le_refl _)⟩))
  · rintro P' K N N3 S R U k _ mid hmid hnd hne hal ⟨mid', h1, h2⟩
    have : mid' = mid := by simpa [routeOf] using h1.symm
    subst this
    exact S.admissible R U hP.toDeliveryData hmid hnd hne hal h2
  · intro P' rs cols K N N3 m stc g1 g2 g3 g4 g5 g6 g7 g8
    obtain ⟨bound, hb, hbound⟩ := hgen P' rs cols K N N3 m stc g1 g2 g3 g4 g5 g6 g7 g8
    refine ⟨bound, hb, ?_⟩
    intro P dropped ε p1 p2 p3 p4 p5
    refine (hbound P dropped p1 p2 p3 p4).trans ?_
    cases P with
    | nil => simp
    | cons e P => exact add_le_add_right (mul_le_mul_of_nonneg_right (p5 e (by simp)) (by positivity)) _

/-- Windows for which the constants of the time constraints in the pricing problem are large enough: no node opens before 0; every
customer can be visited alone on time; a vehicle that leaves as late as possible without a customer is back before Sink
closes, and so is one that reaches a customer as late as possible, or the customer needs no service; driving from one
customer to the next takes no longer than via the depot. -/
structure Spec.WindowsWide (P : Vrp) : Prop where
  opening : ∀ v ∈ P.G.nodes, 0 ≤ userLower P.G v
  alone : ∀ n, Node.cust n ∈ P.G.nodes → UserOnTime P.G (routeOf [.cust n])
  day : userUpper P.G .sink ≠ 0 → userUpper P.G .source + userTime P.G .source .sink ≤ userUpper P.G .sink
  forth : 0 ≤ userTime P.G .source .sink
  back : ∀ n, Node.cust n ∈ P.G.nodes → userUpper P.G .sink ≠ 0 → userService P.G (.cust n) = 0 ∨
    userUpper P.G (.cust n) + userService P.G (.cust n) + userTime P.G (.cust n) .sink ≤ userUpper P.G .sink
  through : ∀ m n, Node.cust n ∈ P.G.succ (.cust m) →
    userTime P.G (.cust m) (.cust n) ≤ userTime P.G (.cust m) .sink + userTime P.G .source (.cust n)

/-- Then the constants are large enough. -/
theorem Searched.windowsFit {P0 P' : Vrp} {K : Nat} {N N3 : Net} (S : Searched P0 P' K N N3) (U : UserData P0 P' N)
    (hcustomer : ∃ n, Node.cust n ∈ P0.G.nodes)
    (hsv : (P0.G.nd .source).serviceTime.getD 0 = 0 ∧ (P0.G.nd .sink).serviceTime.getD 0 = 0) (hT : TimesMakeSense P0)
    (htw : P0.timeWindows = true) (hfirst : P0.G.nodes.head? = some .source) (hW : WindowsWide P0) :
    WindowsFit N3 := by
  obtain ⟨w1, w2, _⟩ := S.windows htw hfirst
  obtain ⟨hs1, hs2⟩ := S.serviceDepots hsv.1 hsv.2
  have hsrc : Node.source ∉ N.customers := source_not_customer N
  have hsnk : Node.sink ∉ N.customers := sink_not_customer N
  have hlow : ∀ v ∈ N.nodes, 0 ≤ N.lower v := by
    intro v hv
    rw [U.lower v hv]
    exact hW.opening v (by rw [← S.userNodes]; exact hv)
  have halone : ∀ n, Node.cust n ∈ N.nodes →
      N.lower .source + N.time .source (.cust n) ≤ N.upper (.cust n) ∧ N.lower (.cust n) ≤ N.upper (.cust n) ∧
      N.lower .source + N.time .source (.cust n) + N.service (.cust n) + N.time (.cust n) .sink ≤ N.upper .sink ∧
      N.lower (.cust n) + N.service (.cust n) + N.time (.cust n) .sink ≤ N.upper .sink ∧ N.lower .sink ≤ N.upper .sink := by
    intro n hn
    have hr : IsRoute N (routeOf [.cust n]) :=
      ⟨[.cust n], rfl, by simpa using hn, by
        refine ⟨(S.connected n hn).1, (S.connected n hn).2, trivial⟩⟩
    have hon := onTime_searched S U hT hr (hW.alone n (by rw [← S.userNodes]; exact hn))
    have h1 := hon (.cust n, max (N.lower .source + N.service .source + N.time .source (.cust n)) (N.lower (.cust n)))
      (by simp [arrivalsFrom])
    have h2 := hon (.sink, max (max (N.lower .source + N.service .source + N.time .source (.cust n)) (N.lower (.cust n)) +
      N.service (.cust n) + N.time (.cust n) .sink) (N.lower .sink)) (by simp [arrivalsFrom])
    rw [hs1] at h1 h2
    simp only [max_le_iff, add_zero] at h1 h2
    have h3 := le_max_left (N.lower .source + N.time .source (.cust n)) (N.lower (.cust n))
    have h4 := le_max_right (N.lower .source + N.time .source (.cust n)) (N.lower (.cust n))
    refine ⟨h1.1, h1.2, by linarith [h2.1], by linarith [h2.1], h2.2⟩
  have hcust : ∀ v ∈ N.customers, ∃ n, v = .cust n ∧ Node.cust n ∈ N.nodes := by
    intro v hv
    obtain ⟨h1, h2, h3⟩ := mem_customers.1 hv
    cases v with
    | source => exact absurd rfl h2
    | sink => exact absurd rfl h3
    | cust n => exact ⟨n, rfl, h1⟩
  have hback : ∀ n, Node.cust n ∈ N.nodes →
      (strengthened N).upper (.cust n) + N.service (.cust n) + N.time (.cust n) .sink ≤ N.upper .sink := by
    intro n hn
    have hc : Node.cust n ∈ N.customers := mem_customers.2 ⟨hn, by simp, by simp⟩
    simp only [strengthened, hc, if_true]
    have h1 := min_le_left (N.upper (.cust n)) (N.upper .sink - N.time (.cust n) .sink)
    have h2 := min_le_right (N.upper (.cust n)) (N.upper .sink - N.time (.cust n) .sink)
    by_cases h0 : userUpper P0.G .sink = 0
    · have := U.upperSinkSet h0 (.cust n) _ (S.connected n hn).2 le_rfl
      linarith
    · rcases hW.back n (by rw [← S.userNodes]; exact hn) h0 with h | h
      · have : N.service (.cust n) = 0 := by rw [S.service _ hn]; exact h
        linarith
      · have e1 : N.upper (.cust n) = userUpper P0.G (.cust n) := U.upper _ hn (by simp)
        have e2 : N.service (.cust n) = userService P0.G (.cust n) := S.service _ hn
        have e3 : N.time (.cust n) .sink = userTime P0.G (.cust n) .sink := S.time _ _ (S.connected n hn).2
        have e4 : N.upper .sink = userUpper P0.G .sink := U.upperSink h0
        rw [← e1, ← e2, ← e3, ← e4] at h
        linarith
  have hmem3 : ∀ v, v ∈ N3.nodes ↔ v ∈ N.nodes := fun v => by rw [S.nodes]
  obtain ⟨n0, hn0⟩ := hcustomer
  rw [← S.userNodes] at hn0
  refine ⟨?_, ?_, ?_⟩
  · intro v hv
    rw [w1]
    exact (hlow v ((hmem3 v).1 hv)).trans (lower_le_strengthened N v).1
  · intro v hv
    rw [hmem3] at hv
    rw [w1, w2]
    cases v with
    | source =>
      simp only [strengthened, hsrc, if_false]
      rw [U.lower _ S.wf.source_mem, U.upper _ S.wf.source_mem (by simp)]
      exact hT.start
    | sink =>
      simp only [strengthened, hsnk, if_false]
      exact (halone n0 hn0).2.2.2.2
    | cust n =>
      have hc : Node.cust n ∈ N.customers := mem_customers.2 ⟨hv, by simp, by simp⟩
      obtain ⟨a1, a2, a3, a4, _⟩ := halone n hv
      have hsv : 0 ≤ N.service (.cust n) := by
        rw [S.service _ hv]
        exact hT.service _ (by rw [← S.userNodes]; exact hv)
      simp only [strengthened, hc, if_true, max_le_iff, le_min_iff]
      exact ⟨⟨a2, a1⟩, by linarith, by linarith⟩
  · intro u v hv
    have hvN : v ∈ N.succ u := S.same.succ u v hv
    obtain ⟨hu', hv'⟩ := S.wf.edge_mem u v hvN
    rw [w1, w2, S.same.service, S.same.time]
    have hupS : (strengthened N).upper .sink = N.upper .sink := by simp [strengthened, hsnk]
    rw [hupS]
    have hlv : ∀ n, v = .cust n → N.lower .source + N.time .source v ≤ (strengthened N).lower v := by
      rintro n rfl
      have hc : Node.cust n ∈ N.customers := mem_customers.2 ⟨hv', by simp, by simp⟩
      simp only [strengthened, hc, if_true]
      exact le_max_right _ _
    have hls := hlow _ S.wf.source_mem
    have hlk : 0 ≤ (strengthened N).lower .sink := (hlow _ S.wf.sink_mem).trans (lower_le_strengthened N _).1
    cases u with
    | sink => exact absurd hvN (by rw [S.wf.no_out_of_sink]; simp)
    | source =>
      have hup : N.upper .source + N.time .source .sink ≤ N.upper .sink := by
        by_cases h0 : userUpper P0.G .sink = 0
        · have := U.upperSinkSet h0 .source _ S.direct le_rfl
          rw [hs1] at this
          linarith
        · have e1 : N.upper .source = userUpper P0.G .source := U.upper _ S.wf.source_mem (by simp)
          have e2 : N.upper .sink = userUpper P0.G .sink := U.upperSink h0
          have e3 : N.time .source .sink = userTime P0.G .source .sink := S.time _ _ S.direct
          rw [e1, e2, e3]
          exact hW.day h0
      have hus : (strengthened N).upper .source = N.upper .source := by simp [strengthened, hsrc]
      rw [hus, hs1]
      have e3 : N.time .source .sink = userTime P0.G .source .sink := S.time _ _ S.direct
      have hf := hW.forth
      rw [← e3] at hf
      cases v with
      | source => exact absurd hvN (by intro h; exact S.wf.no_into_source _ h)
      | sink => linarith
      | cust n =>
        have := hlv n rfl
        linarith
    | cust m =>
      have hb := hback m hu'
      cases v with
      | source => exact absurd hvN (by intro h; exact S.wf.no_into_source _ h)
      | sink => linarith
      | cust n =>
        have h1 := hlv n rfl
        have harc : Node.cust n ∈ P0.G.succ (.cust m) := by
          rcases S.userArcs _ _ hvN with h | ⟨h, _⟩ | ⟨h, _⟩ | ⟨h, _⟩
          · exact h
          · cases h
          · cases h
          · cases h
        have h2 := hW.through m n harc
        have e1 : N.time (.cust m) (.cust n) = userTime P0.G (.cust m) (.cust n) := S.time _ _ hvN
        have e2 : N.time (.cust m) .sink = userTime P0.G (.cust m) .sink := S.time _ _ (S.connected m hu').2
        have e3 : N.time .source (.cust n) = userTime P0.G .source (.cust n) := S.time _ _ (S.connected n hv').1
        rw [← e1, ← e2, ← e3] at h2
        linarith

/-- The end of column generation with LP pricing: the last value is a lower bound for all plans for the network that is searched. -/
theorem lp_generation {w : World} {a : SolveArgs} {fuel : Nat} {P0 P' : Vrp} {o : Obj} {rs : List (List Node)} {cols : List Column}
    {K : Nat} {N N3 : Net} {m : Heur} {stc : SolveState}
    (hexact : ∀ t, SolverExact (w.pricing t)) (hP : Deliveries P0)
    (hwide : P0.timeWindows = true → P0.G.nodes.head? = some .source ∧ WindowsWide P0)
    (hspan : P0.minimizeGlobalSpan = false) (hcspy : a.cspy = false) (S : Searched P0 P' K N N3) (U : UserData P0 P' N)
    (hnum : Solve.Numbered cols) (hm : PricingMode.ofName a.strategy = .fixed m)
    (hd : ∀ n stm, Solve.Trace (({ P' with initialRoutes := rs } : Vrp).solveCfg a w.falsy) w.toEnv false
        (o.start a ({ P' with initialRoutes := rs } : Vrp) cols) n stm →
      (w.master stm.tick (({ P' with initialRoutes := rs } : Vrp).master.lp stm.mcols true)).optimal = true →
      DualsOk ({ P' with initialRoutes := rs } : Vrp).master stm.mcols
        (w.master stm.tick (({ P' with initialRoutes := rs } : Vrp).master.lp stm.mcols true)))
    (hcg : Solve.columnGeneration (({ P' with initialRoutes := rs } : Vrp).solveCfg a w.falsy) w.toEnv false fuel
        (o.start a ({ P' with initialRoutes := rs } : Vrp) cols) = .ok (some stc))
    (hlim : Solve.limitReached (({ P' with initialRoutes := rs } : Vrp).solveCfg a w.falsy) stc = false)
    (htime : ∀ t, w.timeUp t = false) :
    ∃ bound, stc.bounds.getLast? = some bound ∧
      ∀ (P : Plan) (dropped : List Node), ValidPlan N3 (userFleet P0.numVehicles) P0.useAllVehicles dropped P →
        (∀ v ∈ dropped, v ∈ ({ P' with initialRoutes := rs } : Vrp).master.drops) → (∀ e ∈ P, e.1 < K) →
        (∀ e ∈ P, Allowed P0 P' N3 e.1 e.2) →
        bound ≤ planCost N3 P + P0.dropPenalty * (N3.customers.filter (fun v => v ∈ dropped)).length + 1 / 1000 * P.length := by
  have hN3 : P'.G.toNet = N3 := by rw [S.graph]; rfl
  obtain ⟨f1, f2, f3, f4, f5, f6, f7, f8, f9, f10, f11⟩ := S.fields
  have hK : (({ P' with initialRoutes := rs } : Vrp).solveCfg a w.falsy).K = K := by
    show P'.vehicleTypes.getD 0 = K
    rw [S.types]
    rfl
  obtain ⟨bound, hb, hbound⟩ := Solve.C34_lower_bound_partial (cfg := ({ P' with initialRoutes := rs } : Vrp).solveCfg a w.falsy)
    (env := w.toEnv) (m := m) (st := o.start a ({ P' with initialRoutes := rs } : Vrp) cols) hnum rfl f10 hm
    (by show WellFormed P'.G.toNet; rw [hN3]; exact S.wfSearch)
    (by show P'.G.toNet.demand .source = 0; rw [hN3, S.same.demand]; exact S.demandDepots.1)
    (by
      show P'.G.toNet.service .sink = 0
      rw [hN3, S.same.service]
      exact (S.serviceDepots hP.service.1 hP.service.2).2)
    hcspy (fun ht => by
      have ht : P'.timeWindows = true := ht
      rw [f2] at ht
      show WindowsFit P'.G.toNet
      rw [hN3]
      exact S.windowsFit U hP.customer hP.service (hP.times ht) ht (hwide ht).1 (hwide ht).2)
    (f9.trans hspan)
    (by
      show decide (P'.periodic.getD 0 ≠ 0) = false
      rw [f7, hP.periodic]
      rfl)
    hexact hd hcg hlim (htime _)
  have hMG : (({ P' with initialRoutes := rs } : Vrp).solveCfg a w.falsy).M.G = N3 := hN3
  have hMf : (({ P' with initialRoutes := rs } : Vrp).solveCfg a w.falsy).M.numVehicles = userFleet P0.numVehicles :=
    S.fleet hP.periodic
  have hMu : (({ P' with initialRoutes := rs } : Vrp).solveCfg a w.falsy).M.useAllVehicles = P0.useAllVehicles := f8
  have hMp : (({ P' with initialRoutes := rs } : Vrp).solveCfg a w.falsy).M.dropPenalty = P0.dropPenalty := f5
  refine ⟨bound, hb, ?_⟩
  intro P dropped p1 p6 p2 p3
  have := hbound P dropped (by rw [hMG, hMf, hMu]; exact p1) p6 (by rw [hK]; exact p2)
    (by
      intro e he
      have hadm := (p3 e he).admissible
      have e1 : (({ P' with initialRoutes := rs } : Vrp).solveCfg a w.falsy).caps = userCapacities P0.loadCapacity := S.caps
      have e2 : (({ P' with initialRoutes := rs } : Vrp).solveCfg a w.falsy).duration = P0.duration.limit := by
        show P'.duration.limit = _
        rw [f11]
      have e3 : (({ P' with initialRoutes := rs } : Vrp).solveCfg a w.falsy).timeWindows = P0.timeWindows := f2
      have e4 : (({ P' with initialRoutes := rs } : Vrp).solveCfg a w.falsy).pickupDelivery = false := f3.trans hP.pickupDelivery
      have e5 : (({ P' with initialRoutes := rs } : Vrp).solveCfg a w.falsy).distributionCollection = P0.distributionCollection := f4
      have hlims : limitsOf (({ P' with initialRoutes := rs } : Vrp).solveCfg a w.falsy) e.1 =
          { searchLimits P0 P' N3 e.1 with distributionCollection := P0.distributionCollection } := by
        unfold limitsOf
        rw [hMG, e1, e2, e3, e4, e5]
        rfl
      rw [hlims]
      refine ⟨⟨hadm.simple, hadm.nonempty, hadm.stops, hadm.load, hadm.duration, hadm.onTime⟩, fun h => (by cases h), fun h c hc => ?_⟩
      refine ⟨fun v hv => ?_, fun v hv => ?_, (p3 e he).goods h c hc⟩
      · show 0 ≤ N3.demand v
        have hv : v ∈ N.nodes := by rw [← S.nodes]; exact hv
        rw [S.same.demand]
        by_cases hs : v = .source
        · rw [hs, S.demandDepots.1]
        · by_cases ht : v = .sink
          · rw [ht, S.demandDepots.2]
          · rw [S.demand v (mem_customers.2 ⟨hv, hs, ht⟩)]
            exact hP.demand v (by rw [← S.userNodes]; exact hv)
      · show 0 ≤ N3.collect v
        have hv : v ∈ N.nodes := by rw [← S.nodes]; exact hv
        rw [S.same.collect, U.collect v hv]
        exact (hP.collect h v (by rw [← S.userNodes]; exact hv)).1)
  rw [hMG, hMp] at this
  exact this

/-- **C70 (partial).** A first `solve()` with pricing by LP and a fixed strategy that was stopped neither by the clock nor by
a limit on the iterations leaves behind a lower bound: no solution of the user's problem within the limits on stops, load (with
distribution and collection: all the time), duration and (if they are wide enough, `WindowsWide`) time windows is cheaper than the last value of `_lower_bound`, up to
1/1000 for each of its vehicles (if `use_all_vehicles` is set, a solution has to use each vehicle for a customer).  What the solver is
trusted for: exact answers to pricing problems, dual values of the masters on the way that are feasible and prove their
value (`DualsOk`).  For pickup and delivery see
`C70_requests_partial`.  What is missing: cspy (`C70_cspy_partial`) and the hyper-heuristic, for which it is false, narrow
windows, the global span, preassigned routes (for those see `C70_locked_partial`), a negative cost for
staying at the depot; for periodic problems see `C70_periodic_partial`. -/
theorem C70_lower_bound_partial {w : World} {a : SolveArgs} {fuel : Nat} {P0 : Vrp} {o o' : Obj}
    (hexact : ∀ t, SolverExact (w.pricing t)) (hP : Deliveries P0)
    (hwide : P0.timeWindows = true → P0.G.nodes.head? = some .source ∧ WindowsWide P0)
    (hcost : ∀ k, 0 ≤ userArcCost P0 k .source .sink) (hpen : 0 ≤ P0.dropPenalty)
    (hspan : P0.minimizeGlobalSpan = false) (hpre : a.preassignments = [])
    (hheur : a.heuristicOnly = false) (hcspy : a.cspy = false) (hstrat : a.strategy ≠ "Hyper")
    (hc : Obj.create P0 = .ok o)
    (hduals : ∀ P' P'' fuel cols m stm, o.P.startSolve w.dist a.strategy a.cspy a.initialRoutes a.preassignments = .ok P' →
      P'.initialize P'.G.toNet w.cw fuel = .ok (some (P'', cols)) →
      Solve.Trace (P''.solveCfg a w.falsy) w.toEnv false (o.start a P'' cols) m stm →
      (w.master stm.tick (P''.master.lp stm.mcols true)).optimal = true →
      DualsOk P''.master stm.mcols (w.master stm.tick (P''.master.lp stm.mcols true)))
    (h : o.solve w a fuel = .ok (some o')) (hno : Spec.NotStagnant a o')
    (hiter : a.maxIter = 0 ∨ o'.iteration < a.maxIter) (htime : ∀ t, w.timeUp t = false) :
    ∃ K bound, o'.P.vehicleTypes = some K ∧ o'.bounds.getLast? = some bound ∧ ∀ S, SolvesWithin P0 K S →
      (P0.useAllVehicles = true → ∀ p ∈ S.routes, stops p.2 ≠ []) →
      bound ≤ (userCosts P0 S).sum + P0.dropPenalty * S.dropped.length + 1 / 1000 * S.routes.length := by
  refine bound_of_generation hP hcost hpen hpre hheur hstrat hc ?_ h hno hiter
  intro P' rs cols K N N3 m stc hstart h1 S U hnum hm hcg hlim
  exact lp_generation hexact hP hwide hspan hcspy S U hnum hm (fun n stm => hduals P' _ fuel cols n stm hstart h1) hcg hlim htime

/-- **C70 (partial), the gap.** Under the conditions of `C55_lp_partial` and `C70_lower_bound_partial`: the reported
`best_value` exceeds the cost of no solution by more than its distance from the last lower bound and 1/1000 per vehicle. -/
theorem C70_gap_partial {w : World} {a : SolveArgs} {fuel : Nat} {P0 : Vrp} {o o' : Obj} (hw : LpWorldOk PositiveCycles w)
    (hP : Capacitated P0) (hD : NonnegativeData P0) (hpen : 0 ≤ P0.dropPenalty)
    (hopt : OptionDuals w.toEnv P0) (hspan : P0.minimizeGlobalSpan = false) (hpre : a.preassignments = [])
    (hdive : a.dive = false) (hheur : a.heuristicOnly = false) (hcspy : a.cspy = false) (hstrat : a.strategy ≠ "Hyper")
    (hinit : ∀ r ∈ a.initialRoutes, r.Nodup ∧ WithinStops P0.numStops.stops (stops r).length)
    (hc : Obj.create P0 = .ok o)
    (hduals : ∀ P' P'' fuel cols m stm, o.P.startSolve w.dist a.strategy a.cspy a.initialRoutes a.preassignments = .ok P' →
      P'.initialize P'.G.toNet w.cw fuel = .ok (some (P'', cols)) →
      Solve.Trace (P''.solveCfg a w.falsy) w.toEnv false (o.start a P'' cols) m stm →
      (w.master stm.tick (P''.master.lp stm.mcols true)).optimal = true →
      DualsOk P''.master stm.mcols (w.master stm.tick (P''.master.lp stm.mcols true)))
    (h : o.solve w a fuel = .ok (some o')) (hno : o'.noImprovement ≤ 1000)
    (hiter : a.maxIter = 0 ∨ o'.iteration < a.maxIter) (htime : ∀ t, w.timeUp t = false) :
    ∃ K N bound v, o'.P.vehicleTypes = some K ∧ o'.P.H = some N ∧ o'.bounds.getLast? = some bound ∧
      bestValue N false P0.dropPenalty o'.solution = .ok v ∧
      ∀ S, SolvesWithin P0 K S → (P0.useAllVehicles = true → ∀ p ∈ S.routes, stops p.2 ≠ []) → v ≤
        (userCosts P0 S).sum + P0.dropPenalty * S.dropped.length + (v - bound) + 1 / 1000 * S.routes.length := by
  obtain ⟨_, N, _, hN, _, hv, _⟩ := C55_lp_partial hw hP hD hopt hpre hdive hheur hcspy hinit hc h
  obtain ⟨K, bound, hK, hb, hS⟩ := C70_lower_bound_partial hw.exact hP.deliveries
    (fun h => (by rw [hP.timeWindows] at h; cases h)) hD.stay hpen hspan hpre hheur hcspy hstrat hc
    hduals h (Or.inl ⟨hdive, hno⟩) hiter htime
  refine ⟨K, N, bound, _, hK, hN, hb, hv hspan, ?_⟩
  intro S hSol hused
  have := hS S hSol hused
  linarith

end Vrpy
