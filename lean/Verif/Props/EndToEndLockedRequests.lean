import Verif.Props.EndToEndLockedDive

/-!
# C68: pickup and delivery
-/

namespace Vrpy

open Spec

/-- The complete preassigned routes serve requests as a whole: if one end of a request is on such a route, so is the other (maybe
on another route). -/
def Spec.RequestsWhole (P : Vrp) (Q : List (List Node)) : Prop :=
  ∀ v w, Request P v w → ((∃ p ∈ Q, Complete p ∧ v ∈ p) ↔ ∃ p ∈ Q, Complete p ∧ w ∈ p)

theorem request_without {P : Vrp} {L : List Node} {v w : Node} :
    Request (withoutNodes P L) v w ↔ Request P v w ∧ v ∉ L := by
  constructor
  · rintro ⟨h1, h2⟩
    obtain ⟨h3, h4⟩ := without_nodes.1 h1
    exact ⟨⟨h3, h2⟩, h4⟩
  · rintro ⟨⟨h1, h2⟩, h3⟩
    exact ⟨without_nodes.2 ⟨h1, h3⟩, h2⟩

theorem without_requestsData {P : Vrp} {L : List Node} (h : RequestsData P)
    (hfree : ∃ n, Node.cust n ∈ P.G.nodes ∧ Node.cust n ∉ L) (hs : Node.source ∉ L)
    (hwhole : ∀ v w, Request P v w → (v ∈ L ↔ w ∈ L)) : RequestsData (withoutNodes P L) where
  wf := without_wf h.wf
  costs := without_costs h.costs
  depots := fun v hv => h.depots v (without_nodes.1 hv).1
  service := h.service
  customer := by
    obtain ⟨n, h1, h2⟩ := hfree
    exact ⟨n, without_nodes.2 ⟨h1, h2⟩⟩
  ends := by
    intro v w hvw
    obtain ⟨h1, h2⟩ := request_without.1 hvw
    obtain ⟨e1, e2, e3, e4⟩ := h.ends v w h1
    exact ⟨e1, e2, without_nodes.2 ⟨e3, fun hw => h2 ((hwhole v w h1).2 hw)⟩, e4⟩
  amounts := fun v w hvw => h.amounts v w (request_without.1 hvw).1
  distinct := fun v v' w h1 h2 => h.distinct v v' w (request_without.1 h1).1 (request_without.1 h2).1
  others := by
    intro n hn h1 h2
    obtain ⟨h3, h4⟩ := without_nodes.1 hn
    refine h.others n h3 h1 (fun u hu => h2 u (request_without.2 ⟨hu, fun huL => h4 ((hwhole u _ hu).1 huL)⟩))
  fits := fun hm v w hvw => h.fits hm v w (request_without.1 hvw).1
  twoStops := h.twoStops
  source := by
    intro htw
    have h1 := h.source htw
    show (P.G.nodes.filter (fun v => decide (v ∉ L))).head? = some .source
    cases hn : P.G.nodes with
    | nil => rw [hn] at h1; cases h1
    | cons x l =>
      rw [hn] at h1
      simp only [List.head?_cons, Option.some.injEq] at h1
      subst h1
      simp [hs]
  windows := fun htw v hv => h.windows htw v (without_nodes.1 hv).1
  pickupDelivery := h.pickupDelivery
  distributionCollection := h.distributionCollection
  oneCapacity := h.oneCapacity

theorem without_requests {P : Vrp} {L : List Node} (h : PickupDelivery P)
    (hfree : ∃ n, Node.cust n ∈ P.G.nodes ∧ Node.cust n ∉ L) (hs : Node.source ∉ L)
    (hwhole : ∀ v w, Request P v w → (v ∈ L ↔ w ∈ L)) : PickupDelivery (withoutNodes P L) :=
  ⟨without_requestsData h.toRequestsData hfree hs hwhole, h.periodic⟩

theorem requestLimits_without {P : Vrp} {L : List Node} {k : Nat} {mid : List Node}
    (hs : Node.source ∉ L) (ht : Node.sink ∉ L) (hwhole : ∀ v w, Request P v w → (v ∈ L ↔ w ∈ L))
    (hm : ∀ v ∈ mid, v ∉ L) (h : RequestLimits (withoutNodes P L) k mid) : RequestLimits P k mid := by
  have hpair : ∀ v w, Request (withoutNodes P L) v w → ∀ x ∈ routeOf [v, w], x ∉ L := by
    intro v w hvw
    obtain ⟨h1, h2⟩ := request_without.1 hvw
    refine routeOf_not_mem hs ht ?_
    intro x hx
    simp only [List.mem_cons, List.not_mem_nil, or_false] at hx
    rcases hx with rfl | rfl
    · exact h2
    · exact fun hw => h2 ((hwhole v x h1).2 hw)
  refine ⟨h.stops, ?_, ?_, h.load, h.empty, ?_, ?_⟩
  · intro v w hvw
    by_cases hv : v ∈ L
    · have hw := (hwhole v w hvw).1 hv
      exact ⟨fun hvm => absurd hv (hm v hvm), fun hwm => absurd hw (hm w hwm)⟩
    · exact h.together v w (request_without.2 ⟨hvw, hv⟩)
  · intro v w hvw hv
    exact h.order v w (request_without.2 ⟨hvw, hm v hv⟩) hv
  · intro htw hot
    refine (userOnTime_without (routeOf_not_mem hs ht hm)).1 (h.windows htw ?_)
    intro v w hvw
    rcases hot v w (request_without.1 hvw).1 with h0 | h0
    · exact Or.inl h0
    · exact Or.inr ((userOnTime_without (hpair v w hvw)).2 h0)
  · intro hfit
    rw [← userDuration_without (L := L) (routeOf_not_mem hs ht hm)]
    refine h.duration ?_
    intro v w hvw
    rw [userDuration_without (hpair v w hvw)]
    exact hfit v w (request_without.1 hvw).1

/-- What is asked of initial routes next to preassigned routes: they repeat no node, do not visit customers of complete
preassigned routes, and serve requests within the limits of the user if the vehicle can carry their load. -/
def Spec.RequestsBesideLocked (P : Vrp) (Q : List (List Node)) (R : List (List Node)) : Prop :=
  ∀ r ∈ R, r.Nodup ∧ (∀ n, Node.cust n ∈ r → ∀ p ∈ Q, Complete p → Node.cust n ∉ p) ∧
    ∀ mid k, r = routeOf mid → WithinCapacity (userCapacities P.loadCapacity) k (mid.map (userDemand P.G)).sum →
      RequestLimits P k mid ∧ Within P.duration.limit (userDuration P.G (routeOf mid)) ∧
      (P.timeWindows = true → UserOnTime P.G (routeOf mid))

theorem requests_initial_without {P0 : Vrp} {Q R : List (List Node)}
    (hd : Node.source ∉ lockedNodes Q ∧ Node.sink ∉ lockedNodes Q)
    (h : RequestsBesideLocked P0 Q R) : ∀ r ∈ R, r.Nodup ∧ ∀ mid k, r = routeOf mid →
      WithinCapacity (userCapacities P0.loadCapacity) k (mid.map (userDemand P0.G)).sum →
        RequestLimits (withoutNodes P0 (lockedNodes Q)) k mid := by
  intro r hr
  obtain ⟨h1, h2, h3⟩ := h r hr
  refine ⟨h1, fun mid k he hcap => ?_⟩
  obtain ⟨l1, l2, l3⟩ := h3 mid k he hcap
  have hm : ∀ v ∈ mid, v ∉ lockedNodes Q := by
    intro v hv
    cases v with
    | source => exact hd.1
    | sink => exact hd.2
    | cust n =>
      rw [mem_lockedNodes]
      rintro ⟨p, hp, hc, hn⟩
      exact h2 n (by rw [he]; simp [routeOf, hv]) p hp hc hn
  have hr' := routeOf_not_mem hd.1 hd.2 hm
  refine ⟨l1.stops, fun v w hvw => l1.together v w (request_without.1 hvw).1,
    fun v w hvw => l1.order v w (request_without.1 hvw).1, l1.load, l1.empty,
    fun htw _ => (userOnTime_without hr').2 (l3 htw), fun _ => ?_⟩
  rw [userDuration_without hr']
  exact l2

theorem whole_locked {P : Vrp} {Q : List (List Node)} (hP : RequestsData P) (h : RequestsWhole P Q) :
    ∀ v w, Request P v w → (v ∈ lockedNodes Q ↔ w ∈ lockedNodes Q) := by
  intro v w hvw
  obtain ⟨⟨n, rfl⟩, ⟨m, rfl⟩, _, _⟩ := hP.ends v w hvw
  rw [mem_lockedNodes, mem_lockedNodes]
  exact h _ _ hvw

/-- Requests are dropped as a whole, if routes serve them as a whole and what is on no route is dropped. -/
theorem whole_dropped {P : Vrp} {Q : List (List Node)} {S : Solution} {free : List (Nat × List Node)} (hP : PickupDelivery P)
    (hwhole : RequestsWhole P Q)
    (hdropped : ∀ n, Node.cust n ∈ S.dropped → (∀ p ∈ Q, Complete p → Node.cust n ∉ p) ∧ ∀ i r, (i, r) ∈ free → Node.cust n ∉ r)
    (hfree : ∀ n, Node.cust n ∈ P.G.nodes → (∀ p ∈ Q, Complete p → Node.cust n ∉ p) → Node.cust n ∉ S.dropped →
      ∃ i r, (i, r) ∈ free ∧ Node.cust n ∈ r)
    (htogether : ∀ i r, (i, r) ∈ free → ∀ n m, Request P (.cust n) (.cust m) → (Node.cust n ∈ r ↔ Node.cust m ∈ r)) :
    ∀ v w, Request P v w → (v ∈ S.dropped ↔ w ∈ S.dropped) := by
  intro v w hvw
  obtain ⟨⟨n, rfl⟩, ⟨m, rfl⟩, hm, _⟩ := hP.ends v w hvw
  have hw := hwhole _ _ hvw
  constructor
  · intro hd
    by_contra hnd
    obtain ⟨d1, d2⟩ := hdropped n hd
    obtain ⟨i, r, hir, hmr⟩ := hfree m hm (fun p hp hc hmp => by
      obtain ⟨p', h1, h2, h3⟩ := hw.2 ⟨p, hp, hc, hmp⟩
      exact d1 p' h1 h2 h3) hnd
    exact d2 i r hir ((htogether i r hir n m hvw).2 hmr)
  · intro hd
    by_contra hnd
    obtain ⟨d1, d2⟩ := hdropped m hd
    obtain ⟨i, r, hir, hnr⟩ := hfree n hvw.1 (fun p hp hc hnp => by
      obtain ⟨p', h1, h2, h3⟩ := hw.1 ⟨p, hp, hc, hnp⟩
      exact d1 p' h1 h2 h3) hnd
    exact d2 i r hir ((htogether i r hir n m hvw).1 hnr)

/-- **C68 (partial), pickup and delivery.** As `C68_plan_partial`, for pickup and delivery (with or without time windows), if the
preassigned routes serve requests as a whole: the routes found serve requests within the limits of the user, every customer
that is not preassigned is on exactly one of them unless dropped, requests are dropped as a whole.  Nothing is said about
how preassigned routes serve requests, for which only the sum of the demands is checked
(`C68_order_counterexample`).  What is missing: as there. -/
theorem C68_requests_partial {w : World} {a : SolveArgs} {fuel : Nat} {P0 : Vrp} {o o' : Obj} (hw : LpSound w)
    (hP : PickupDelivery P0) (hdive : a.dive = false) (hheur : a.heuristicOnly = false)
    (hfree : SomeCustomerFree P0 a.preassignments) (hwhole : RequestsWhole P0 a.preassignments)
    (hinit : RequestsBesideLocked P0 a.preassignments a.initialRoutes)
    (hc : Obj.create P0 = .ok o) (h : o.solve w a fuel = .ok (some o')) :
    ∃ K N free locked, (P0.mixedFleet = false → K = 1) ∧ o'.P.H = some N ∧
      PlanWithLocked P0 a.preassignments K (fun k r => ∃ mid, r = routeOf mid ∧ RequestLimits P0 k mid) o'.solution free locked ∧
      (∀ v w, Request P0 v w → (v ∈ o'.solution.dropped ↔ w ∈ o'.solution.dropped)) ∧
      ValueWithLocked P0 a.preassignments K N o'.solution := by
  unfold Obj.solve at h
  split at h
  · cases h
  rename_i P' hstart
  rw [hheur] at h
  simp only [Bool.false_eq_true, if_false] at h
  have hcspy := startSolve_no_cspy (w := w) hc hP.pickupDelivery hstart
  obtain ⟨K, N, N3, R, S⟩ := searched_locked (w := w) hP.wf hP.customer hP.costs (fun v hv hd => by
    rcases hd with hd | hd
    · rw [hP.pickupDelivery] at hd
      cases hd
    · exact hP.depots v hv hd) hc hstart
  have U := userData_locked (w := w) hP.wf (fun hf => by rw [hP.pickupDelivery] at hf; cases hf) hc hstart R.reports
  have hwl := whole_locked hP.toRequestsData hwhole
  have hP' := without_requests hP (free_nodes hfree) R.depots.1 hwl
  have hold : o.solution.dropped = [] := by
    obtain ⟨G, _, rfl⟩ := create_ok hc
    rfl
  obtain ⟨r1, ⟨free, locked, r2⟩, r3⟩ := locked_plan
    (F := fun k r => ∃ mid, r = routeOf mid ∧ RequestLimits (withoutNodes P0 (lockedNodes a.preassignments)) k mid)
    (F' := fun k r => ∃ mid, r = routeOf mid ∧ RequestLimits P0 k mid)
    R hfree
    (by
      rintro k mid hm ⟨mid', he, hl⟩
      have : mid = mid' := by
        simp only [routeOf, List.cons.injEq, true_and] at he
        exact List.append_cancel_right he
      subst this
      exact ⟨mid, rfl, requestLimits_without R.depots.1 R.depots.2 hwl (fun v hv => (hm v hv).2.2) hl⟩)
    (fun o1 ho1 => (plan_of_columns hP'.customer hP'.periodic S hw.master hw.path
      (fun P'' cols h1 => initial_requests hP'.toRequestsData S U (by
        show ∀ r ∈ P'.initialRoutes, _
        rw [startSolve_initial hc hstart]
        exact requests_initial_without R.depots hinit) h1) hdive (fun _ => hold)
      (fun rs _ d _ _ _ _ _ => price_requests hw hP'.toRequestsData S U hcspy rs d) ho1).2.1) h
  refine ⟨K, N, free, locked, S.typesOne, r1, r2, ?_, r3⟩
  refine whole_dropped (free := free) hP hwhole ?_ ?_ ?_
  · intro n hn
    obtain ⟨_, _, d3⟩ := r2.dropped _ hn
    refine ⟨fun p hp hc hnp => ?_, fun i r hir => d3 i r (by rw [r2.all]; exact List.mem_append_left _ hir)⟩
    have hv : p ∈ locked.map Prod.snd := by
      rw [r2.verbatim]
      exact List.mem_filter.2 ⟨hp, by simpa [Complete] using hc⟩
    obtain ⟨⟨i, r⟩, hir, rfl⟩ := List.mem_map.1 hv
    exact d3 i r (by rw [r2.all]; exact List.mem_append_right _ hir) hnp
  · intro n hn hno hnd
    have := r2.once n hn hno hnd
    by_contra hcon
    push Not at hcon
    rw [List.sum_eq_zero] at this
    · cases this
    · intro x hx
      obtain ⟨⟨i, r⟩, hir, rfl⟩ := List.mem_map.1 hx
      exact List.count_eq_zero.2 (hcon i r hir)
  · intro i r hir n m hnm
    obtain ⟨_, _, _, _, _, k, _, _, mid, rfl, hl⟩ := r2.routes i r hir
    have := hl.together _ _ hnm
    simpa [routeOf] using this

/-- **C68 (partial), pickup and delivery, diving.** As `C68_requests_partial`, with `dive=True`: every customer that is not preassigned
is on a route found or dropped.  What is missing: as there, and a customer may be on two routes (`C53_run_counterexample`). -/
theorem C68_dive_requests_partial {w : World} {a : SolveArgs} {fuel : Nat} {P0 : Vrp} {o o' : Obj} (hw : LpSound w)
    (hd : DiveOk w.toEnv) (hP : PickupDelivery P0) (hdive : a.dive = true) (hheur : a.heuristicOnly = false)
    (hfree : SomeCustomerFree P0 a.preassignments) (hwhole : RequestsWhole P0 a.preassignments)
    (hinit : RequestsBesideLocked P0 a.preassignments a.initialRoutes)
    (hc : Obj.create P0 = .ok o) (h : o.solve w a fuel = .ok (some o')) :
    ∃ K N free locked, (P0.mixedFleet = false → K = 1) ∧ o'.P.H = some N ∧
      CoverWithLocked P0 a.preassignments K (fun k r => ∃ mid, r = routeOf mid ∧ RequestLimits P0 k mid) o'.solution free locked ∧
      ValueWithLocked P0 a.preassignments K N o'.solution := by
  unfold Obj.solve at h
  split at h
  · cases h
  rename_i P' hstart
  rw [hheur] at h
  simp only [Bool.false_eq_true, if_false] at h
  have hcspy := startSolve_no_cspy (w := w) hc hP.pickupDelivery hstart
  obtain ⟨K, N, N3, R, S⟩ := searched_locked (w := w) hP.wf hP.customer hP.costs (fun v hv hd => by
    rcases hd with hd | hd
    · rw [hP.pickupDelivery] at hd
      cases hd
    · exact hP.depots v hv hd) hc hstart
  have U := userData_locked (w := w) hP.wf (fun hf => by rw [hP.pickupDelivery] at hf; cases hf) hc hstart R.reports
  have hwl := whole_locked hP.toRequestsData hwhole
  have hP' := without_requests hP (free_nodes hfree) R.depots.1 hwl
  have hold : o.solution.dropped = [] := by
    obtain ⟨G, _, rfl⟩ := create_ok hc
    rfl
  obtain ⟨r1, ⟨free, locked, r2⟩, r3⟩ := locked_cover
    (F := fun k r => ∃ mid, r = routeOf mid ∧ RequestLimits (withoutNodes P0 (lockedNodes a.preassignments)) k mid)
    (F' := fun k r => ∃ mid, r = routeOf mid ∧ RequestLimits P0 k mid)
    R hfree
    (by
      rintro k mid hm ⟨mid', he, hl⟩
      have : mid = mid' := by
        simp only [routeOf, List.cons.injEq, true_and] at he
        exact List.append_cancel_right he
      subst this
      exact ⟨mid, rfl, requestLimits_without R.depots.1 R.depots.2 hwl (fun v hv => (hm v hv).2.2) hl⟩)
    (fun o1 ho1 => (cover_of_columns hP'.periodic S hd hw.master (fun hf => by rw [hcspy] at hf; cases hf) hw.path
      (fun P'' cols h1 => initial_requests hP'.toRequestsData S U (by
        show ∀ r ∈ P'.initialRoutes, _
        rw [startSolve_initial hc hstart]
        exact requests_initial_without R.depots hinit) h1) hdive (fun _ => hold)
      (fun rs _ _ d _ _ _ _ => price_requests hw hP'.toRequestsData S U hcspy rs d) ho1).2.1) h
  exact ⟨K, N, free, locked, S.typesOne, r1, r2, r3⟩

/-! ## Examples -/

/-- The request from 2 to 4 is preassigned; the trip for the other is all there is to find. -/
example : LpSound exWorld6 ∧ PickupDelivery exRequests ∧
    SomeCustomerFree exRequests [routeOf [.cust 2, .cust 4]] ∧ RequestsWhole exRequests [routeOf [.cust 2, .cust 4]] ∧
    RequestsBesideLocked exRequests [routeOf [.cust 2, .cust 4]] [] ∧
    planOf exWorld6 { cspy := false, preassignments := [routeOf [.cust 2, .cust 4]] } 5 exRequests =
      .ok (some ⟨[(1, routeOf [.cust 1, .cust 3]), (2, routeOf [.cust 2, .cust 4])], [(1, 0), (2, 0)], []⟩) := by
  refine ⟨lpWorld_ok _ _ _, exRequests_ok, ⟨1, by decide, ?_⟩, ?_, fun r hr => (by cases hr),
    Solve.eq_ok_of_toOption (by decide +kernel)⟩
  · intro p hp _
    simp only [List.mem_cons, List.not_mem_nil, or_false] at hp
    subst hp
    decide
  · intro v w hvw
    simp only [List.mem_cons, List.not_mem_nil, or_false, exists_eq_left]
    rcases exRequests_request hvw with ⟨rfl, rfl⟩ | ⟨rfl, rfl⟩
    · simp [routeOf]
    · simp [routeOf]

/-- The same with diving. -/
example : let w := diveWorld [choosing [1]] (fun _ _ => 0) []
    LpSound w ∧ DiveOk w.toEnv ∧
    planOf w { cspy := false, dive := true, preassignments := [routeOf [.cust 2, .cust 4]] } 5 exRequests =
      .ok (some ⟨[(1, routeOf [.cust 1, .cust 3]), (2, routeOf [.cust 2, .cust 4])], [(1, 0), (2, 0)], []⟩) :=
  ⟨diveWorld_lp _ _ _, diveWorld_dive _ _ _, Solve.eq_ok_of_toOption (by decide +kernel)⟩

/-! ## Counterexamples -/

/-- Two requests as in `exRequests`; one can also go to the delivery 4 first. -/
def looseRequests : Vrp :=
  { exRequests with
    G := { exRequests.G with
      succ := fun u => match u with
        | .source => [.cust 1, .cust 2, .cust 4]
        | .cust 1 => [.cust 3]
        | .cust 2 => [.cust 4, .sink]
        | .cust 3 => [.sink]
        | .cust 4 => [.cust 2, .sink]
        | _ => [] } }

/-- **C68**, counterexample: a preassigned route may visit the delivery before the pickup; the vehicle then carries -3. -/
theorem C68_order_counterexample :
    planOf exWorld6 { cspy := false, preassignments := [routeOf [.cust 4, .cust 2]] } 5 looseRequests =
      .ok (some ⟨[(1, routeOf [.cust 1, .cust 3]), (2, routeOf [.cust 4, .cust 2])], [(1, 0), (2, 0)], []⟩) ∧
    Request looseRequests (.cust 2) (.cust 4) ∧ ¬ RequestLimits looseRequests 0 [.cust 4, .cust 2] := by
  refine ⟨Solve.eq_ok_of_toOption (by decide +kernel), ⟨by decide, rfl⟩, ?_⟩
  intro h
  exact absurd (h.order (.cust 2) (.cust 4) ⟨by decide, rfl⟩ (by decide)) (by decide)

/-- **C68**, counterexample: if only the delivery of a request is preassigned, `solve()` raises an error (with time
windows, that they do not permit the request). -/
theorem C68_lone_delivery_counterexample :
    planOf exWorld6 { cspy := false, preassignments := [routeOf [.cust 4]] } 5 looseRequests = .error .valueError :=
  eq_error_of_raised (by decide +kernel)

end Vrpy
