import Verif.Props.TimeChecksCases
import Verif.Props.EndToEndLockedPeriodic

/-!
# C67: the checks and preassigned routes
-/

namespace Vrpy

open Spec

/-! ## Complete preassigned routes: the checks always raise -/

theorem locked_reported {w : World} {a : SolveArgs} {fuel : Nat} {P' : Vrp} {o o' : Obj}
    (h : Obj.columnGeneration w a fuel P' o = .ok (some o')) :
    (∃ rs, o'.P = { P' with initialRoutes := rs }) ∧
      ∀ r ∈ P'.preassignments, isComplete r = true → ∃ i, (i, r) ∈ o'.solution.routes := by
  unfold Obj.columnGeneration at h
  split at h
  · cases h
  · cases h
  rename_i P'' cols h1
  have hP'' : ∃ rs, P'' = { P' with initialRoutes := rs } := by
    unfold Vrp.initialize at h1
    split at h1
    · cases h1
    · cases h1
    rename_i rs _
    split at h1
    · cases h1
    simp only [Except.ok.injEq, Option.some.injEq, Prod.mk.injEq] at h1
    exact ⟨rs, h1.1.symm⟩
  split at h
  · cases h
  split at h
  · cases h
  · cases h
  rename_i st f _
  split at h
  · cases h
  rename_i o2 hpost
  simp only [Except.ok.injEq, Option.some.injEq] at h
  subst h
  unfold Obj.postProcess at hpost
  simp only [py_bind_ok] at hpost
  obtain ⟨_, _, rt, hrt, _, _, hfin⟩ := hpost
  cases hfin
  obtain ⟨rs, rfl⟩ := hP''
  refine ⟨⟨rs, rfl⟩, fun r hr hcr => ?_⟩
  unfold bestRoutesAsNodeLists at hrt
  split at hrt
  · cases hrt
  rename_i s hs
  simp only [Except.ok.injEq] at hrt
  have hM := merged_all hs
  have hr' : r ∈ f.graphs.map w.path ++ P'.preassignments.filter isComplete :=
    List.mem_append_right _ (List.mem_filter.2 ⟨hr, hcr⟩)
  rw [← hrt]
  show ∃ i, (i, r) ∈ s.1
  rw [hM.routes]
  obtain ⟨j, hj, hjr⟩ := List.mem_iff_getElem.1 hr'
  exact ⟨j + 1, (mem_numbered _ _ _).2 ⟨by omega, by rw [Nat.add_sub_cancel, List.getElem?_eq_getElem hj, hjr]⟩⟩

theorem fold_keys {step : Dict Node ℚ → Node × Node → Py (Dict Node ℚ)}
    (hstep : ∀ d e d', step d e = .ok d' → ∃ t, d' = dset d e.2 t) {es : List (Node × Node)} {d d' : Dict Node ℚ}
    (h : es.foldlM step d = .ok d') :
    (∀ v, (dget d v).isSome → (dget d' v).isSome) ∧ ∀ e ∈ es, (dget d' e.2).isSome := by
  induction es generalizing d with
  | nil =>
    simp only [List.foldlM_nil, pure, Except.pure, Except.ok.injEq] at h
    subst h
    exact ⟨fun _ hv => hv, fun e he => (by cases he)⟩
  | cons x es ih =>
    rw [List.foldlM_cons, py_bind_ok] at h
    obtain ⟨d1, h1, h2⟩ := h
    obtain ⟨t, rfl⟩ := hstep _ _ _ h1
    obtain ⟨k1, k2⟩ := ih h2
    refine ⟨fun v hv => k1 v ?_, ?_⟩
    · rw [dget_dset]
      split
      · rfl
      · exact hv
    · intro e he
      rcases List.mem_cons.1 he with rfl | he
      · exact k1 _ (by rw [dget_dset_self]; rfl)
      · exact k2 e he

theorem mapM_mem {α β : Type} {f : α → Py β} {l : List α} {ys : List β} (h : l.mapM f = .ok ys) {x : α} (hx : x ∈ l) :
    ∃ y ∈ ys, f x = .ok y := by
  have hall := py_mapM_ok.1 h
  clear h
  induction hall with
  | nil => cases hx
  | @cons a b l ys hab _ ih =>
    rcases List.mem_cons.1 hx with rfl | hx
    · exact ⟨b, List.mem_cons_self .., hab⟩
    · obtain ⟨y, h1, h2⟩ := ih hx
      exact ⟨y, List.mem_cons_of_mem _ h1, h2⟩

theorem consecutive_reaches {r : List Node} {v : Node} (h : v ∈ r.tail) : ∃ e ∈ consecutive r, e.2 = v := by
  have h1 := inDeg_consecutive r v
  have h2 : 0 < r.tail.count v := List.count_pos_iff.2 h
  rw [← h1] at h2
  unfold inDeg at h2
  simpa using h2

/-- The checks do not pass if some node on a route is not in the graph any more. -/
theorem checks_missing {H G : Net} {S : Solution} {i : Nat} {r : List Node} {v : Node} (hir : (i, r) ∈ S.routes)
    (hv : v ∈ r.tail) (hG : v ∉ G.nodes) :
    (∀ A, arrivalTime H true S = .ok A → checkArrivalTime G A ≠ .ok ()) ∧
      ∀ D, departureTime H true S = .ok D → checkDepartureTime G D ≠ .ok () := by
  obtain ⟨e, he, rfl⟩ := consecutive_reaches hv
  refine ⟨fun A hA hck => ?_, fun D hD hck => ?_⟩
  · unfold arrivalTime at hA
    obtain ⟨⟨j, d⟩, hd, hx⟩ := mapM_mem (by simpa using hA) hir
    unfold arrivalEntry at hx
    split at hx
    · cases hx
    rename_i d' hroute
    simp only [Except.ok.injEq, Prod.mk.injEq] at hx
    obtain ⟨rfl, rfl⟩ := hx
    have hkeys := (fold_keys (step := arrivalStep H) (fun d e d' h => by
      unfold arrivalStep at h
      split at h
      · cases h
      split at h
      · cases h
      simp only [Except.ok.injEq] at h
      exact ⟨_, h.symm⟩) hroute).2 e he
    obtain ⟨t, ht⟩ := Option.isSome_iff_exists.1 hkeys
    unfold checkArrivalTime at hck
    rw [forM_ok_iff] at hck
    have h1 := hck _ hd
    rw [forM_ok_iff] at h1
    exact hG (guarded_ok.1 (h1 _ (mem_of_dget ht))).1
  · unfold departureTime at hD
    obtain ⟨⟨j, d⟩, hd, hx⟩ := mapM_mem (by simpa using hD) hir
    unfold departureEntry at hx
    split at hx
    · cases hx
    rename_i d' hroute
    simp only [Except.ok.injEq, Prod.mk.injEq] at hx
    obtain ⟨rfl, rfl⟩ := hx
    unfold departureRoute at hroute
    split at hroute
    · cases hroute
    rename_i arr _
    have hkeys := (fold_keys (step := departureStep H arr) (fun d e d' h => by
      unfold departureStep at h
      split at h
      · cases h
      simp only [Except.ok.injEq] at h
      exact ⟨_, h.symm⟩) hroute).2 e he
    obtain ⟨t, ht⟩ := Option.isSome_iff_exists.1 hkeys
    unfold checkDepartureTime at hck
    rw [forM_ok_iff] at hck
    have h1 := hck _ hd
    rw [forM_ok_iff] at h1
    exact hG (guarded_ok.1 (h1 _ (mem_of_dget ht))).1

/-- **C67**, complete preassigned routes.  After any `solve()` with a complete preassigned route that visits a customer, on a problem
with time windows or with a duration, both checks raise an exception: they look up customers that `_lock` has removed from the
graph.  Nothing is assumed about the libraries. -/
theorem C67_locked_raises {w : World} {a : SolveArgs} {fuel : Nat} {P0 : Vrp} {o o' : Obj} (hwf : P0.G.WF)
    (hcust : ∃ n, Node.cust n ∈ P0.G.nodes) (hdoc : CostsAsDocumented P0)
    (hdem : ∀ v ∈ P0.G.nodes, P0.pickupDelivery = false ∨ v = .source ∨ v = .sink → 0 ≤ userDemand P0.G v)
    (htimed : P0.timeWindows = true ∨ P0.duration.truthy = true) (hheur : a.heuristicOnly = false)
    {r : List Node} (hr : r ∈ a.preassignments) (hcr : Complete r) {n : Nat} (hn : Node.cust n ∈ r)
    (hc : Obj.create P0 = .ok o) (h : o.solve w a fuel = .ok (some o')) :
    (∃ e, o'.checkArrivalTime = .error e) ∧ ∃ e, o'.checkDepartureTime = .error e := by
  unfold Obj.solve at h
  split at h
  · cases h
  rename_i P' hstart
  rw [hheur] at h
  simp only [Bool.false_eq_true, if_false] at h
  obtain ⟨K, N, N3, R, S⟩ := searched_locked (w := w) hwf hcust hdoc hdem hc hstart
  obtain ⟨⟨rs, hobj⟩, hrep⟩ := locked_reported h
  obtain ⟨i, hir⟩ := hrep r (by rw [R.preassigned]; exact hr) (by simpa [isComplete, Complete] using hcr)
  have hG : o'.P.G.toNet = N3 := by
    rw [hobj]
    show P'.G.toNet = N3
    have := S.graph
    simp only at this
    rw [this]
    rfl
  have hgone : Node.cust n ∉ N3.nodes := by
    rw [S.nodes, S.userNodes]
    intro hm
    exact (without_nodes.1 hm).2 (mem_lockedNodes.2 ⟨r, hr, hcr, hn⟩)
  have htail : Node.cust n ∈ r.tail := by
    rw [complete_split hcr] at hn ⊢
    simpa [routeOf] using hn
  have ht : o'.timed = true := by
    have h1 : o'.P.timeWindows = P0.timeWindows := by
      rw [hobj]
      exact S.fields.2.1
    have h2 : o'.P.duration = P0.duration := by
      rw [hobj]
      exact S.fields.2.2.2.2.2.2.2.2.2.2
    unfold Obj.timed
    rw [h1, h2, Bool.or_eq_true]
    exact htimed.symm
  obtain ⟨c1, c2⟩ := checks_missing (H := o'.P.H.getD o'.P.G.toNet) (G := N3) hir htail hgone
  refine ⟨?_, ?_⟩
  · unfold Obj.checkArrivalTime
    rw [ht, hG]
    rw [hG] at c1
    split
    · exact ⟨_, rfl⟩
    · rename_i A hA
      cases hck : checkArrivalTime N3 A with
      | error e => exact ⟨e, rfl⟩
      | ok u => exact absurd hck (c1 A hA)
  · unfold Obj.checkDepartureTime
    rw [ht, hG]
    rw [hG] at c2
    split
    · exact ⟨_, rfl⟩
    · rename_i A hA
      cases hck : checkDepartureTime N3 A with
      | error e => exact ⟨e, rfl⟩
      | ok u => exact absurd hck (c2 A hA)

/-! ## Only partial preassigned routes: the checks pass -/

theorem lockedNodes_none {Q : List (List Node)} (h : ∀ p ∈ Q, ¬ Complete p) : lockedNodes Q = [] := by
  have : Q.filter isComplete = [] := by
    rw [List.filter_eq_nil_iff]
    intro p hp hcp
    exact h p hp (by simpa [isComplete, Complete] using hcp)
  rw [lockedNodes, this]
  rfl

theorem withoutNodes_nil (P : Vrp) : withoutNodes P [] = P := by
  simp [withoutNodes, DiGraph.removeNodes]

/-- The checks pass if all preassigned routes are partial and the routes reported are on time for the user. -/
theorem checks_beside {w : World} {a : SolveArgs} {fuel : Nat} {P0 P' : Vrp} {o o' : Obj} {Q : List (List Node)} {K K' : Nat}
    {N N3 : Net} {F : Nat → List Node → Prop} {free locked : List (Nat × List Node)} (R : Reported P0 P' Q K N)
    (S : Searched (withoutNodes P0 (lockedNodes Q))
      { P' with
        H := some (N.removeNodes (lockedNodes Q))
        preassignments := []
        moreRoutes := true } K (N.removeNodes (lockedNodes Q)) N3)
    (U : UserData (withoutNodes P0 (lockedNodes Q))
      { P' with
        H := some (N.removeNodes (lockedNodes Q))
        preassignments := []
        moreRoutes := true } (N.removeNodes (lockedNodes Q)))
    (hpart : ∀ p ∈ Q, ¬ Complete p) (htw : P0.timeWindows = true) (hfirst : P0.G.nodes.head? = some .source)
    (hT : TimesMakeSense P0) (h : Obj.columnGeneration w a fuel P' o = .ok (some o'))
    (hF : ∀ k r, F k r → UserOnTime P0.G r) (hroutes : RoutesWithLocked P0 Q K' F o'.solution free locked) :
    o'.checkArrivalTime = .ok () ∧ o'.checkDepartureTime = .ok () := by
  rw [lockedNodes_none hpart] at S U
  rw [withoutNodes_nil, removeNodes_nil] at S U
  obtain ⟨⟨rs, hobj⟩, _⟩ := locked_reported h
  have hlocked : locked = [] := by
    have hv := hroutes.verbatim
    have : Q.filter (fun r => decide (r.head? = some Node.source ∧ r.getLast? = some Node.sink)) = [] := by
      rw [List.filter_eq_nil_iff]
      intro p hp hcp
      exact hpart p hp (by simpa [Complete] using hcp)
    rw [this] at hv
    exact List.map_eq_nil_iff.1 hv
  have hall : ∀ i r, (i, r) ∈ o'.solution.routes → (i, r) ∈ free := by
    intro i r hir
    rw [hroutes.all, hlocked, List.append_nil] at hir
    exact hir
  refine checks_of_routes S U htw hfirst hT (by rw [hobj]; exact R.reports) ?_ ?_ ?_ ?_
  · rw [hobj]
    show P'.G.toNet = N3
    have := S.graph
    simp only at this
    rw [this]
    rfl
  · unfold Obj.timed
    have : o'.P.timeWindows = true := by
      rw [hobj]
      show P'.timeWindows = true
      rw [← htw]
      exact S.fields.2.1
    rw [this, Bool.or_true]
  · intro i r hir
    obtain ⟨mid, rfl, h1, h2, h3, _⟩ := hroutes.routes i r (hall i r hir)
    have hnodes : ∀ v ∈ routeOf mid, v ∈ P0.G.nodes := by
      intro v hv
      simp only [routeOf, List.mem_cons, List.mem_append, List.not_mem_nil, or_false] at hv
      rcases hv with rfl | hv | rfl
      · rw [← R.userNodes]; exact R.wf.source_mem
      · exact (h2 v hv).2.1
      · rw [← R.userNodes]; exact R.wf.sink_mem
    refine ⟨⟨mid, rfl, fun v hv => ⟨(h2 v hv).1, by rw [R.userNodes]; exact (h2 v hv).2.1⟩, ?_⟩, ?_⟩
    · rw [along_iff] at h3 ⊢
      exact fun u v huv => R.arcs u v (hnodes u (fst_mem_of_consecutive huv)) (hnodes v (snd_mem_of_consecutive huv)) (h3 u v huv)
    · refine routeOf_nodup h1 (fun v hv => ?_)
      obtain ⟨n, rfl⟩ := (h2 v hv).1
      simp
  · intro i r hir
    obtain ⟨mid, rfl, _, _, _, k, _, _, hk⟩ := hroutes.routes i r (hall i r hir)
    exact ⟨mid, rfl, hF k _ hk⟩

theorem PlanWithLocked.toRoutes {P : Vrp} {Q : List (List Node)} {K : Nat} {F : Nat → List Node → Prop} {S : Solution}
    {free locked : List (Nat × List Node)} (h : PlanWithLocked P Q K F S free locked) : RoutesWithLocked P Q K F S free locked :=
  ⟨h.all, h.keys, h.verbatim, h.simple, h.vehicles, h.cheapest, h.routes⟩

theorem CoverWithLocked.toRoutes {P : Vrp} {Q : List (List Node)} {K : Nat} {F : Nat → List Node → Prop} {S : Solution}
    {free locked : List (Nat × List Node)} (h : CoverWithLocked P Q K F S free locked) : RoutesWithLocked P Q K F S free locked :=
  ⟨h.all, h.keys, h.verbatim, h.simple, h.vehicles, h.cheapest, h.routes⟩

/-- **C67 (partial), partial preassigned routes.** If no preassigned route is complete, both checks pass after `solve()` as in
`C67_periodic_partial`.  With a complete one they raise an exception: `C67_locked_raises`. -/
theorem C67_partial_routes_partial {w : World} {a : SolveArgs} {fuel : Nat} {P0 : Vrp} {o o' : Obj} (hw : LibrariesFor P0 a w)
    (hd : a.dive = true → DiveOk w.toEnv) (hschedule : P0.periodic.getD 0 ≠ 0 → ScheduleOk w) (hP : VariantData P0)
    (htw : P0.timeWindows = true) (hT : TimesMakeSense P0) (hpart : ∀ p ∈ a.preassignments, ¬ Complete p)
    (hheur : a.heuristicOnly = false) (hinit : InitialBesideLocked P0 a.preassignments a.initialRoutes)
    (hc : Obj.create P0 = .ok o) (h : o.solve w a fuel = .ok (some o')) :
    o'.checkArrivalTime = .ok () ∧ o'.checkDepartureTime = .ok () := by
  have hfree : SomeCustomerFree P0 a.preassignments := by
    obtain ⟨n, hn⟩ := hP.customer
    exact ⟨n, hn, fun p hp hcp => absurd hcp (hpart p hp)⟩
  have hroutes : ∃ K free locked, RoutesWithLocked P0 a.preassignments K (fun k r => ∃ mid, r = routeOf mid ∧ RouteLimits P0 k mid)
      o'.solution free locked := by
    by_cases hper : P0.periodic.getD 0 = 0
    · have hP' : WindowedOrCollecting P0 := ⟨hP, hper⟩
      rcases hw with ⟨hw, hcspy⟩ | ⟨hw, hcspy, _, htime⟩ | ⟨_, _, hf, _⟩
      · cases hdv : a.dive with
        | false =>
          obtain ⟨K, _, free, locked, _, _, hp, _⟩ := C68_variants_partial hw hP' hdv hheur hcspy hfree hinit hc h
          exact ⟨K, free, locked, PlanWithLocked.toRoutes hp⟩
        | true =>
          obtain ⟨K, _, free, locked, _, _, hp, _⟩ := C68_dive_variants_partial hw (hd hdv) hP' hdv hheur hcspy hfree hinit hc h
          exact ⟨K, free, locked, CoverWithLocked.toRoutes hp⟩
      · cases hdv : a.dive with
        | false =>
          obtain ⟨K, _, free, locked, _, _, hp, _⟩ := C68_windows_lp_partial hw hP' htw htime hdv hheur hcspy hfree hinit hc h
          exact ⟨K, free, locked, PlanWithLocked.toRoutes hp⟩
        | true =>
          obtain ⟨K, _, free, locked, _, _, hp, _⟩ :=
            C68_dive_windows_lp_partial hw (hd hdv) hP' htw htime hdv hheur hcspy hfree hinit hc h
          exact ⟨K, free, locked, CoverWithLocked.toRoutes hp⟩
      · rw [htw] at hf
        cases hf
    · obtain ⟨K, _, free, locked, _, _, hp⟩ := C68_periodic_variants_partial hw hd (hschedule hper) hP hper hheur hfree hinit hc h
      exact ⟨K, free, locked, hp.routes⟩
  obtain ⟨_, free, locked, hroutes⟩ := hroutes
  unfold Obj.solve at h
  split at h
  · cases h
  rename_i P' hstart
  rw [hheur] at h
  simp only [Bool.false_eq_true, if_false] at h
  obtain ⟨K, N, N3, R, S⟩ := searched_locked (w := w) hP.wf hP.customer hP.costs (fun v hv _ => hP.demand v hv) hc hstart
  have U := userData_locked (w := w) hP.wf (fun _ => hP.demand) hc hstart R.reports
  refine checks_beside R S U hpart htw (hP.source htw).1 hT h ?_ hroutes
  rintro k r ⟨mid, rfl, hl⟩
  exact hl.windows htw

/-- **C67 (partial), partial preassigned routes with pickup and delivery.** As `C67_partial_routes_partial`, if every request served
alone is served on time. -/
theorem C67_partial_routes_requests_partial {w : World} {a : SolveArgs} {fuel : Nat} {P0 : Vrp} {o o' : Obj} (hw : LpSound w)
    (hd : a.dive = true → DiveOk w.toEnv) (hschedule : P0.periodic.getD 0 ≠ 0 → ScheduleOk w) (hP : RequestsData P0)
    (htw : P0.timeWindows = true) (htrips : RequestTripsOnTime P0) (hT : TimesMakeSense P0)
    (hpart : ∀ p ∈ a.preassignments, ¬ Complete p)
    (hheur : a.heuristicOnly = false) (hinit : RequestsBesideLocked P0 a.preassignments a.initialRoutes)
    (hc : Obj.create P0 = .ok o) (h : o.solve w a fuel = .ok (some o')) :
    o'.checkArrivalTime = .ok () ∧ o'.checkDepartureTime = .ok () := by
  have hfree : SomeCustomerFree P0 a.preassignments := by
    obtain ⟨n, hn⟩ := hP.customer
    exact ⟨n, hn, fun p hp hcp => absurd hcp (hpart p hp)⟩
  have hwhole : RequestsWhole P0 a.preassignments := by
    intro v w _
    exact ⟨fun ⟨p, hp, hcp, _⟩ => absurd hcp (hpart p hp), fun ⟨p, hp, hcp, _⟩ => absurd hcp (hpart p hp)⟩
  have hroutes : ∃ K free locked, RoutesWithLocked P0 a.preassignments K (fun k r => ∃ mid, r = routeOf mid ∧ RequestLimits P0 k mid)
      o'.solution free locked := by
    by_cases hper : P0.periodic.getD 0 = 0
    · have hP' : PickupDelivery P0 := ⟨hP, hper⟩
      cases hdv : a.dive with
      | false =>
        obtain ⟨K, _, free, locked, _, _, hp, _⟩ := C68_requests_partial hw hP' hdv hheur hfree hwhole hinit hc h
        exact ⟨K, free, locked, PlanWithLocked.toRoutes hp⟩
      | true =>
        obtain ⟨K, _, free, locked, _, _, hp, _⟩ := C68_dive_requests_partial hw (hd hdv) hP' hdv hheur hfree hwhole hinit hc h
        exact ⟨K, free, locked, CoverWithLocked.toRoutes hp⟩
    · obtain ⟨K, _, free, locked, _, _, hp⟩ :=
        C68_periodic_requests_partial hw hd (hschedule hper) hP hper hheur hfree hwhole hinit hc h
      exact ⟨K, free, locked, hp.routes⟩
  obtain ⟨_, free, locked, hroutes⟩ := hroutes
  unfold Obj.solve at h
  split at h
  · cases h
  rename_i P' hstart
  rw [hheur] at h
  simp only [Bool.false_eq_true, if_false] at h
  obtain ⟨K, N, N3, R, S⟩ := searched_locked (w := w) hP.wf hP.customer hP.costs (fun v hv hd => by
    rcases hd with hd | hd
    · rw [hP.pickupDelivery] at hd
      cases hd
    · exact hP.depots v hv hd) hc hstart
  have U := userData_locked (w := w) hP.wf (fun hf => by rw [hP.pickupDelivery] at hf; cases hf) hc hstart R.reports
  refine checks_beside R S U hpart htw (hP.source htw) hT h ?_ hroutes
  rintro k r ⟨mid, rfl, hl⟩
  exact hl.windows htw htrips

/-! ## Examples -/

/-- The hypotheses of `C67_locked_raises` hold for the example of C60 with the first customer preassigned: `solve()` reports both
routes, and both checks raise `KeyError`. -/
example : exBoth.G.WF ∧ (∃ n, Node.cust n ∈ exBoth.G.nodes) ∧ CostsAsDocumented exBoth ∧
    (∀ v ∈ exBoth.G.nodes, exBoth.pickupDelivery = false ∨ v = .source ∨ v = .sink → 0 ≤ userDemand exBoth.G v) ∧
    exBoth.timeWindows = true ∧ Complete (routeOf [.cust 1]) ∧
    planOf (periodicWorld [choosing [1]] (fun _ _ => 0) []) { preassignments := [routeOf [.cust 1]] } 5 exBoth =
      .ok (some ⟨[(1, routeOf [.cust 2]), (2, routeOf [.cust 1])], [(1, 0), (2, 0)], []⟩) ∧
    checksOf (periodicWorld [choosing [1]] (fun _ _ => 0) []) { preassignments := [routeOf [.cust 1]] } 5 exBoth =
      some (some .keyError, some .keyError) :=
  ⟨exBoth_ok.wf, exBoth_ok.customer, exBoth_ok.costs, fun v hv _ => exBoth_ok.demand v hv, rfl, by unfold Complete; decide,
    Solve.eq_ok_of_toOption (by decide +kernel), by decide +kernel⟩

/-- The hypotheses of `C67_partial_routes_partial` hold for the same problem if only the arc between the customers is preassigned;
the checks pass. -/
example : LibrariesFor exBoth { preassignments := [[.cust 1, .cust 2]] } exWorld2 ∧ VariantData exBoth ∧ TimesMakeSense exBoth ∧
    (∀ p ∈ [[Node.cust 1, .cust 2]], ¬ Complete p) ∧
    planOf exWorld2 { preassignments := [[.cust 1, .cust 2]] } 5 exBoth =
      .ok (some ⟨[(1, routeOf [.cust 1, .cust 2])], [(1, 0)], []⟩) ∧
    checksOf exWorld2 { preassignments := [[.cust 1, .cust 2]] } 5 exBoth = some (none, none) :=
  ⟨Or.inl ⟨exWorld2_ok, rfl⟩, exBoth_ok.toVariantData, exBoth_times, by unfold Complete; decide,
    Solve.eq_ok_of_toOption (by decide +kernel), by decide +kernel⟩

/-- The hypotheses of `C67_partial_routes_requests_partial` hold for the example with two requests, the arc from the first pickup to its delivery preassigned. -/
example : LpSound exWorld5 ∧ RequestsData exRequests ∧ RequestTripsOnTime exRequests ∧ TimesMakeSense exRequests ∧
    (∀ p ∈ [[Node.cust 1, .cust 3]], ¬ Complete p) ∧
    checksOf exWorld5 { cspy := false, preassignments := [[.cust 1, .cust 3]] } 5 exRequests = some (none, none) :=
  ⟨lpWorld_ok _ _ _, exRequests_ok.toRequestsData, exRequests_onTime, exRequests_times, by unfold Complete; decide, by decide +kernel⟩

end Vrpy
