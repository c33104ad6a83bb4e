import Verif.Props.EndToEndLockedRequests

/-!
# C62 for pickup and delivery, and beside preassigned routes
-/

namespace Vrpy

open Spec

/-- What is needed of the libraries for problems with time windows or collection: cspy, or LP pricing when going on takes
time, or LP pricing without time windows. -/
def Spec.LibrariesFor (P : Vrp) (a : SolveArgs) (w : World) : Prop :=
  (WorldOk w ∧ a.cspy = true) ∨
    (LpSound w ∧ a.cspy = false ∧ P.timeWindows = true ∧ TravelTakesTime P) ∨
    (LpWorldOk PositiveCycles w ∧ a.cspy = false ∧ P.timeWindows = false ∧ NonnegativeData P ∧ OptionDuals w.toEnv P ∧
      (a.dive = true → DiveSigned w.toEnv))

/-- **C62 (partial), pickup and delivery.** With or without diving: no route reported takes longer than `duration`, if every
request served alone can be served in time.  (The distances along the routes are those of the user's graph.) -/
theorem C62_requests_partial {w : World} {a : SolveArgs} {fuel : Nat} {P0 : Vrp} {o o' : Obj} (hw : LpSound w)
    (hd : a.dive = true → DiveOk w.toEnv) (hP : PickupDelivery P0) (hfit : RequestTripsFit P0) (hpre : a.preassignments = [])
    (hheur : a.heuristicOnly = false)
    (hinit : ∀ r ∈ a.initialRoutes, r.Nodup ∧ ∀ mid k, r = routeOf mid →
      WithinCapacity (userCapacities P0.loadCapacity) k (mid.map (userDemand P0.G)).sum → RequestLimits P0 k mid)
    (hc : Obj.create P0 = .ok o) (h : o.solve w a fuel = .ok (some o')) :
    ∀ i r, (i, r) ∈ o'.solution.routes → Within P0.duration.limit (userDuration P0.G r) := by
  intro i r hir
  cases hdive : a.dive with
  | true =>
    obtain ⟨mid, k, rfl, _, hl⟩ := (C63_dive_partial hw (hd hdive) hP hpre hdive hheur hinit hc h).1 i r hir
    exact hl.duration hfit
  | false =>
    obtain ⟨K, N, _, _, h3, _⟩ := C63_requests_partial hw hP hpre hdive hheur hinit hc h
    obtain ⟨_, _, _, _, _, k, _, _, mid, rfl, hl⟩ := h3.routes i r hir
    exact hl.duration hfit

/-- A route that was not preassigned is among the free ones. -/
theorem Spec.PlanWithLocked.free_of {P : Vrp} {Q : List (List Node)} {K : Nat} {F : Nat → List Node → Prop} {S : Solution}
    {free locked : List (Nat × List Node)} (h : PlanWithLocked P Q K F S free locked) {i : Nat} {r : List Node}
    (hir : (i, r) ∈ S.routes) (hr : r ∉ Q) : ∃ k, F k r := by
  rw [h.all, List.mem_append] at hir
  rcases hir with hir | hir
  · obtain ⟨_, _, _, _, _, k, _, _, hF⟩ := h.routes i r hir
    exact ⟨k, hF⟩
  · have : r ∈ locked.map Prod.snd := List.mem_map.2 ⟨_, hir, rfl⟩
    rw [h.verbatim] at this
    exact absurd (List.mem_filter.1 this).1 hr

theorem Spec.CoverWithLocked.free_of {P : Vrp} {Q : List (List Node)} {K : Nat} {F : Nat → List Node → Prop} {S : Solution}
    {free locked : List (Nat × List Node)} (h : CoverWithLocked P Q K F S free locked) {i : Nat} {r : List Node}
    (hir : (i, r) ∈ S.routes) (hr : r ∉ Q) : ∃ k, F k r := by
  rw [h.all, List.mem_append] at hir
  rcases hir with hir | hir
  · obtain ⟨_, _, _, _, _, k, _, _, hF⟩ := h.routes i r hir
    exact ⟨k, hF⟩
  · have : r ∈ locked.map Prod.snd := List.mem_map.2 ⟨_, hir, rfl⟩
    rw [h.verbatim] at this
    exact absurd (List.mem_filter.1 this).1 hr

/-- **C62 (partial), beside preassigned routes.** With time windows or collection, with or without diving: no route reported
takes longer than `duration` unless it was preassigned, if every round trip can be done in time.  (Preassigned routes are
kept whatever they take: `C62_locked_counterexample`.) -/
theorem C62_locked_partial {w : World} {a : SolveArgs} {fuel : Nat} {P0 : Vrp} {o o' : Obj} (hw : LibrariesFor P0 a w)
    (hd : a.dive = true → DiveOk w.toEnv) (hP : WindowedOrCollecting P0) (hfit : RoundTripsFit P0) (hheur : a.heuristicOnly = false)
    (hfree : SomeCustomerFree P0 a.preassignments) (hinit : InitialBesideLocked P0 a.preassignments a.initialRoutes)
    (hc : Obj.create P0 = .ok o) (h : o.solve w a fuel = .ok (some o')) :
    ∀ i r, (i, r) ∈ o'.solution.routes → r ∉ a.preassignments → Within P0.duration.limit (userDuration P0.G r) := by
  intro i r hir hr
  suffices ∃ k mid, r = routeOf mid ∧ RouteLimits P0 k mid by
    obtain ⟨k, mid, rfl, hl⟩ := this
    exact hl.duration hfit
  cases hdive : a.dive with
  | true =>
    rcases hw with ⟨hw, hcspy⟩ | ⟨hw, hcspy, htw, htime⟩ | ⟨hw, hcspy, htw, hD, hopt, hsig⟩
    · obtain ⟨K, N, free, locked, _, _, h3, _⟩ := C68_dive_variants_partial hw (hd hdive) hP hdive hheur hcspy hfree hinit hc h
      exact h3.free_of hir hr
    · obtain ⟨K, N, free, locked, _, _, h3, _⟩ :=
        C68_dive_windows_lp_partial hw (hd hdive) hP htw htime hdive hheur hcspy hfree hinit hc h
      exact h3.free_of hir hr
    · obtain ⟨K, N, free, locked, _, _, h3, _⟩ :=
        C68_dive_collect_lp_partial hw (hd hdive) (hsig hdive) hP htw hD hopt hdive hheur hcspy hfree hinit hc h
      exact h3.free_of hir hr
  | false =>
    rcases hw with ⟨hw, hcspy⟩ | ⟨hw, hcspy, htw, htime⟩ | ⟨hw, hcspy, htw, hD, hopt, _⟩
    · obtain ⟨K, N, free, locked, _, _, h3, _⟩ := C68_variants_partial hw hP hdive hheur hcspy hfree hinit hc h
      exact h3.free_of hir hr
    · obtain ⟨K, N, free, locked, _, _, h3, _⟩ := C68_windows_lp_partial hw hP htw htime hdive hheur hcspy hfree hinit hc h
      exact h3.free_of hir hr
    · obtain ⟨K, N, free, locked, _, _, h3, _⟩ :=
        C68_collect_lp_partial hw hP htw hD hopt hdive hheur hcspy hfree hinit hc h
      exact h3.free_of hir hr

/-- **C62 (partial), pickup and delivery beside preassigned routes.** -/
theorem C62_locked_requests_partial {w : World} {a : SolveArgs} {fuel : Nat} {P0 : Vrp} {o o' : Obj} (hw : LpSound w)
    (hd : a.dive = true → DiveOk w.toEnv) (hP : PickupDelivery P0) (hfit : RequestTripsFit P0) (hheur : a.heuristicOnly = false)
    (hfree : SomeCustomerFree P0 a.preassignments) (hwhole : RequestsWhole P0 a.preassignments)
    (hinit : RequestsBesideLocked P0 a.preassignments a.initialRoutes)
    (hc : Obj.create P0 = .ok o) (h : o.solve w a fuel = .ok (some o')) :
    ∀ i r, (i, r) ∈ o'.solution.routes → r ∉ a.preassignments → Within P0.duration.limit (userDuration P0.G r) := by
  intro i r hir hr
  suffices ∃ k mid, r = routeOf mid ∧ RequestLimits P0 k mid by
    obtain ⟨k, mid, rfl, hl⟩ := this
    exact hl.duration hfit
  cases hdive : a.dive with
  | true =>
    obtain ⟨K, N, free, locked, _, _, h3, _⟩ := C68_dive_requests_partial hw (hd hdive) hP hdive hheur hfree hwhole hinit hc h
    exact h3.free_of hir hr
  | false =>
    obtain ⟨K, N, free, locked, _, _, h3, _⟩ := C68_requests_partial hw hP hdive hheur hfree hwhole hinit hc h
    exact h3.free_of hir hr

/-! ## Examples -/

/-- Two requests, at most 60 per route; the two are served by one vehicle in 51. -/
example : LpSound exWorld6 ∧ PickupDelivery exRequests ∧ RequestTripsFit exRequests ∧
    planOf exWorld6 { cspy := false, preassignments := [routeOf [.cust 2, .cust 4]] } 5 exRequests =
      .ok (some ⟨[(1, routeOf [.cust 1, .cust 3]), (2, routeOf [.cust 2, .cust 4])], [(1, 0), (2, 0)], []⟩) ∧
    userDuration exRequests.G (routeOf [.cust 1, .cust 3]) = 30 :=
  ⟨lpWorld_ok _ _ _, exRequests_ok, exRequests_fit, Solve.eq_ok_of_toOption (by decide +kernel), by decide +kernel⟩

/-- `collectPlan`, with travel times of 1 and at most 2 per route. -/
def limitedPlan : Vrp :=
  { collectPlan with
    duration := .int 2
    G := { collectPlan.G with ed := fun u v => { collectPlan.G.ed u v with time := some 1 } } }

def limitedArgs : SolveArgs where
  initialRoutes := [routeOf [.cust 2]]
  preassignments := [routeOf [.cust 1]]

/-- All hypotheses of `C62_locked_partial` hold for the example. -/
example : LibrariesFor limitedPlan limitedArgs exWorld ∧ WindowedOrCollecting limitedPlan ∧ RoundTripsFit limitedPlan ∧
    SomeCustomerFree limitedPlan limitedArgs.preassignments ∧
    InitialBesideLocked limitedPlan limitedArgs.preassignments limitedArgs.initialRoutes ∧
    planOf exWorld limitedArgs 5 limitedPlan =
      .ok (some ⟨[(1, routeOf [.cust 2]), (2, routeOf [.cust 1])], [(1, 0), (2, 0)], []⟩) := by
  have hP := collectPlan_ok
  have hrt : ∀ n, Node.cust n ∈ limitedPlan.G.nodes → userDuration limitedPlan.G (routeOf [.cust n]) = 2 := by
    intro n hn
    have hn : n = 1 ∨ n = 2 := by simpa [limitedPlan, collectPlan] using hn
    rcases hn with rfl | rfl <;> decide +kernel
  have hfit : RoundTripsFit limitedPlan := by
    intro n hn d hd
    have hd : (2 : ℚ) = d := by simpa [limitedPlan, PyVal.limit] using hd
    rw [hrt n hn, ← hd]
    exact fun _ => le_refl _
  refine ⟨Or.inl ⟨exWorld_ok, rfl⟩,
    { wf := ⟨hP.wf.nodes_nodup, hP.wf.succ_nodup, hP.wf.succ_mem⟩
      customer := hP.customer
      costs := hP.costs
      demand := hP.demand
      service := hP.service
      either := hP.either
      source := fun h => (by cases h)
      windows := fun h => (by cases h)
      collect := hP.collect
      pickupDelivery := rfl
      periodic := rfl
      oneCapacity := hP.oneCapacity }, hfit, ⟨2, by decide, ?_⟩, ?_, Solve.eq_ok_of_toOption (by decide +kernel)⟩
  · intro p hp _
    simp only [limitedArgs, List.mem_cons, List.not_mem_nil, or_false] at hp
    subst hp
    decide
  · intro r hr
    simp only [limitedArgs, List.mem_cons, List.not_mem_nil, or_false] at hr
    obtain ⟨h1, h2⟩ := collectArgs_initial r (by rw [hr]; decide)
    refine ⟨h1, ?_, fun mid k hm hload => ?_⟩
    · intro n hn p hp _
      simp only [limitedArgs, List.mem_cons, List.not_mem_nil, or_false] at hp
      subst hp hr
      simp [routeOf] at hn ⊢
      omega
    · obtain ⟨l1, l2, l3, l4, _⟩ := h2 mid k hm hload
      have hdur : Within limitedPlan.duration.limit (userDuration limitedPlan.G (routeOf mid)) := by
        rw [← hm, hr]
        exact hfit 2 (by decide)
      exact ⟨⟨l1, l2, fun h => (by cases h), l4, fun _ => hdur⟩, hdur⟩

/-- **C62**, counterexample: a preassigned route is reported although it takes longer than `duration`. -/
theorem C62_locked_counterexample :
    planOf exWorld6 { cspy := false, preassignments := [routeOf [.cust 2, .cust 4]] } 5 { exRequests with duration := .int 30 } =
      .ok (some ⟨[(1, routeOf [.cust 1, .cust 3]), (2, routeOf [.cust 2, .cust 4])], [(1, 0), (2, 0)], []⟩) ∧
    ¬ Within (some 30) (userDuration exRequests.G (routeOf [.cust 2, .cust 4])) :=
  ⟨Solve.eq_ok_of_toOption (by decide +kernel), fun h => absurd (h 30 rfl) (by decide +kernel)⟩

end Vrpy
