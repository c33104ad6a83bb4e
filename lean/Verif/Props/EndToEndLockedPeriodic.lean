import Verif.Props.EndToEndLockedRequests
import Verif.Props.EndToEndPeriodicDive

/-!
# C68, C66: preassigned routes in periodic problems
-/

namespace Vrpy

open Spec

open Classical in
/-- The demand of customers that are not on a complete preassigned route. -/
noncomputable def Spec.freeDemand (P : Vrp) (Q : List (List Node)) (v : Node) : ℚ :=
  if ∃ p ∈ Q, Complete p ∧ v ∈ p then 0 else customerDemand P.G v

/-- A valid schedule of the routes of `S`, preassigned or not, over the horizon of `P`, with the vehicles of `P` on every day, except that
nothing is said about how often customers on complete preassigned routes are visited on a day. -/
def Spec.ScheduleWithLocked (P : Vrp) (Q : List (List Node)) (S : Solution) (sch : Dict Nat (List Nat)) : Prop :=
  ValidSchedule (freeDemand P Q) (P.periodic.getD 0) S.routes S.types (userFleet P.numVehicles) sch

/-- What is claimed of a call of `solve()` with preassigned routes for a periodic problem: `exact` says whether the number of visits is
known (without diving). -/
structure Spec.PeriodicWithLocked (w : World) (P : Vrp) (Q : List (List Node)) (K : Nat) (N : Net) (F : Nat → List Node → Prop)
    (exact : Prop) (o : Obj) (free locked : List (Nat × List Node)) : Prop where
  routes : RoutesWithLocked P Q K F o.solution free locked
  visits : exact → ∀ n, Node.cust n ∈ P.G.nodes → (∀ p ∈ Q, Complete p → .cust n ∉ p) →
    (visitCount o.solution (.cust n) : ℚ) + (if Node.cust n ∈ o.solution.dropped then 1 else 0) ≤ userFrequency P.G (.cust n) ∧
    (userFrequency P.G (.cust n) ≤ 1 →
      (visitCount o.solution (.cust n) : ℚ) + (if Node.cust n ∈ o.solution.dropped then 1 else 0) = userFrequency P.G (.cust n))
  covered : ∀ n, Node.cust n ∈ P.G.nodes → (∀ p ∈ Q, Complete p → .cust n ∉ p) → 0 < userFrequency P.G (.cust n) →
    userFrequency P.G (.cust n) ≤ 1 → Node.cust n ∉ o.solution.dropped → ∃ i r, (i, r) ∈ free ∧ Node.cust n ∈ r
  dropped : ∀ v ∈ o.solution.dropped, (∃ n, v = .cust n) ∧ v ∈ P.G.nodes ∧ ∀ p ∈ Q, Complete p → v ∉ p
  penalty : P.dropPenalty = 0 → o.solution.dropped = []
  schedule : o.schedule = [] ∨ ScheduleWithLocked P Q o.solution o.schedule
  found : (∀ lp, (∃ x, lp.Feasible x) → (w.schedule lp).1 = true) → ∀ sch, ScheduleWithLocked P Q o.solution sch →
    ScheduleWithLocked P Q o.solution o.schedule
  even : (∀ lp, (∃ x, lp.Feasible x) → (w.schedule lp).1 = true) → (∀ lp, (w.schedule lp).1 = true → lp.Optimal (w.schedule lp).2) →
    ∀ sch, ScheduleWithLocked P Q o.solution sch → ∀ d d', IsSpread (P.periodic.getD 0) o.schedule d →
      IsSpread (P.periodic.getD 0) sch d' → d ≤ d'
  value : ValueWithLocked P Q K N o.solution

/-- The same for the routes of a problem without preassigned routes. -/
structure PeriodicCover (P : Vrp) (K : Nat) (F : Nat → List Node → Prop) (exact : Prop) (S : Solution) : Prop where
  routes : ∀ i r, (i, r) ∈ S.routes → ∃ mid, r = routeOf mid ∧ mid.Nodup ∧
    (∀ v ∈ mid, (∃ n, v = .cust n) ∧ v ∈ P.G.nodes) ∧ Along (UserArc P.G) r ∧
    ∃ k < K, dget S.types i = some k ∧ F k r
  visits : exact → ∀ n, Node.cust n ∈ P.G.nodes →
    (visitCount S (.cust n) : ℚ) + (if Node.cust n ∈ S.dropped then 1 else 0) ≤ userFrequency P.G (.cust n) ∧
    (userFrequency P.G (.cust n) ≤ 1 →
      (visitCount S (.cust n) : ℚ) + (if Node.cust n ∈ S.dropped then 1 else 0) = userFrequency P.G (.cust n))
  covered : ∀ n, Node.cust n ∈ P.G.nodes → 0 < userFrequency P.G (.cust n) → userFrequency P.G (.cust n) ≤ 1 →
    Node.cust n ∉ S.dropped → ∃ i r, (i, r) ∈ S.routes ∧ Node.cust n ∈ r
  dropped : ∀ v ∈ S.dropped, (∃ n, v = .cust n) ∧ v ∈ P.G.nodes
  penalty : P.dropPenalty = 0 → S.dropped = []

theorem cover_of_plan {P : Vrp} {K : Nat} {F : Nat → List Node → Prop} {exact : Prop} {S : Solution} (h : PeriodicPlanFor P K F S) :
    PeriodicCover P K F exact S := by
  refine ⟨h.routes, fun _ => h.visits, ?_, h.dropped, h.penalty⟩
  intro n hn h0 h1 hd
  have hv := (h.visits n hn).2 h1
  rw [if_neg hd, add_zero] at hv
  by_contra hcon
  push Not at hcon
  have : visitCount S (.cust n) = 0 := by
    unfold visitCount
    refine List.sum_eq_zero ?_
    intro x hx
    obtain ⟨⟨i, r⟩, hir, rfl⟩ := List.mem_map.1 hx
    exact List.count_eq_zero.2 (hcon i r hir)
  rw [this] at hv
  rw [← hv] at h0
  simp at h0

theorem cover_of_dive {w : World} {P : Vrp} {K : Nat} {N : Net} {F : Nat → List Node → Prop} {exact : Prop} {o : Obj} (hno : ¬ exact)
    (h : PeriodicDiveOutcome w P K N F o) : PeriodicCover P K F exact o.solution :=
  ⟨h.routes, fun he => absurd he hno, h.covered, h.dropped, h.penalty⟩

/-- The outcome of a run with preassigned routes, from that of a run without them for the problem without their customers. -/
theorem locked_periodic {w : World} {a : SolveArgs} {fuel : Nat} {P0 P' : Vrp} {o o' : Obj} {Q : List (List Node)} {K : Nat} {N N3 : Net}
    {F F' : Nat → List Node → Prop} {exact : Prop} (R : Reported P0 P' Q K N) (hperiodic : P0.periodic.getD 0 ≠ 0)
    (S : Searched (withoutNodes P0 (lockedNodes Q))
        { P' with
          H := some (N.removeNodes (lockedNodes Q))
          preassignments := []
          moreRoutes := true } K (N.removeNodes (lockedNodes Q)) N3)
    (hfleet : P'.numVehiclesSchedule = userFleet P0.numVehicles) (hschedule : ScheduleOk w)
    (hfree : ∃ n, Node.cust n ∈ P0.G.nodes ∧ ∀ p ∈ Q, Complete p → Node.cust n ∉ p)
    (hF : ∀ k mid, (∀ v ∈ mid, (∃ n, v = .cust n) ∧ v ∈ P0.G.nodes ∧ v ∉ lockedNodes Q) → F k (routeOf mid) → F' k (routeOf mid))
    (hplan : ∀ o1, Obj.columnGeneration w a fuel
        { P' with
          H := some (N.removeNodes (lockedNodes Q))
          preassignments := []
          moreRoutes := true } o = .ok (some o1) → PeriodicCover (withoutNodes P0 (lockedNodes Q)) K F exact o1.solution)
    (h : Obj.columnGeneration w a fuel P' o = .ok (some o')) :
    o'.P.H = some N ∧ ∃ free locked, PeriodicWithLocked w P0 Q K N F' exact o' free locked := by
  have hmore : P'.moreRoutes = true := by
    obtain ⟨n, h1, h2⟩ := hfree
    exact R.more ⟨n, h1, not_locked h2⟩
  obtain ⟨o1, graphs, st, hrun, hH, hd, hr1, ht1, hM, hr, ht, rs, old, hsch⟩ :=
    columnGeneration_locked (N.removeNodes (lockedNodes Q)) hmore h
  have hp := hplan o1 hrun
  rw [R.reports, R.caps, R.types, R.preassigned] at hM
  simp only [Option.getD_some] at hM
  obtain ⟨⟨locked, hL⟩, htold, hV⟩ := locked_routes_merge R hF hp.routes hr1 ht1 hM hr ht
  have hnotlocked : ∀ v, (∃ n, v = Node.cust n) → v ∉ lockedNodes Q → ∀ i r, (i, r) ∈ locked → v ∉ r := by
    intro v hv hvL i r hir
    have : r ∈ locked.map Prod.snd := List.mem_map.2 ⟨_, hir, rfl⟩
    rw [hL.verbatim] at this
    obtain ⟨l1, l2⟩ := List.mem_filter.1 this
    exact not_on_locked hv hvL r l1 (by simpa [Complete] using l2)
  have hcount : ∀ n, Node.cust n ∉ lockedNodes Q → visitCount o'.solution (.cust n) = visitCount o1.solution (.cust n) := by
    intro n hn
    unfold visitCount
    rw [hL.all, List.map_append, List.sum_append]
    have : (locked.map (fun p => p.2.count (Node.cust n))).sum = 0 := by
      refine List.sum_eq_zero ?_
      intro x hx
      obtain ⟨⟨i, r⟩, hir, rfl⟩ := List.mem_map.1 hx
      exact List.count_eq_zero.2 (hnotlocked _ ⟨n, rfl⟩ hn i r hir)
    rw [this, add_zero]
  -- the schedule
  have hN3 : P'.G.toNet = N3 := by
    have := S.graph
    simp only at this
    rw [this]
    rfl
  have hspan : ({ P' with initialRoutes := rs } : Vrp).periodic.getD 0 = P0.periodic.getD 0 := by
    have := S.fields.2.2.2.2.2.2.1
    show P'.periodic.getD 0 = _
    simp only at this
    rw [this]
    rfl
  set s : Schedule :=
    { G := N3
      timeSpan := P0.periodic.getD 0
      routes := o'.solution.routes
      types := o'.solution.types
      numVehicles := userFleet P0.numVehicles } with hs
  set s' : Schedule :=
    { s with G := { N3 with demand := freeDemand P0 Q } } with hs'
  have hdem : ∀ v ∈ N3.nodes, N3.demand v = freeDemand P0 Q v := by
    intro v hv
    rw [S.nodes, S.userNodes] at hv
    obtain ⟨h1, h2⟩ := without_nodes.1 hv
    unfold freeDemand
    rw [S.same.demand]
    cases v with
    | source =>
      have e : customerDemand P0.G .source = 0 := rfl
      rw [e, ite_self]
      exact S.demandDepots.1
    | sink =>
      have e : customerDemand P0.G .sink = 0 := rfl
      rw [e, ite_self]
      exact S.demandDepots.2
    | cust n =>
      rw [if_neg (by
        rintro ⟨p, hp, hc, hn⟩
        exact h2 (mem_lockedNodes.2 ⟨p, hp, hc, hn⟩))]
      rw [S.demand _ (mem_customers.2 ⟨by rw [S.userNodes]; exact hv, by simp, by simp⟩)]
      rfl
  have hlp : s.lp = s'.lp := by
    have hfilter : N3.nodes.filter (fun v => N3.demand v > 0) = N3.nodes.filter (fun v => freeDemand P0 Q v > 0) :=
      List.filter_congr (fun v hv => by rw [hdem v hv])
    show Schedule.lp s = Schedule.lp s'
    unfold Schedule.lp
    simp only [hs', hs]
    rw [hfilter]
    rfl
  have hsched : o'.schedule = s'.routesPerDay (w.schedule s'.lp).1 (w.schedule s'.lp).2 := by
    unfold Obj.makeSchedule at hsch
    rw [if_neg (by rw [hspan]; exact hperiodic)] at hsch
    simp only [hspan, hfleet, hN3] at hsch
    rw [← hs] at hsch
    unfold Schedule.formulate at hsch
    split at hsch
    · cases hsch
    · rename_i lp hform
      split at hform
      · cases hform
      · simp only [Except.ok.injEq] at hform hsch
        rw [← hsch, ← hform, hlp]
        rfl
  have hpos : ∀ v, 0 < freeDemand P0 Q v → (∃ n, v = .cust n) ∧ v ∉ lockedNodes Q := by
    intro v hv
    unfold freeDemand at hv
    split at hv
    · exact absurd hv (lt_irrefl _)
    · rename_i hno
      cases v with
      | source => exact absurd hv (by simp [customerDemand, Node.isDepot])
      | sink => exact absurd hv (by simp [customerDemand, Node.isDepot])
      | cust n =>
        refine ⟨⟨n, rfl⟩, fun hL => hno ?_⟩
        obtain ⟨p, h1, h2, h3⟩ := mem_lockedNodes.1 hL
        exact ⟨p, h1, h2, h3⟩
  have hin : ∀ r ∈ s'.routes, ∀ v ∈ r.2, 0 < s'.G.demand v → v ∈ s'.G.nodes := by
    rintro ⟨i, r⟩ hir v hv hd
    obtain ⟨hc, hno⟩ := hpos v hd
    have hir' : (i, r) ∈ o'.solution.routes := hir
    show v ∈ N3.nodes
    rw [S.nodes, S.userNodes]
    rw [hL.all] at hir'
    rcases List.mem_append.1 hir' with hir' | hir'
    · obtain ⟨mid, rfl, _, hmid, _⟩ := hL.routes i r hir'
      obtain ⟨n, rfl⟩ := hc
      have : Node.cust n ∈ mid := by simpa [routeOf] using hv
      exact without_nodes.2 ⟨(hmid _ this).2.1, hno⟩
    · exact absurd hv (hnotlocked v hc hno i r hir')
  have hel : ∀ r ∈ s'.routes, ∀ v, 0 < s'.G.demand v → r.2.count v ≤ 1 := by
    rintro ⟨i, r⟩ hir v hd
    obtain ⟨hc, hno⟩ := hpos v hd
    have hir' : (i, r) ∈ o'.solution.routes := hir
    rw [hL.all] at hir'
    rcases List.mem_append.1 hir' with hir' | hir'
    · obtain ⟨mid, rfl, hnd, hmid, _⟩ := hL.routes i r hir'
      obtain ⟨n, rfl⟩ := hc
      have : (routeOf mid).count (Node.cust n) = mid.count (.cust n) := by simp [routeOf]
      simp only
      rw [this]
      exact List.nodup_iff_count_le_one.1 hnd _
    · simp only
      rw [List.count_eq_zero.2 (hnotlocked v hc hno i r hir')]
      exact Nat.zero_le _
  have hiff : ∀ sch, s'.Valid sch ↔ ScheduleWithLocked P0 Q o'.solution sch := fun sch => Iff.rfl
  have hvalid := Schedule.C30_schedule_valid (s := s') hL.keys hin hel (w.schedule s'.lp).1 (w.schedule s'.lp).2 (hschedule s'.lp)
  refine ⟨by rw [hH, R.reports], o1.solution.routes, locked, hL, ?_, ?_, ?_, ?_, ?_, ?_, ?_, hV⟩
  · intro he n hn hno
    have hnl := not_locked hno
    rw [hcount n hnl, hd]
    exact hp.visits he n (without_nodes.2 ⟨hn, hnl⟩)
  · intro n hn hno h0 h1 hnd
    exact hp.covered n (without_nodes.2 ⟨hn, not_locked hno⟩) h0 h1 (by rw [← hd]; exact hnd)
  · intro v hv
    rw [hd] at hv
    obtain ⟨d1, d2⟩ := hp.dropped v hv
    obtain ⟨d2, d3⟩ := without_nodes.1 d2
    exact ⟨d1, d2, not_on_locked d1 d3⟩
  · intro h0
    rw [hd]
    exact hp.penalty h0
  · rw [hsched]
    cases hopt : (w.schedule s'.lp).1 with
    | false => exact Or.inl rfl
    | true =>
      rw [hopt] at hvalid
      exact Or.inr (hvalid.1 rfl)
  · intro hex sch hS
    have hopt := hex s'.lp ((Schedule.C30_feasible_iff hL.keys hin hel).2 ⟨sch, hS⟩)
    rw [hsched]
    exact hvalid.1 hopt
  · intro hex hbest sch hS d d' hd hd'
    have hopt := hex s'.lp ((Schedule.C30_feasible_iff hL.keys hin hel).2 ⟨sch, hS⟩)
    rw [hsched, hopt] at hd
    exact Schedule.C31_balanced (s := s') hL.keys (hbest _ hopt) hS hd hd'

/-- **C68, C66 (partial), periodic capacitated problems**, pricing by cspy or LP, with or without diving: the report consists of the
complete preassigned routes, unchanged, and of routes within the limits of the user; every other customer is visited at most as often as
they should be (exactly, if once), with diving at least once if they should be; the schedule is empty or valid for all routes, for what
is left of the demand; `best_value` is what the routes cost plus penalties, if every complete preassigned route fits some vehicle.  What is
missing, because it is false: that customers on preassigned routes are visited as often as they should be, or at most once a day
(`C66_locked_counterexample`). -/
theorem C68_periodic_partial {w : World} {a : SolveArgs} {fuel : Nat} {P0 : Vrp} {o o' : Obj}
    (hw : WorldOk w ∧ a.cspy = true ∨ LpWorldOk PositiveCycles w ∧ a.cspy = false ∧ NonnegativeData P0 ∧ OptionDuals w.toEnv P0 ∧
      (a.dive = true → DiveSigned w.toEnv))
    (hd : a.dive = true → DiveOk w.toEnv) (hschedule : ScheduleOk w) (hP : CapacitatedData P0) (hperiodic : P0.periodic.getD 0 ≠ 0)
    (hheur : a.heuristicOnly = false) (hfree : SomeCustomerFree P0 a.preassignments)
    (hinit : ∀ r ∈ a.initialRoutes, r.Nodup ∧ WithinStops P0.numStops.stops (stops r).length)
    (hc : Obj.create P0 = .ok o) (h : o.solve w a fuel = .ok (some o')) :
    ∃ K N free locked, (P0.mixedFleet = false → K = 1) ∧ o'.P.H = some N ∧
      PeriodicWithLocked w P0 a.preassignments K N (CapacitatedRoute P0) (a.dive = false) o' free locked := by
  unfold Obj.solve at h
  split at h
  · cases h
  rename_i P' hstart
  rw [hheur] at h
  simp only [Bool.false_eq_true, if_false] at h
  obtain ⟨K, N, N3, R, S⟩ := searched_locked (w := w) hP.wf hP.customer hP.costs (fun v hv _ => hP.demand v hv) hc hstart
  have U := userData_locked (w := w) hP.wf (fun _ => hP.demand) hc hstart R.reports
  have hP' := without_capacitatedData hP (free_nodes hfree)
  have hfl := (periodic_fleet hperiodic hc hstart).2
  have hper' : (withoutNodes P0 (lockedNodes a.preassignments)).periodic.getD 0 ≠ 0 := hperiodic
  have hold : o.solution.dropped = [] := by
    obtain ⟨G, _, rfl⟩ := create_ok hc
    rfl
  have hcw : ∀ x, (w.cw x).Valid := by rcases hw with ⟨hw, _⟩ | ⟨hw, _⟩ <;> exact hw.cw
  have hmaster : ∀ t, MasterSolverSound (w.master t) := by rcases hw with ⟨hw, _⟩ | ⟨hw, _⟩ <;> exact hw.master
  have hpath : ∀ (c : Column) (p : List Node), IsShortestPath c.edges p → IsShortestPath c.edges (w.path c) := by
    rcases hw with ⟨hw, _⟩ | ⟨hw, _⟩ <;> exact hw.path
  have hi : ∀ P'' cols, ({ P' with
          H := some (N.removeNodes (lockedNodes a.preassignments))
          preassignments := []
          moreRoutes := true } : Vrp).initialize ({ P' with
          H := some (N.removeNodes (lockedNodes a.preassignments))
          preassignments := []
          moreRoutes := true } : Vrp).G.toNet w.cw fuel = .ok (some (P'', cols)) → Solve.Numbered cols ∧
      (∀ c ∈ cols, ColumnFor N3 K (fun k r => WithinStops P0.numStops.stops (stops r).length ∧
        WithinCapacity (userCapacities P0.loadCapacity) k (load N3 r)) c) ∧ ∃ rs, P'' = { ({ P' with
          H := some (N.removeNodes (lockedNodes a.preassignments))
          preassignments := []
          moreRoutes := true } : Vrp) with initialRoutes := rs } := by
    intro P'' cols h1
    obtain ⟨b1, b2, b3⟩ := initial_good hP' S hcw (by
      show ∀ r ∈ P'.initialRoutes, _
      rw [startSolve_initial hc hstart]
      exact hinit) h1
    exact ⟨b1, fun c hc => (b2 c hc).good, b3⟩
  obtain ⟨r1, free, locked, r2⟩ := locked_periodic (exact := a.dive = false) (F := CapacitatedRoute (withoutNodes P0 (lockedNodes a.preassignments)))
    (F' := CapacitatedRoute P0) R hperiodic S hfl hschedule hfree (fun _ _ _ h => h) (fun o1 ho1 => by
      have hroutes : ∀ {i : Nat} {r : List Node} {types : Dict Nat Nat}, (∃ mid, r = routeOf mid ∧ mid.Nodup ∧
          (∀ v ∈ mid, (∃ n, v = .cust n) ∧ v ∈ (withoutNodes P0 (lockedNodes a.preassignments)).G.nodes) ∧
          Along (UserArc (withoutNodes P0 (lockedNodes a.preassignments)).G) r ∧
          ∃ k < K, dget types i = some k ∧ WithinStops P0.numStops.stops (stops r).length ∧
            WithinCapacity (userCapacities P0.loadCapacity) k (load N3 r)) → ∃ mid, r = routeOf mid ∧ mid.Nodup ∧
          (∀ v ∈ mid, (∃ n, v = .cust n) ∧ v ∈ (withoutNodes P0 (lockedNodes a.preassignments)).G.nodes) ∧
          Along (UserArc (withoutNodes P0 (lockedNodes a.preassignments)).G) r ∧
          ∃ k < K, dget types i = some k ∧ CapacitatedRoute (withoutNodes P0 (lockedNodes a.preassignments)) k r := by
        rintro i r types ⟨mid, rfl, h1, h2, h3, k, h4, h5, h6, h7⟩
        obtain ⟨e1, e2⟩ := load_user S h2
        rw [e1] at h7
        rw [e2] at h6
        exact ⟨mid, rfl, h1, h2, h3, k, h4, h5, mid, rfl, h6, h7⟩
      cases hdive : a.dive with
      | false =>
        obtain ⟨-, c2, -⟩ := periodic_of_columns (F := fun k r => WithinStops P0.numStops.stops (stops r).length ∧
            WithinCapacity (userCapacities P0.loadCapacity) k (load N3 r)) hP'.customer hper' S U hfl hmaster hschedule hpath hi
          hdive (fun _ => hold) (fun rs stm d cost st1 _ _ hs => by
            rcases hw with ⟨hw, hcspy⟩ | ⟨hw, hcspy, hD, hopt, _⟩
            · exact price_searched hw hP' S hcspy rs d
            · have hD' := without_nonnegative hP.wf R.depots.1 R.depots.2 hD
              exact (lp_priced hw hP' hD' hcspy S rs (hw.free S hD' (hopt.without _) hs)).mono (fun c hc => hc.good)) ho1
        refine cover_of_plan ⟨?_, c2.visits, c2.dropped, c2.penalty⟩
        exact fun i r hir => hroutes (c2.routes i r hir)
      | true =>
        obtain ⟨-, c2⟩ := periodic_dive (F := fun k r => WithinStops P0.numStops.stops (stops r).length ∧
            WithinCapacity (userCapacities P0.loadCapacity) k (load N3 r)) hper' S U hfl hschedule (hd hdive) hmaster
          (fun hf => by
            rcases hw with ⟨hw, _⟩ | ⟨_, hcspy, _⟩
            · exact hw.cspy
            · rw [hcspy] at hf
              cases hf) hpath hi hdive (fun _ => hold)
          (fun rs dive stm d cost st1 hdv hs => by
            rcases hw with ⟨hw, hcspy⟩ | ⟨hw, hcspy, hD, hopt, hsig⟩
            · exact price_searched hw hP' S hcspy rs d
            · have hD' := without_nonnegative hP.wf R.depots.1 R.depots.2 hD
              exact (lp_priced hw hP' hD' hcspy S rs (dive_free hw (hd hdive) (hsig hdive) S hD' (hopt.without _) hdv hs)).mono
                (fun c hc => hc.good)) ho1
        refine ⟨?_, fun hf => (by cases hf), c2.covered, c2.dropped, c2.penalty⟩
        exact fun i r hir => hroutes (c2.routes i r hir)) h
  exact ⟨K, N, free, locked, S.typesOne, r1, r2⟩

/-- **C68, C66, C60, C61 (partial), periodic problems with time windows or collection**, as `C68_periodic_partial`: the routes that are not
preassigned are on time, never overloaded, and not too long. -/
theorem C68_periodic_variants_partial {w : World} {a : SolveArgs} {fuel : Nat} {P0 : Vrp} {o o' : Obj} (hw : LibrariesFor P0 a w)
    (hd : a.dive = true → DiveOk w.toEnv) (hschedule : ScheduleOk w) (hP : VariantData P0) (hperiodic : P0.periodic.getD 0 ≠ 0)
    (hheur : a.heuristicOnly = false) (hfree : SomeCustomerFree P0 a.preassignments)
    (hinit : InitialBesideLocked P0 a.preassignments a.initialRoutes)
    (hc : Obj.create P0 = .ok o) (h : o.solve w a fuel = .ok (some o')) :
    ∃ K N free locked, (P0.mixedFleet = false → K = 1) ∧ o'.P.H = some N ∧
      PeriodicWithLocked w P0 a.preassignments K N (fun k r => ∃ mid, r = routeOf mid ∧ RouteLimits P0 k mid) (a.dive = false) o'
        free locked := by
  unfold Obj.solve at h
  split at h
  · cases h
  rename_i P' hstart
  rw [hheur] at h
  simp only [Bool.false_eq_true, if_false] at h
  obtain ⟨K, N, N3, R, S⟩ := searched_locked (w := w) hP.wf hP.customer hP.costs (fun v hv _ => hP.demand v hv) hc hstart
  have U := userData_locked (w := w) hP.wf (fun _ => hP.demand) hc hstart R.reports
  have hP' := without_variantData hP (free_nodes hfree) R.depots.1
  have hfl := (periodic_fleet hperiodic hc hstart).2
  have hper' : (withoutNodes P0 (lockedNodes a.preassignments)).periodic.getD 0 ≠ 0 := hperiodic
  have hold : o.solution.dropped = [] := by
    obtain ⟨G, _, rfl⟩ := create_ok hc
    rfl
  have hmaster : ∀ t, MasterSolverSound (w.master t) := by
    rcases hw with ⟨hw, _⟩ | ⟨hw, _⟩ | ⟨hw, _⟩ <;> exact hw.master
  have hpath : ∀ (c : Column) (p : List Node), IsShortestPath c.edges p → IsShortestPath c.edges (w.path c) := by
    rcases hw with ⟨hw, _⟩ | ⟨hw, _⟩ | ⟨hw, _⟩ <;> exact hw.path
  have hi := fun P'' cols h1 => initial_limits (cw := w.cw) (fuel := fuel) (P'' := P'') (cols := cols) hP' S U (by
    show ∀ r ∈ P'.initialRoutes, _
    rw [startSolve_initial hc hstart]
    exact initial_without R.depots hinit) h1
  obtain ⟨r1, free, locked, r2⟩ := locked_periodic (exact := a.dive = false)
    (F := fun k r => ∃ mid, r = routeOf mid ∧ RouteLimits (withoutNodes P0 (lockedNodes a.preassignments)) k mid)
    (F' := fun k r => ∃ mid, r = routeOf mid ∧ RouteLimits P0 k mid) R hperiodic S hfl hschedule hfree (by
      rintro k mid hm ⟨mid', he, hl⟩
      have : mid = mid' := by
        simp only [routeOf, List.cons.injEq, true_and] at he
        exact List.append_cancel_right he
      subst this
      exact ⟨mid, rfl, limits_without R.depots.1 R.depots.2 (fun v hv => (hm v hv).2.2) hl⟩) (fun o1 ho1 => by
      cases hdive : a.dive with
      | false =>
        obtain ⟨-, c2, -⟩ := periodic_of_columns hP'.customer hper' S U hfl hmaster hschedule hpath hi
          hdive (fun _ => hold) (fun rs stm d cost st1 _ _ hs => by
            rcases hw with ⟨hw, hcspy⟩ | ⟨hw, hcspy, htw, htime⟩ | ⟨hw, hcspy, htw, hD, hopt, _⟩
            · exact price_variant hw hP' S U hcspy rs d
            · exact price_windows_lp hw hP' htw (without_travel htime) S U hcspy rs d
            · have hD' := without_nonnegative hP.wf R.depots.1 R.depots.2 hD
              exact price_collect_lp hw hP' htw hD' hcspy S U rs (hw.free S hD' (hopt.without _) hs)) ho1
        exact cover_of_plan c2
      | true =>
        obtain ⟨-, c2⟩ := periodic_dive hper' S U hfl hschedule (hd hdive) hmaster
          (fun hf => by
            rcases hw with ⟨hw, _⟩ | ⟨_, hcspy, _⟩ | ⟨_, hcspy, _⟩
            · exact hw.cspy
            · rw [hcspy] at hf
              cases hf
            · rw [hcspy] at hf
              cases hf) hpath hi hdive (fun _ => hold)
          (fun rs dive stm d cost st1 hdv hs => by
            rcases hw with ⟨hw, hcspy⟩ | ⟨hw, hcspy, htw, htime⟩ | ⟨hw, hcspy, htw, hD, hopt, hsig⟩
            · exact price_variant hw hP' S U hcspy rs d
            · exact price_windows_lp hw hP' htw (without_travel htime) S U hcspy rs d
            · have hD' := without_nonnegative hP.wf R.depots.1 R.depots.2 hD
              exact price_collect_lp hw hP' htw hD' hcspy S U rs
                (dive_free hw (hd hdive) (hsig hdive) S hD' (hopt.without _) hdv hs)) ho1
        exact cover_of_dive (by simp) c2) h
  exact ⟨K, N, free, locked, S.typesOne, r1, r2⟩

/-- **C68, C66, C63 (partial), periodic problems with pickup and delivery**, as `C68_periodic_partial`, if the preassigned routes serve
requests as a whole: the routes that are not preassigned serve requests within the limits. -/
theorem C68_periodic_requests_partial {w : World} {a : SolveArgs} {fuel : Nat} {P0 : Vrp} {o o' : Obj} (hw : LpSound w)
    (hd : a.dive = true → DiveOk w.toEnv) (hschedule : ScheduleOk w) (hP : RequestsData P0) (hperiodic : P0.periodic.getD 0 ≠ 0)
    (hheur : a.heuristicOnly = false) (hfree : SomeCustomerFree P0 a.preassignments) (hwhole : RequestsWhole P0 a.preassignments)
    (hinit : RequestsBesideLocked P0 a.preassignments a.initialRoutes)
    (hc : Obj.create P0 = .ok o) (h : o.solve w a fuel = .ok (some o')) :
    ∃ K N free locked, (P0.mixedFleet = false → K = 1) ∧ o'.P.H = some N ∧
      PeriodicWithLocked w P0 a.preassignments K N (fun k r => ∃ mid, r = routeOf mid ∧ RequestLimits P0 k mid) (a.dive = false) o'
        free locked := by
  unfold Obj.solve at h
  split at h
  · cases h
  rename_i P' hstart
  rw [hheur] at h
  simp only [Bool.false_eq_true, if_false] at h
  have hcspy := startSolve_no_cspy (w := w) hc hP.pickupDelivery hstart
  obtain ⟨K, N, N3, R, S⟩ := searched_locked (w := w) hP.wf hP.customer hP.costs (fun v hv hd => by
    rcases hd with hd | hd
    · rw [hP.pickupDelivery] at hd
      cases hd
    · exact hP.depots v hv hd) hc hstart
  have U := userData_locked (w := w) hP.wf (fun hf => by rw [hP.pickupDelivery] at hf; cases hf) hc hstart R.reports
  have hwl := whole_locked hP hwhole
  have hP' := without_requestsData hP (free_nodes hfree) R.depots.1 hwl
  have hfl := (periodic_fleet hperiodic hc hstart).2
  have hper' : (withoutNodes P0 (lockedNodes a.preassignments)).periodic.getD 0 ≠ 0 := hperiodic
  have hold : o.solution.dropped = [] := by
    obtain ⟨G, _, rfl⟩ := create_ok hc
    rfl
  have hi := fun P'' cols h1 => initial_requests (cw := w.cw) (fuel := fuel) (P'' := P'') (cols := cols) hP' S U (by
    show ∀ r ∈ P'.initialRoutes, _
    rw [startSolve_initial hc hstart]
    exact requests_initial_without R.depots hinit) h1
  obtain ⟨r1, free, locked, r2⟩ := locked_periodic (exact := a.dive = false)
    (F := fun k r => ∃ mid, r = routeOf mid ∧ RequestLimits (withoutNodes P0 (lockedNodes a.preassignments)) k mid)
    (F' := fun k r => ∃ mid, r = routeOf mid ∧ RequestLimits P0 k mid) R hperiodic S hfl hschedule hfree (by
      rintro k mid hm ⟨mid', he, hl⟩
      have : mid = mid' := by
        simp only [routeOf, List.cons.injEq, true_and] at he
        exact List.append_cancel_right he
      subst this
      exact ⟨mid, rfl, requestLimits_without R.depots.1 R.depots.2 hwl (fun v hv => (hm v hv).2.2) hl⟩) (fun o1 ho1 => by
      cases hdive : a.dive with
      | false =>
        obtain ⟨-, c2, -⟩ := periodic_of_columns hP'.customer hper' S U hfl hw.master hschedule hw.path hi
          hdive (fun _ => hold) (fun rs _ d _ _ _ _ _ => price_requests hw hP' S U hcspy rs d) ho1
        exact cover_of_plan c2
      | true =>
        obtain ⟨-, c2⟩ := periodic_dive hper' S U hfl hschedule (hd hdive) hw.master
          (fun hf => by rw [hcspy] at hf; cases hf) hw.path hi hdive (fun _ => hold)
          (fun rs _ _ d _ _ _ _ => price_requests hw hP' S U hcspy rs d) ho1
        exact cover_of_dive (by simp) c2) h
  exact ⟨K, N, free, locked, S.typesOne, r1, r2⟩

/-! ## Examples -/

/-- All hypotheses of `C68_periodic_partial` hold for the example, with LP pricing and without diving. -/
example : let w := scheduling exLpWorld
    LpWorldOk PositiveCycles w ∧ ScheduleOk w ∧ CapacitatedData (twoDays (lockedPlan false)) ∧
    NonnegativeData (twoDays (lockedPlan false)) ∧ OptionDuals w.toEnv (twoDays (lockedPlan false)) ∧
    SomeCustomerFree (twoDays (lockedPlan false)) lockedArgs.preassignments ∧
    (∀ r ∈ lockedArgs.initialRoutes, r.Nodup ∧ WithinStops (twoDays (lockedPlan false)).numStops.stops (stops r).length) ∧
    periodicOf w lockedArgs 5 (twoDays (lockedPlan false)) =
      .ok (some (⟨[(1, routeOf [.cust 1, .cust 2]), (2, routeOf [.cust 3])], [(1, 0), (2, 0)], []⟩, [(0, [1]), (1, [2])])) :=
  ⟨scheduling_lp exLpWorld_ok, scheduling_ok _, ⟨lockedPlan_capacitated.wf, lockedPlan_capacitated.customer,
    lockedPlan_capacitated.costs, lockedPlan_capacitated.demand, lockedPlan_capacitated.service, rfl, rfl, rfl,
    lockedPlan_capacitated.oneCapacity⟩, ⟨(lockedPlan_nonnegative false).service, (lockedPlan_nonnegative false).time,
    (lockedPlan_nonnegative false).cost⟩, OptionDuals.plain rfl rfl, lockedPlan_free false, exLpArgs_initial,
    Solve.eq_ok_of_toOption (by decide +kernel)⟩

/-- With diving. -/
example : let w := scheduling (divingWorld exLpWorld)
    LpWorldOk PositiveCycles w ∧ DiveOk w.toEnv ∧ DiveSigned w.toEnv ∧ ScheduleOk w ∧
    periodicOf w lockedDivingArgs 5 (twoDays (lockedPlan false)) =
      .ok (some (⟨[(1, routeOf [.cust 1, .cust 2]), (2, routeOf [.cust 3])], [(1, 0), (2, 0)], []⟩, [(0, [1]), (1, [2])])) :=
  ⟨scheduling_lp (divingWorld_ok exLpWorld_ok).1, scheduling_dive (divingWorld_ok exLpWorld_ok).2.1, (divingWorld_ok exLpWorld_ok).2.2,
    scheduling_ok _, Solve.eq_ok_of_toOption (by decide +kernel)⟩

/-- All hypotheses of `C68_periodic_variants_partial` hold for the example with collection. -/
example : let w := scheduling collectWorld
    LibrariesFor (twoDays (lockedPlan true)) lockedArgs w ∧ ScheduleOk w ∧ VariantData (twoDays (lockedPlan true)) ∧
    SomeCustomerFree (twoDays (lockedPlan true)) lockedArgs.preassignments ∧
    InitialBesideLocked (twoDays (lockedPlan true)) lockedArgs.preassignments lockedArgs.initialRoutes ∧
    periodicOf w lockedArgs 5 (twoDays (lockedPlan true)) =
      .ok (some (⟨[(1, routeOf [.cust 1, .cust 2]), (2, routeOf [.cust 3])], [(1, 0), (2, 0)], []⟩, [(0, [1]), (1, [2])])) := by
  have hL := lockedPlan_collecting
  refine ⟨Or.inr (Or.inr ⟨scheduling_lp collectWorld_ok, rfl, rfl, ⟨(lockedPlan_nonnegative true).service,
      (lockedPlan_nonnegative true).time, (lockedPlan_nonnegative true).cost⟩, OptionDuals.plain rfl rfl, fun h => (by cases h)⟩),
    scheduling_ok _, ⟨hL.wf, hL.customer, hL.costs, hL.demand, hL.service, hL.either, hL.source, hL.windows, hL.collect,
      hL.pickupDelivery, hL.oneCapacity⟩, lockedPlan_free true, ?_, Solve.eq_ok_of_toOption (by decide +kernel)⟩
  intro r hr
  obtain ⟨h1, h2, h3⟩ := lockedPlan_initial r hr
  refine ⟨h1, h2, fun mid k he hcap => ?_⟩
  obtain ⟨h4, h5⟩ := h3 mid k he hcap
  exact ⟨⟨h4.stops, h4.load, h4.windows, h4.goods, h4.duration⟩, h5⟩

/-- All hypotheses of `C68_periodic_requests_partial` hold for two requests. -/
example : let w := scheduling exWorld6
    let Q := [routeOf [.cust 2, .cust 4]]
    LpSound w ∧ ScheduleOk w ∧ RequestsData (twoDays exRequests) ∧ SomeCustomerFree (twoDays exRequests) Q ∧
    RequestsWhole (twoDays exRequests) Q ∧ RequestsBesideLocked (twoDays exRequests) Q [] ∧
    periodicOf w { cspy := false, preassignments := Q } 5 (twoDays exRequests) =
      .ok (some (⟨[(1, routeOf [.cust 1, .cust 3]), (2, routeOf [.cust 2, .cust 4])], [(1, 0), (2, 0)], []⟩, [(0, [1]), (1, [2])])) := by
  refine ⟨scheduling_sound (lpWorld_ok _ _ _), scheduling_ok _,
    ⟨exRequests_ok.wf, exRequests_ok.costs, exRequests_ok.depots, exRequests_ok.service, exRequests_ok.customer, exRequests_ok.ends,
      exRequests_ok.amounts, exRequests_ok.distinct, exRequests_ok.others, exRequests_ok.fits, exRequests_ok.twoStops,
      exRequests_ok.source, exRequests_ok.windows, exRequests_ok.pickupDelivery, exRequests_ok.distributionCollection,
      exRequests_ok.oneCapacity⟩, ⟨1, by decide, ?_⟩, ?_, fun r hr => (by cases hr), Solve.eq_ok_of_toOption (by decide +kernel)⟩
  · intro p hp _
    simp only [List.mem_cons, List.not_mem_nil, or_false] at hp
    subst hp
    decide
  · intro v w hvw
    simp only [List.mem_cons, List.not_mem_nil, or_false, exists_eq_left]
    rcases exRequests_request hvw with ⟨rfl, rfl⟩ | ⟨rfl, rfl⟩
    · simp [routeOf]
    · simp [routeOf]

/-! ## Counterexamples -/

/-- Two customers, the first to be visited on two days, two vehicles. -/
def twiceVisited : Vrp := { exWeekly 2 2 1 with numVehicles := .one 2 }

theorem twiceVisited_capacitated : CapacitatedData twiceVisited :=
  let h := exWeekly_capacitated 2 2 1
  ⟨h.wf, h.customer, h.costs, h.demand, h.service, rfl, rfl, rfl, h.oneCapacity⟩

/-- **C66**, counterexample with preassigned routes: the two preassigned routes through customer 1, who is to be visited on two
days, are scheduled for the same day, although there is a schedule with the same difference between the days that visits them on both. -/
theorem C66_locked_counterexample : let w := periodicWorld [choosing [1]] (fun _ _ => 0) [onDays [(1, 0), (2, 1), (3, 1)] 2 1]
    let a : SolveArgs := { initialRoutes := [routeOf [.cust 2]], preassignments := [routeOf [.cust 1], routeOf [.cust 1]] }
    let S : Solution := ⟨[(1, routeOf [.cust 2]), (2, routeOf [.cust 1]), (3, routeOf [.cust 1])], [(1, 0), (2, 0), (3, 0)], []⟩
    WorldOk w ∧ ScheduleOk w ∧ CapacitatedData twiceVisited ∧ SomeCustomerFree twiceVisited a.preassignments ∧
    (∀ r ∈ a.initialRoutes, r.Nodup ∧ WithinStops twiceVisited.numStops.stops (stops r).length) ∧
    periodicOf w a 5 twiceVisited = .ok (some (S, [(0, [1]), (1, [2, 3])])) ∧
    ¬ PeriodicSchedule twiceVisited S [(0, [1]), (1, [2, 3])] ∧ PeriodicSchedule twiceVisited S [(0, [1, 2]), (1, [3])] := by
  refine ⟨periodicWorld_ok _ _ _, periodicWorld_schedule _ _ _, twiceVisited_capacitated, ⟨2, by decide, fun p hp _ => (by decide : ∀ p ∈ [routeOf [.cust 1]], Node.cust 2 ∉ p) p (by simpa using hp)⟩, ?_,
    Solve.eq_ok_of_toOption (by decide +kernel), ?_, ?_⟩
  · intro r hr
    refine ⟨?_, fun m hm => absurd hm (by simp [twiceVisited, exWeekly, PyVal.stops])⟩
    revert r
    decide
  · intro h
    exact absurd (h.once (1, [2, 3]) (by simp) (.cust 1) (by decide +kernel)) (by decide)
  · refine ⟨by decide, by decide, by decide, ?_, ?_⟩
    · intro e he v hv
      simp only [List.mem_cons, List.not_mem_nil, or_false] at he
      cases v with
      | source => exact absurd hv (by simp [customerDemand, Node.isDepot])
      | sink => exact absurd hv (by simp [customerDemand, Node.isDepot])
      | cust n =>
        rcases he with rfl | rfl <;> simp only [visitsOf, dget, routeOf] <;>
          simp [List.count_cons] <;> split <;> (try split) <;> omega
    · intro e he k n hk
      have hk0 : k = 0 := by
        by_contra hne
        have : (userFleet twiceVisited.numVehicles)[k]? = none := List.getElem?_eq_none (by simp [twiceVisited, userFleet]; omega)
        rw [this] at hk
        cases hk
      subst hk0
      have : n = 2 := by
        have h2 : (userFleet twiceVisited.numVehicles)[0]? = some 2 := by decide
        rw [h2] at hk
        simpa using hk.symm
      subst this
      revert e
      decide

/-- **C68**, counterexample: a customer who is to be visited on two days and is on one preassigned route is visited once only. -/
theorem C68_frequency_counterexample : let w := periodicWorld [choosing [1]] (fun _ _ => 0) [onDays [(1, 0), (2, 1)] 1 1]
    let a : SolveArgs := { initialRoutes := [routeOf [.cust 2]], preassignments := [routeOf [.cust 1]] }
    let S : Solution := ⟨[(1, routeOf [.cust 2]), (2, routeOf [.cust 1])], [(1, 0), (2, 0)], []⟩
    WorldOk w ∧ ScheduleOk w ∧ CapacitatedData twiceVisited ∧ SomeCustomerFree twiceVisited a.preassignments ∧
    periodicOf w a 5 twiceVisited = .ok (some (S, [(0, [1]), (1, [2])])) ∧
    visitCount S (.cust 1) = 1 ∧ userFrequency twiceVisited.G (.cust 1) = 2 :=
  ⟨periodicWorld_ok _ _ _, periodicWorld_schedule _ _ _, twiceVisited_capacitated, ⟨2, by decide, fun p hp _ => (by decide : ∀ p ∈ [routeOf [.cust 1]], Node.cust 2 ∉ p) p (by simpa using hp)⟩,
    Solve.eq_ok_of_toOption (by decide +kernel), by decide, by decide +kernel⟩

end Vrpy
