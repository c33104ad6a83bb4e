import Verif.Props.EndToEndDive
import Verif.Props.EndToEndPeriodic
import Verif.Props.HeuristicOnly
import Verif.Props.Savings

/-!
# C62 for capacitated problems: the duration without time windows and without collection
-/

namespace Vrpy

open Spec

/-- Nobody takes service time. -/
def Spec.NoServiceTimes (G : DiGraph) : Prop := ∀ v ∈ G.nodes, (G.nd v).serviceTime.getD 0 = 0

/-- The travel times of the network searched are symmetric if those of the user are. -/
theorem Searched.symmetric {P0 P' : Vrp} {K : Nat} {N N3 : Net} (S : Searched P0 P' K N N3)
    (hconn : DepotConnected N3) (hsym : SymmetricUserTimes P0.G) : SymmetricTimes N3 := by
  have htime : ∀ u v, v ∈ N3.succ u → N3.time u v = userTime P0.G u v := by
    intro u v hv
    rw [S.same.time, S.time u v (S.same.succ u v hv)]
    rfl
  exact ⟨fun u v hv hu => by
      rw [htime u v hv, htime v u hu]
      exact (hsym.sym u v).resolve_right (fun hn => hn
        ⟨S.userArcs u v (S.same.succ u v hv), S.userArcs v u (S.same.succ v u hu)⟩),
    fun n hn => by
      rw [htime _ _ (hconn n hn).1, htime _ _ (hconn n hn).2]
      exact hsym.depot n (by rw [← S.userNodes, ← S.nodes]; exact hn)⟩

/-- The duration of a route of the network searched, in terms of the user's data. -/
theorem Searched.duration_eq {P0 P' : Vrp} {K : Nat} {N N3 : Net} (S : Searched P0 P' K N N3) {r : List Node}
    (hr : IsSimpleRoute N3 r) : Spec.duration N3 r = userDuration P0.G r := by
  have hrN : IsSimpleRoute N r := isSimpleRoute_mono (fun v hv => by rw [← S.nodes]; exact hv) S.same.succ hr
  obtain ⟨⟨mid, hmid, hm, hal⟩, hnd⟩ := id hrN
  have he : Spec.duration N3 r = Spec.duration N r := by
    unfold Spec.duration travel
    rw [S.same.time, S.same.service]
  rw [he, duration_user S hal (route_mem_nodes S.wf hrN.1)]

/-- Round trips of the network searched are within the duration. -/
theorem Searched.roundTrips {P0 P' : Vrp} {K : Nat} {N N3 : Net} (S : Searched P0 P' K N N3) (hconn : DepotConnected N3)
    (hfit : RoundTripsFit P0) :
    ∀ v ∈ N3.customers, Within P0.duration.limit (Spec.duration N3 [.source, v, .sink]) := by
  intro v hv
  obtain ⟨hvn, h1, h2⟩ := mem_customers.1 hv
  obtain ⟨n, rfl⟩ : ∃ n, v = .cust n := by
    cases v with
    | source => exact absurd rfl h1
    | sink => exact absurd rfl h2
    | cust n => exact ⟨n, rfl⟩
  have harc := hconn n hvn
  have hr : IsSimpleRoute N3 (routeOf [.cust n]) :=
    ⟨⟨[.cust n], rfl, by
      intro x hx
      rw [List.mem_singleton] at hx
      subst hx
      exact ⟨⟨n, rfl⟩, hvn⟩, harc.1, harc.2, trivial⟩, by simp [routeOf]⟩
  have := S.duration_eq hr
  show Within _ (Spec.duration N3 (routeOf [.cust n]))
  rw [this]
  exact hfit n (by rw [← S.userNodes, ← S.nodes]; exact hvn)

/-- The first routes are within the duration. -/
theorem initial_durations {P0 P' : Vrp} {K : Nat} {N N3 : Net} {cw : ℚ → CWOracle} {fuel : Nat} {rs : List (List Node)}
    (hP : CapacitatedData P0) (S : Searched P0 P' K N N3) (hcw : ∀ x, (cw x).Valid) (hsym : SymmetricUserTimes P0.G)
    (hfit : RoundTripsFit P0)
    (hinit : ∀ r ∈ P'.initialRoutes, r.Nodup ∧
      (IsSimpleRoute N3 r → stops r ≠ [] → Within P0.duration.limit (userDuration P0.G r)))
    (hch : P'.chooseInitial N3 cw fuel = .ok (some rs)) :
    ∀ r ∈ rs, IsSimpleRoute N3 r ∧ (stops r ≠ [] → Within P0.duration.limit (Spec.duration N3 r)) := by
  obtain ⟨hconn, hdirect⟩ := S.depots hP.timeWindows
  obtain ⟨f1, f2, f3, f4, f5, f6, f7, f8, f9, f10, f11⟩ := S.fields
  by_cases hno : P'.initialRoutes = []
  · have hcostN3 : CostsFor N3 1 := by
      intro u v hv
      rw [S.same.costLength, S.costs u v (S.same.succ u v hv)]
      exact S.typesPos
    have hserv : N3.service .source = 0 ∧ N3.service .sink = 0 := by
      rw [S.same.service]; exact S.serviceDepots hP.service.1 hP.service.2
    have hdem : N3.demand .source = 0 ∧ N3.demand .sink = 0 := by rw [S.same.demand]; exact S.demandDepots
    obtain ⟨_, _, h3⟩ := initial_facts P' N3 cw S.wfSearch hconn hcostN3 hdirect hcw hdem hserv hno
      (by rw [f3]; exact hP.pickupDelivery) (by rw [S.caps]; exact S.capsPos)
      (by
        intro hpl
        rw [S.caps]
        apply hP.oneCapacity
        simp only [Vrp.plain, f6, Bool.and_eq_true, Bool.not_eq_true'] at hpl
        exact hpl.1.2)
      (by
        intro v hv
        rw [S.caps, S.same.demand]
        apply S.fit
        rw [mem_customers] at hv ⊢
        rw [← S.nodes]
        exact hv) hch
    intro r hr
    refine ⟨(h3 r hr).1, fun hne => ?_⟩
    unfold Vrp.chooseInitial at hch
    simp only [hno, ne_eq, not_true_eq_false, if_false] at hch
    have hround := S.roundTrips hconn hfit
    by_cases hpl : P'.plain = true
    · obtain ⟨f, val, rg, hf, hg, hmem⟩ := C76_weights P' N3 cw fuel hpl hch
      rcases (hmem r).1 hr with ⟨k, hk1, hk2, hrk⟩ | hrg
      · obtain ⟨val', hrun⟩ := hf k hk1 hk2
        have := C09_clarke_wright_duration_partial N3 _ _ S.wfSearch hconn hcostN3 (hcw _) (S.symmetric hconn hsym) hserv
          (by
            show ∀ v ∈ N3.customers, Within P'.duration.limit _
            rw [f11]
            exact hround) _ _ hrun r hrk
        rw [← f11]
        exact this
      · obtain ⟨_, _, g3, _⟩ := C11_greedy_feasible N3 _ S.wfSearch hconn hcostN3 hdirect hdem hserv _ _ _ hg
        rw [← f11]
        exact (g3 r hrg hne).2
    · unfold Vrp.initialSolution at hch
      rw [if_neg hpl, f3, hP.pickupDelivery] at hch
      simp only [Bool.false_eq_true, if_false, Except.ok.injEq, Option.some.injEq] at hch
      subst hch
      obtain ⟨v, hv, rfl⟩ := List.mem_map.1 hr
      exact hround v hv
  · unfold Vrp.chooseInitial at hch
    rw [if_pos hno] at hch
    split at hch
    · cases hch
    · rename_i hck
      simp only [Except.ok.injEq, Option.some.injEq] at hch
      subst hch
      obtain ⟨hgood, _⟩ := (C38_accepts_exactly _ _).1 hck
      intro r hr
      obtain ⟨h1, h2, h3⟩ := hgood r hr
      have hs : IsSimpleRoute N3 r := ⟨route_of_walk S.wfSearch h1 h2 h3, (hinit r hr).1⟩
      refine ⟨hs, fun hne => ?_⟩
      rw [S.duration_eq hs]
      exact (hinit r hr).2 hs hne

/-- A route with customers is within the duration. -/
def Spec.InTime (P : Vrp) (r : List Node) : Prop := stops r ≠ [] → Within P.duration.limit (userDuration P.G r)

/-- The first columns stand for routes within the duration. -/
theorem initial_inTime {P0 P' P'' : Vrp} {K : Nat} {N N3 : Net} {cw : ℚ → CWOracle} {fuel : Nat} {cols : List Column}
    (hP : CapacitatedData P0) (S : Searched P0 P' K N N3) (hcw : ∀ x, (cw x).Valid) (hsym : SymmetricUserTimes P0.G)
    (hfit : RoundTripsFit P0) (hinit : ∀ r ∈ P'.initialRoutes, r.Nodup ∧ (IsSimpleRoute N3 r → InTime P0 r))
    (h : P'.initialize P'.G.toNet cw fuel = .ok (some (P'', cols))) :
    Solve.Numbered cols ∧ (∀ c ∈ cols, ColumnFor N3 K (fun _ => InTime P0) c) ∧ ∃ rs, P'' = { P' with initialRoutes := rs } := by
  refine initial_columns hP.oneCapacity S ?_ h
  intro rs hch r hr _
  obtain ⟨h1, h2⟩ := initial_durations hP S hcw hsym hfit hinit hch r hr
  refine ⟨h1, fun _ _ hne => ?_⟩
  rw [← S.duration_eq h1]
  exact h2 hne

/-- Pricing with cspy yields routes within the duration, if nobody takes service time. -/
theorem price_inTime {w : World} {a : SolveArgs} {P0 P' : Vrp} {K : Nat} {N N3 : Net}
    (hw : ∀ t q, CspySound q (w.cspy t q)) (hpaths : ∀ t, PathsOk (w.paths t)) (hP : CapacitatedData P0) (S : Searched P0 P' K N N3)
    (hcspy : a.cspy = true) (hgreedy : a.greedy = false) (hserv : NoServiceTimes P0.G) (rs : List (List Node)) (d : Duals) :
    Solve.PriceOk (({ P' with initialRoutes := rs } : Vrp).solveCfg a w.falsy) w.toEnv d
      (ColumnFor N3 K (fun _ => InTime P0)) := by
  obtain ⟨f1, f2, f3, f4, f5, f6, f7, f8, f9, f10, f11⟩ := S.fields
  have hN3 : P'.G.toNet = N3 := by rw [S.graph]; rfl
  generalize hcfg : ({ P' with initialRoutes := rs } : Vrp).solveCfg a w.falsy = cfg at *
  have hMG : cfg.M.G = N3 := by rw [← hcfg]; exact hN3
  have hK : cfg.K = K := by
    rw [← hcfg]
    show P'.vehicleTypes.getD 0 = K
    rw [S.types]
    rfl
  have hdur : cfg.duration = P0.duration.limit := by rw [← hcfg, ← f11]; rfl
  have hc : cfg.cspy = true := by rw [← hcfg]; exact hcspy
  have hcustom : cfg.timeWindows = false ∧ cfg.distributionCollection = false ∧ cfg.pickupDelivery = false := by
    rw [← hcfg]
    exact ⟨f2.trans hP.timeWindows, f4.trans hP.distributionCollection, f3.trans hP.pickupDelivery⟩
  have hgr : Solve.usesGreedy cfg = false := by
    have : cfg.greedy = false := by rw [← hcfg]; exact hgreedy
    simp [Solve.usesGreedy, this]
  constructor
  · intro k hk t route cols s cols' _ h c hcc
    unfold Solve.price at h
    cases hs : subProblem cfg.M.G d k route (w.toEnv.paths t) s with
    | error e => simp [hs] at h
    | ok wS =>
      obtain ⟨wt, Sg⟩ := wS
      simp only [hs, hc, if_true] at h
      have hsub := C15_subgraph hs
      rw [hMG] at hsub
      obtain ⟨col, r, rfl, hpath, htype, hroute, _, _, _, _, htravel, henc, hnon, _⟩ :=
        C21_columns_partial (subProblem_wf (by rw [hMG]; exact S.wfSearch) (hpaths t) hs)
          (by rw [hsub.demand, S.same.demand]; exact S.demandDepots.1)
          (by rw [hsub.service, S.same.service]; exact (S.serviceDepots hP.service.1 hP.service.2).2) (hw t _) h
      rw [List.mem_append, List.mem_singleton] at hcc
      rcases hcc with hcc | rfl
      · exact Or.inl hcc
      right
      refine ⟨by rw [htype, ← hK]; exact hk, ?_⟩
      by_cases hnd : r.Nodup
      · right
        obtain ⟨_, he⟩ := henc hnd
        have hr3 : IsSimpleRoute N3 r := isSimpleRoute_mono hsub.nodes hsub.arcs ⟨hroute, hnd⟩
        refine ⟨r, hr3, ⟨he.nodes, he.edges, fun p hp => by rw [hpath] at hp; exact (Option.some.inj hp).symm⟩, fun _ => ?_⟩
        have ht := htravel (by simp [Cspy.custom, hcustom])
        rw [← S.duration_eq hr3]
        have h0 : (r.map N3.service).sum = 0 := by
          refine List.sum_eq_zero ?_
          intro x hx
          obtain ⟨v, hv, rfl⟩ := List.mem_map.1 hx
          have hvn : v ∈ N.nodes := by
            rw [← S.nodes]
            exact route_mem_nodes S.wfSearch hr3.1 v hv
          rw [S.same.service, S.service v hvn]
          exact hserv v (by rw [← S.userNodes]; exact hvn)
        have he : Spec.duration N3 r = travel Sg.G r := by
          rw [Spec.duration, h0, add_zero]
          unfold travel
          rw [hsub.time]
        rw [he, ← hdur]
        exact ht
      · exact Or.inl ⟨_, hnon hnd⟩
  · intro k hk st st' h c hcc
    unfold Solve.greedyPhase at h
    rw [hgr] at h
    simp only [Bool.false_eq_true, if_false, Except.ok.injEq] at h
    subst h
    exact Or.inl hcc

/-- LP pricing yields routes within the duration. -/
theorem lp_inTime {w : World} {a : SolveArgs} {P0 P' : Vrp} {K : Nat} {N N3 : Net} (hw : LpWorldOk PositiveCycles w)
    (hP : CapacitatedData P0) (hD : NonnegativeData P0)
    (hcspy : a.cspy = false) (hgreedy : a.greedy = false) (S : Searched P0 P' K N N3) (rs : List (List Node)) {d : Duals}
    (hfree : EmptyTripFree (({ P' with initialRoutes := rs } : Vrp).solveCfg a w.falsy) d) :
    Solve.PriceOk (({ P' with initialRoutes := rs } : Vrp).solveCfg a w.falsy) w.toEnv d
      (ColumnFor N3 K (fun _ => InTime P0)) := by
  obtain ⟨f1, f2, f3, f4, f5, f6, f7, f8, f9, f10, f11⟩ := S.fields
  have hN3 : P'.G.toNet = N3 := by rw [S.graph]; rfl
  generalize hcfg : ({ P' with initialRoutes := rs } : Vrp).solveCfg a w.falsy = cfg at *
  have hMG : cfg.M.G = N3 := by rw [← hcfg]; exact hN3
  have htw : cfg.timeWindows = false := by rw [← hcfg]; exact f2.trans hP.timeWindows
  have hdur : cfg.duration = P0.duration.limit := by rw [← hcfg, ← f11]; rfl
  have hK : cfg.K = K := by
    rw [← hcfg]
    show P'.vehicleTypes.getD 0 = K
    rw [S.types]
    rfl
  have hgr : Solve.usesGreedy cfg = false := by
    have : cfg.greedy = false := by rw [← hcfg]; exact hgreedy
    simp [Solve.usesGreedy, this]
  constructor
  · intro k hk t route cols s cols' _ h c hcc
    obtain ⟨wt, c', r, _, rfl, htype, _, hdraw, hsimple, _, _, _, hwithin, _⟩ :=
      Solve.lp_column (by rw [← hcfg]; exact hcspy) (by rw [hMG]; exact S.wfSearch)
        (by rw [hMG, S.same.demand]; exact S.demandDepots.1)
        (by rw [hMG, S.same.service]; exact (S.serviceDepots hP.service.1 hP.service.2).2)
        (by rw [← hcfg]; exact f3.trans hP.pickupDelivery)
        (fun hb => by rw [show cfg.distributionCollection = false by rw [← hcfg]; exact f4.trans hP.distributionCollection] at hb; cases hb)
        (hw.paths t) (hw.sound t)
        (fun wt hwt => Solve.noCycles_free hfree hw.exact (by rw [hMG, htw]; exact S.nonnegative hP.demand hD)
          (fun wt => hw.cycles _ wt (by rw [hMG]; exact S.wfSearch)) hwt) h
    rw [List.mem_append, List.mem_singleton] at hcc
    rcases hcc with hcc | rfl
    · exact Or.inl hcc
    · rw [hMG] at hsimple hwithin
      refine Or.inr ⟨by rw [htype, ← hK]; exact hk, Or.inr ⟨r, hsimple, hdraw, fun _ => ?_⟩⟩
      rw [← S.duration_eq hsimple, ← hdur]
      exact hwithin
  · intro k hk st st' h c hcc
    unfold Solve.greedyPhase at h
    rw [hgr] at h
    simp only [Bool.false_eq_true, if_false, Except.ok.injEq] at h
    subst h
    exact Or.inl hcc

/-- **C62 (partial), capacitated problems.** Let a problem without time windows, collection, and pickups be handed to the
constructor, periodic or not, and `solve()` be called without greedy pricing, and let it return, however the solvers behave
within their contracts.  If travel times are symmetric (for the savings heuristic, C09), every round trip fits and pricing is by
LP, or by cspy and there are no service times (which cspy does not count then, C21), no reported route with customers takes longer
than the duration.  What is missing: the conditions are needed, see `C62_service_counterexample` and
`C62_greedy_counterexample`; for LP those of C55; preassigned routes. -/
theorem C62_capacitated_partial {w : World} {a : SolveArgs} {fuel : Nat} {P0 : Vrp} {o o' : Obj}
    (hw : WorldOk w ∧ a.cspy = true ∧ NoServiceTimes P0.G ∨
      LpWorldOk PositiveCycles w ∧ a.cspy = false ∧ NonnegativeData P0 ∧ OptionDuals w.toEnv P0)
    (hP : CapacitatedData P0) (hschedule : P0.periodic.getD 0 ≠ 0 → ScheduleOk w) (hsym : SymmetricUserTimes P0.G)
    (hfit : RoundTripsFit P0) (hpre : a.preassignments = [])
    (hdive : a.dive = false) (hheur : a.heuristicOnly = false) (hgreedy : a.greedy = false)
    (hinit : ∀ r ∈ a.initialRoutes, r.Nodup ∧ InTime P0 r)
    (hc : Obj.create P0 = .ok o) (h : o.solve w a fuel = .ok (some o')) :
    ∀ i r, (i, r) ∈ o'.solution.routes → stops r ≠ [] → Within P0.duration.limit (userDuration P0.G r) := by
  unfold Obj.solve at h
  split at h
  · cases h
  rename_i P' hstart
  rw [hheur] at h
  simp only [Bool.false_eq_true, if_false] at h
  obtain ⟨K, N, N3, S⟩ := searched (w := w) hP.wf hP.customer hP.costs hP.demand hpre hc hstart
  have hold : o.solution.dropped = [] := by
    obtain ⟨G, _, rfl⟩ := create_ok hc
    rfl
  have hi := startSolve_initial hc hstart
  have hcw : ∀ x, (w.cw x).Valid := hw.elim (fun h => h.1.cw) (fun h => h.1.cw)
  have hmaster : ∀ t, MasterSolverSound (w.master t) := hw.elim (fun h => h.1.master) (fun h => h.1.master)
  have hpath : ∀ (c : Column) (p : List Node), IsShortestPath c.edges p → IsShortestPath c.edges (w.path c) :=
    hw.elim (fun h => h.1.path) (fun h => h.1.path)
  have hini : ∀ P'' cols, P'.initialize P'.G.toNet w.cw fuel = .ok (some (P'', cols)) → Solve.Numbered cols ∧
      (∀ c ∈ cols, ColumnFor N3 K (fun _ => InTime P0) c) ∧ ∃ rs, P'' = { P' with initialRoutes := rs } :=
    fun P'' cols h1 => initial_inTime hP S hcw hsym hfit
      (by rw [hi]; exact fun r hr => ⟨(hinit r hr).1, fun _ => (hinit r hr).2⟩) h1
  have hprice : ∀ rs stm d cost st1, Solve.Inv stm → (∀ c ∈ stm.cols, ColumnFor N3 K (fun _ => InTime P0) c) →
      Solve.solveMaster (({ P' with initialRoutes := rs } : Vrp).solveCfg a w.falsy) w.toEnv false stm = .ok (d, cost, st1) →
      Solve.PriceOk (({ P' with initialRoutes := rs } : Vrp).solveCfg a w.falsy) w.toEnv d (ColumnFor N3 K (fun _ => InTime P0)) := by
    intro rs stm d cost st1 _ _ hs
    rcases hw with ⟨hw, hcs, hno⟩ | ⟨hw, hcs, hD, hopt⟩
    · exact price_inTime hw.cspy hw.paths hP S hcs hgreedy hno rs d
    · exact lp_inTime hw hP hD hcs hgreedy S rs (hw.free S hD hopt hs)
  by_cases hper : P0.periodic.getD 0 = 0
  · obtain ⟨_, r2, _⟩ := plan_of_columns (F := fun _ => InTime P0) hP.customer hper S hmaster hpath hini hdive (fun _ => hold) hprice h
    intro i r hir
    obtain ⟨_, _, _, _, _, _, _, _, hF⟩ := r2.routes i r hir
    exact hF
  · have U := userData (w := w) hP.wf hP.demand hpre hc hstart S.reports
    obtain ⟨_, r2, _⟩ := periodic_of_columns (F := fun _ => InTime P0) hP.customer hper S U (periodic_fleet hper hc hstart).2 hmaster
      (hschedule hper) hpath hini hdive (fun _ => hold) hprice h
    intro i r hir
    obtain ⟨_, _, _, _, _, _, _, _, hF⟩ := r2.routes i r hir
    exact hF

/-- **C62 (partial), capacitated problems, diving.** As `C62_capacitated_partial`, for `solve(dive=True)` and cspy. -/
theorem C62_capacitated_dive_partial {w : World} {a : SolveArgs} {fuel : Nat} {P0 : Vrp} {o o' : Obj} (hw : WorldOk w)
    (hd : DiveOk w.toEnv) (hcspy : a.cspy = true) (hserv : NoServiceTimes P0.G) (hP : Capacitated P0) (hsym : SymmetricUserTimes P0.G)
    (hfit : RoundTripsFit P0) (hpre : a.preassignments = [])
    (hdive : a.dive = true) (hheur : a.heuristicOnly = false) (hgreedy : a.greedy = false)
    (hinit : ∀ r ∈ a.initialRoutes, r.Nodup ∧ InTime P0 r)
    (hc : Obj.create P0 = .ok o) (h : o.solve w a fuel = .ok (some o')) :
    ∀ i r, (i, r) ∈ o'.solution.routes → stops r ≠ [] → Within P0.duration.limit (userDuration P0.G r) := by
  unfold Obj.solve at h
  split at h
  · cases h
  rename_i P' hstart
  rw [hheur] at h
  simp only [Bool.false_eq_true, if_false] at h
  obtain ⟨K, N, N3, S⟩ := searched (w := w) hP.wf hP.customer hP.costs hP.demand hpre hc hstart
  have hold : o.solution.dropped = [] := by
    obtain ⟨G, _, rfl⟩ := create_ok hc
    rfl
  have hi := startSolve_initial hc hstart
  obtain ⟨_, r2, _⟩ := cover_of_columns (F := fun _ => InTime P0) hP.periodic S hd hw.master (fun _ => hw.cspy) hw.path
    (fun P'' cols h1 => initial_inTime hP.toCapacitatedData S hw.cw hsym hfit
      (by rw [hi]; exact fun r hr => ⟨(hinit r hr).1, fun _ => (hinit r hr).2⟩) h1) hdive (fun _ => hold)
    (fun rs _ _ d _ _ _ _ => price_inTime hw.cspy hw.paths hP.toCapacitatedData S hcspy hgreedy hserv rs d) h
  intro i r hir
  obtain ⟨_, _, _, _, _, _, _, _, hF⟩ := r2.routes i r hir
  exact hF

end Vrpy
