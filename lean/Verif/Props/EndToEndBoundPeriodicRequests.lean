import Verif.Props.EndToEndBoundPeriodic
import Verif.Props.EndToEndBoundRequests

/-!
# C70 for periodic problems with pickup and delivery
-/

namespace Vrpy

open Spec

/-- The routes transport the requests over the horizon, within the limits: every customer is visited as often as the user wants,
dropping it saves one visit. -/
def Spec.TransportsHorizon (P : Vrp) (K : Nat) (S : Solution) : Prop :=
  PeriodicPlanFor P K (fun k r => ∃ mid, r = routeOf mid ∧ RequestRoute P k mid) S ∧
    ∀ n, Node.cust n ∈ P.G.nodes →
      (visitCount S (.cust n) : ℚ) + (if Node.cust n ∈ S.dropped then 1 else 0) = userFrequency P.G (.cust n)

/-- What column generation for a periodic problem ends with, with pickup and delivery. -/
theorem horizon_requests_generation {w : World} {a : SolveArgs} {fuel : Nat} {P0 P' : Vrp} {o : Obj} {rs : List (List Node)}
    {cols : List Column} {K : Nat} {N N3 : Net} {m : Heur} {stc : SolveState}
    (hexact : ∀ t, SolverExact (w.pricing t)) (hP : RequestsData P0) (hper : P0.periodic.getD 0 ≠ 0)
    (hwide : P0.timeWindows = true → TimesMakeSense P0 ∧ WindowsWide P0)
    (hcost : ∀ k, 0 ≤ userArcCost P0 k .source .sink) (hpen : 0 ≤ P0.dropPenalty)
    (hspan : P0.minimizeGlobalSpan = false) (hcspy : a.cspy = false)
    (S : Searched P0 P' K N N3) (R : Reported P0 P' [] K N) (U : UserData P0 P' N)
    (hsame : ∀ k < K, ∀ u v, v ∈ N.succ u → ¬ (u = .source ∧ v = .sink) → (N3.cost u v).getD k 0 ≤ (N.cost u v).getD k 0)
    (hnum : Solve.Numbered cols) (hm : PricingMode.ofName a.strategy = .fixed m)
    (hd : ∀ n stm, Solve.Trace (({ P' with initialRoutes := rs } : Vrp).solveCfg a w.falsy) w.toEnv false
        (o.start a ({ P' with initialRoutes := rs } : Vrp) cols) n stm →
      (w.master stm.tick (({ P' with initialRoutes := rs } : Vrp).master.lp stm.mcols true)).optimal = true →
      HorizonDualsOk ({ P' with initialRoutes := rs } : Vrp).master stm.mcols
        (w.master stm.tick (({ P' with initialRoutes := rs } : Vrp).master.lp stm.mcols true)))
    (hcg : Solve.columnGeneration (({ P' with initialRoutes := rs } : Vrp).solveCfg a w.falsy) w.toEnv false fuel
        (o.start a ({ P' with initialRoutes := rs } : Vrp) cols) = .ok (some stc))
    (hlim : Solve.limitReached (({ P' with initialRoutes := rs } : Vrp).solveCfg a w.falsy) stc = false)
    (htime : ∀ t, w.timeUp t = false) :
    ∃ bound, stc.bounds.getLast? = some bound ∧ ∀ S, TransportsHorizon P0 K S →
      bound ≤ (userCosts P0 S).sum + P0.dropPenalty * S.dropped.length + 1 / 1000 * S.routes.length := by
  have hN3 : P'.G.toNet = N3 := by rw [S.graph]; rfl
  obtain ⟨f1, f2, f3, f4, f5, f6, f7, f8, f9, f10, f11⟩ := S.fields
  have hK : (({ P' with initialRoutes := rs } : Vrp).solveCfg a w.falsy).K = K := by
    show P'.vehicleTypes.getD 0 = K
    rw [S.types]
    rfl
  obtain ⟨bound, hb, hbound⟩ := Solve.C34_horizon_partial (cfg := ({ P' with initialRoutes := rs } : Vrp).solveCfg a w.falsy)
    (env := w.toEnv) (m := m) (st := o.start a ({ P' with initialRoutes := rs } : Vrp) cols) hnum rfl f10 hm
    (by show WellFormed P'.G.toNet; rw [hN3]; exact S.wfSearch)
    (by show P'.G.toNet.demand .source = 0; rw [hN3, S.same.demand]; exact S.demandDepots.1)
    (by
      show P'.G.toNet.service .sink = 0
      rw [hN3, S.same.service]
      exact (S.serviceDepots hP.service.1 hP.service.2).2)
    hcspy (fun ht => by
      have ht : P'.timeWindows = true := ht
      rw [f2] at ht
      show WindowsFit P'.G.toNet
      rw [hN3]
      exact S.windowsFit U hP.customer hP.service (hwide ht).1 ht (hP.source ht) (hwide ht).2)
    (f9.trans hspan)
    (by
      show decide (P'.periodic.getD 0 ≠ 0) = true
      rw [f7]
      simpa using hper)
    hexact hd hcg hlim (htime _)
  have hMG : (({ P' with initialRoutes := rs } : Vrp).solveCfg a w.falsy).M.G = N3 := hN3
  have hMp : (({ P' with initialRoutes := rs } : Vrp).solveCfg a w.falsy).M.dropPenalty = P0.dropPenalty := f5
  refine ⟨bound, hb, ?_⟩
  rintro Sol ⟨hplan, hserved⟩
  obtain ⟨p1, p2, p3, p4, p5⟩ := searched_routes_of (A := AllowedRequests P0 P' N3) S (fun k r h => h.admissible.simple)
    (by
      rintro k _ mid hmid hnd hne hal ⟨mid', e1, e2⟩
      have : mid' = mid := by simpa [routeOf] using e1.symm
      subst this
      exact S.admissible_requests R U hP (fun ht => (hwide ht).1) hmid hnd hne hal e2)
    hsame hcost hplan.routes
  have hdropped : ∀ v ∈ Sol.dropped, v ∈ N3.customers := fun v hv => (p2 v).2 (hplan.dropped v hv)
  have hHP : HorizonPlan N3 Sol.dropped (routesWithCustomers Sol) := by
    refine ⟨fun e he => (p1 e he).2.admissible.simple.1, ?_⟩
    intro v hv
    obtain ⟨⟨n, rfl⟩, hn⟩ := (p2 v).1 hv
    have hn' : Node.cust n ∈ N.nodes := by rw [S.userNodes]; exact hn
    rw [p3 n, S.same.freq, U.freq _ hn']
    exact hserved n hn
  have := hbound (routesWithCustomers Sol) Sol.dropped (by rw [hMG]; exact hHP)
    (by
      intro v hv
      unfold Master.drops
      rw [hMp, hMG]
      by_cases h0 : P0.dropPenalty = 0
      · rw [hplan.penalty h0] at hv
        cases hv
      · simp only [h0, if_false]
        exact hdropped v hv)
    (by rw [hK]; exact fun e he => (p1 e he).1)
    (by
      intro e he
      have hal := (p1 e he).2
      have hadm := hal.admissible
      have e1 : (({ P' with initialRoutes := rs } : Vrp).solveCfg a w.falsy).caps = userCapacities P0.loadCapacity := S.caps
      have e2 : (({ P' with initialRoutes := rs } : Vrp).solveCfg a w.falsy).duration = P0.duration.limit := by
        show P'.duration.limit = _
        rw [f11]
      have e3 : (({ P' with initialRoutes := rs } : Vrp).solveCfg a w.falsy).timeWindows = P0.timeWindows := f2
      have e4 : (({ P' with initialRoutes := rs } : Vrp).solveCfg a w.falsy).pickupDelivery = true := f3.trans hP.pickupDelivery
      have e5 : (({ P' with initialRoutes := rs } : Vrp).solveCfg a w.falsy).distributionCollection = false :=
        f4.trans hP.distributionCollection
      have hlims : limitsOf (({ P' with initialRoutes := rs } : Vrp).solveCfg a w.falsy) e.1 =
          { searchLimits P0 P' N3 e.1 with pickupDelivery := true } := by
        unfold limitsOf
        rw [hMG, e1, e2, e3, e4, e5]
        rfl
      rw [hlims]
      refine ⟨⟨hadm.simple, hadm.nonempty, hadm.stops, hadm.load, hadm.duration, hadm.onTime⟩, fun _ c hc => ?_,
        fun hf => (by cases hf)⟩
      obtain ⟨g1, g2, g3, g4, g5⟩ := hal.requests c hc
      exact ⟨g1, g2, g3, g4, g5⟩)
  rw [hMG, hMp] at this
  have p7 : (N3.customers.filter (fun v => v ∈ Sol.dropped)).length ≤ Sol.dropped.length := by
    have hnd : N3.customers.Nodup := S.wfSearch.nodes_nodup.filter _
    exact (List.subperm_of_subset (hnd.filter _) (fun v hv => by simpa using (List.mem_filter.1 hv).2)).length_le
  have q1 : P0.dropPenalty * ((N3.customers.filter (fun v => v ∈ Sol.dropped)).length : ℚ) ≤
      P0.dropPenalty * (Sol.dropped.length : ℚ) := mul_le_mul_of_nonneg_left (by exact_mod_cast p7) hpen
  have q2 : ((routesWithCustomers Sol).length : ℚ) ≤ Sol.routes.length := by exact_mod_cast p5
  linarith

/-- **C70 (partial), periodic problems with pickup and delivery.** As `C70_periodic_partial`, for plans whose routes pick up before
they deliver, in the same vehicle, with a load that always fits. -/
theorem C70_periodic_requests_partial {w : World} {a : SolveArgs} {fuel : Nat} {P0 : Vrp} {o o' : Obj}
    (hexact : ∀ t, SolverExact (w.pricing t)) (hP : RequestsData P0) (hper : P0.periodic.getD 0 ≠ 0)
    (hwide : P0.timeWindows = true → TimesMakeSense P0 ∧ WindowsWide P0)
    (hcost : ∀ k, 0 ≤ userArcCost P0 k .source .sink) (hpen : 0 ≤ P0.dropPenalty)
    (hspan : P0.minimizeGlobalSpan = false) (hpre : a.preassignments = [])
    (hheur : a.heuristicOnly = false) (hcspy : a.cspy = false) (hstrat : a.strategy ≠ "Hyper")
    (hc : Obj.create P0 = .ok o)
    (hduals : ∀ P' P'' fuel cols m stm, o.P.startSolve w.dist a.strategy a.cspy a.initialRoutes a.preassignments = .ok P' →
      P'.initialize P'.G.toNet w.cw fuel = .ok (some (P'', cols)) →
      Solve.Trace (P''.solveCfg a w.falsy) w.toEnv false (o.start a P'' cols) m stm →
      (w.master stm.tick (P''.master.lp stm.mcols true)).optimal = true →
      HorizonDualsOk P''.master stm.mcols (w.master stm.tick (P''.master.lp stm.mcols true)))
    (h : o.solve w a fuel = .ok (some o')) (hno : Spec.NotStagnant a o')
    (hiter : a.maxIter = 0 ∨ o'.iteration < a.maxIter) (htime : ∀ t, w.timeUp t = false) :
    ∃ K bound, o'.P.vehicleTypes = some K ∧ o'.bounds.getLast? = some bound ∧ ∀ S, TransportsHorizon P0 K S →
      bound ≤ (userCosts P0 S).sum + P0.dropPenalty * S.dropped.length + 1 / 1000 * S.routes.length := by
  obtain ⟨P', rs, cols, K, N, N3, m, stc, hstart, h1, S, R, U, hnum, hm, hcg, hlim, hK', hbs⟩ :=
    generation_of_solve hP.wf hP.customer hP.costs (fun v hv hor => by
      rcases hor with hf | hf
      · rw [hP.pickupDelivery] at hf
        cases hf
      · exact hP.depots v hv hf) hpre hheur hstrat hc h hno hiter
  obtain ⟨bound, hb, hS⟩ := horizon_requests_generation hexact hP hper hwide hcost hpen hspan hcspy S R U (searched_costs (w := w) hc hpre hstart S R) hnum hm
    (fun m stm => hduals P' _ fuel cols m stm hstart h1) hcg hlim htime
  exact ⟨K, bound, hK', by rw [hbs]; exact hb, hS⟩

/-! ## An example -/

/-- The example with pickup and delivery, every request twice in two days. -/
def weeklyTransport : Vrp :=
  { exTransport with
    G := { exTransport.G with nd := fun v => { exTransport.G.nd v with frequency := if v.isDepot then none else some 2 } }
    numVehicles := .one 1
    periodic := some 2 }

theorem weeklyTransport_ok : RequestsData weeklyTransport := by
  obtain ⟨⟨h1, h2, h3, h4, h5, h6, h7, h8, h9, h10, h11, h12, h13, h14, h15, h16⟩, h17⟩ := exTransport_ok
  exact ⟨⟨h1.1, h1.2, h1.3⟩, h2, h3, h4, h5, h6, h7, h8, h9, h10, h11, h12, h13, h14, h15, h16⟩

/-- The best route is known from the start, twice. -/
def weeklyTransportArgs : SolveArgs :=
  { transportArgs with initialRoutes := [routeOf [.cust 1, .cust 2, .cust 3, .cust 4], routeOf [.cust 1, .cust 2, .cust 3, .cust 4]] }

noncomputable def weeklyTransportWorld : World :=
  { transportWorld with master := fun _ => masterOf [choosing [1, 2]] (fun _ => transportDual) }

/-- A test for `HorizonDualsOk`. -/
def horizonDualsProve (M : Master) (cols : List Column) (b : Master.Answer) : Bool :=
  decide (∀ v ∈ M.drops, b.visitDual v ≤ M.dropPenalty) &&
  decide ((M.objective cols).eval b.point ≤ (M.G.customers.map (fun v => b.visitDual v * M.G.freq v)).sum)

/-- All hypotheses of `C70_periodic_requests_partial` hold for the example: no plan that transports every request twice costs
less than 46, up to 1/1000 per route. -/
example : ∃ K, ∀ S, TransportsHorizon weeklyTransport K S →
    46 ≤ (userCosts weeklyTransport S).sum + 1 / 1000 * S.routes.length := by
  have hok : onTheWay weeklyTransportWorld weeklyTransportArgs 5 weeklyTransport horizonDualsProve = true := by decide +kernel
  have hleft : leftBehind weeklyTransportWorld weeklyTransportArgs 5 weeklyTransport = some ([46], 0, 1) := by decide +kernel
  unfold leftBehind at hleft
  split at hleft
  · cases hleft
  rename_i o ho
  split at hleft
  · rename_i o' hsolve
    simp only [Option.some.injEq, Prod.mk.injEq] at hleft
    obtain ⟨K, bound, _, hb, hS⟩ := C70_periodic_requests_partial (a := weeklyTransportArgs) (fun _ => transportSolver_ok.1)
      weeklyTransport_ok (by decide)
      (fun _ => ⟨⟨exTransport_times.1, exTransport_times.2, exTransport_times.3, exTransport_times.4, exTransport_times.5⟩,
        ⟨exTransport_wide.1, exTransport_wide.2, exTransport_wide.3, exTransport_wide.4, exTransport_wide.5, exTransport_wide.6⟩⟩)
      (by
        intro k
        simp [userArcCost, weeklyTransport, exTransport]) (le_refl _) rfl rfl rfl rfl (by decide) ho (by
        intro P' P'' fuel cols m stm h1 h2 ht _
        have := onTheWay_ok hok ho h1 h2 ht
        simp only [horizonDualsProve, Bool.and_eq_true, decide_eq_true_eq] at this
        exact ⟨this.1, this.2⟩) hsolve (Or.inl ⟨rfl, by rw [hleft.2.1]; decide⟩) (Or.inl rfl) (fun _ => rfl)
    rw [hleft.1] at hb
    simp only [List.getLast?_singleton, Option.some.injEq] at hb
    subst hb
    refine ⟨K, fun S hSol => ?_⟩
    have := hS S hSol
    have hp : weeklyTransport.dropPenalty = 0 := rfl
    rw [hp] at this
    linarith
  · cases hleft

/-- There is such a plan, with cost 46. -/
example : TransportsHorizon weeklyTransport 1
    ⟨[(1, routeOf [.cust 1, .cust 2, .cust 3, .cust 4]), (2, routeOf [.cust 1, .cust 2, .cust 3, .cust 4])], [(1, 0), (2, 0)], []⟩ := by
  have hlim := (transportArgs_initial _ List.mem_cons_self).2 [.cust 1, .cust 2, .cust 3, .cust 4] 0 rfl
    (fun _ => ⟨5, by decide +kernel, by decide +kernel⟩)
  have hroute : RequestRoute weeklyTransport 0 [.cust 1, .cust 2, .cust 3, .cust 4] := by
    refine ⟨⟨hlim.1, hlim.2, hlim.3, hlim.4, hlim.5, hlim.6, hlim.7⟩, fun _ => ?_, ?_⟩
    · show ∀ p ∈ userArrivals exTransport.G (userLower exTransport.G .source) .source [.cust 1, .cust 2, .cust 3, .cust 4, .sink], _
      decide +kernel
    · intro d hd
      have : (60 : ℚ) = d := by simpa [weeklyTransport, exTransport, PyVal.limit] using hd
      rw [← this]
      decide +kernel
  have hal : Along (UserArc weeklyTransport.G) (routeOf [.cust 1, .cust 2, .cust 3, .cust 4]) := by
    have h : ∀ e ∈ consecutive (routeOf [.cust 1, .cust 2, .cust 3, .cust 4]), e.2 ∈ weeklyTransport.G.succ e.1 := by decide +kernel
    rw [along_iff]
    exact fun u v huv => Or.inl (h (u, v) huv)
  have hvis : ∀ n, Node.cust n ∈ weeklyTransport.G.nodes → n = 1 ∨ n = 2 ∨ n = 3 ∨ n = 4 := by
    intro n hn
    simpa [weeklyTransport, exTransport] using hn
  refine ⟨⟨?_, ?_, fun v hv => (by cases hv), fun _ => rfl⟩, ?_⟩
  · intro i r hir
    simp only [List.mem_cons, Prod.mk.injEq, List.not_mem_nil, or_false] at hir
    rcases hir with ⟨rfl, rfl⟩ | ⟨rfl, rfl⟩ <;>
      exact ⟨_, rfl, by decide, by simp [weeklyTransport, exTransport], hal, 0, by decide, rfl, _, rfl, hroute⟩
  · intro n hn
    rcases hvis n hn with rfl | rfl | rfl | rfl <;> decide +kernel
  · intro n hn
    rcases hvis n hn with rfl | rfl | rfl | rfl <;> decide +kernel

end Vrpy
