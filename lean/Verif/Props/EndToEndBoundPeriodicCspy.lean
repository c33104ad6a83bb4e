import Verif.Props.EndToEndBoundPeriodicCases
import Verif.Props.EndToEndBoundCspy
import Verif.Props.CspyBoundCases

/-!
# C70 for periodic problems with pricing by cspy
-/

namespace Vrpy

open Spec

/-- Dual feasibility for the columns of a periodic problem: the dual values of what a column serves are at most its cost. -/
def Spec.HorizonColumnsPriced (cols : List Column) (a : Master.Answer) : Prop :=
  ∀ c ∈ cols, ∀ r, Draws c r → ((stops r).map a.visitDual).sum ≤ c.cost

namespace Solve

variable {cfg : SolveCfg} {env : Env}

/-- **C73 (partial), periodic problems.** As `C73_lower_bound_partial`, for plans over the horizon. -/
theorem C73_horizon_partial {st st' : SolveState} {m : Heur} {fuel : Nat} {F : List Node → Prop} (hnum : Numbered st.cols)
    (hmc : st.mcols = st.cols) (hmore : st.more = true) (hpool : ∀ c ∈ st.cols, PathColumn cfg.M.G c)
    (hp : cfg.pricing = .fixed m) (hG : WellFormed cfg.M.G) (hcspy : cfg.cspy = true) (hK : cfg.K = 1)
    (hg : usesGreedy cfg = false) (hspan : cfg.M.globalSpan = false) (hper : cfg.M.periodic = true)
    (hF : ∀ (q : Cspy) res r, q.G = cfg.M.G → q.vehicleType = 0 → q.caps = cfg.caps → q.numStops = cfg.numStops →
      q.duration = cfg.duration → q.timeWindows = cfg.timeWindows → q.pickupDelivery = cfg.pickupDelivery →
      q.distributionCollection = cfg.distributionCollection → q.formulate = .ok res → F r →
      IsSimpleRoute q.G r ∧ WithinLimits q res r)
    (hsound : ∀ t q, CspySound q (env.cspy t q)) (hfinds : ∀ t q, CspyFinds q (env.cspy t q))
    (hpaths : ∀ t, PathsOk (env.paths t))
    (hduals : ∀ n stm, Trace cfg env false st n stm → (env.master stm.tick (cfg.M.lp stm.mcols true)).optimal = true →
      HorizonDualsOk cfg.M stm.mcols (env.master stm.tick (cfg.M.lp stm.mcols true)) ∧
      HorizonColumnsPriced stm.mcols (env.master stm.tick (cfg.M.lp stm.mcols true)))
    (h : columnGeneration cfg env false fuel st = .ok (some st'))
    (hlim : limitReached cfg st' = false) (htime : env.timeUp st'.tick = false) :
    ∃ bound, st'.bounds.getLast? = some bound ∧
      ∀ (P : Plan) (dropped : List Node), HorizonPlan cfg.M.G dropped P →
        (∀ v ∈ dropped, v ∈ cfg.M.drops) → (∀ e ∈ P, e.1 = 0 ∧ F e.2) →
        bound ≤ planCost cfg.M.G P + cfg.M.dropPenalty * (cfg.M.G.customers.filter (fun v => v ∈ dropped)).length +
          1 / 1000 * P.length := by
  have hfl : ∀ cols a, ((cfg.M.duals cols a).fleet.getD []).getD 0 0 = 0 := by
    intro cols a
    unfold Master.duals
    simp [hper]
  obtain ⟨n, stm, htr, hopt, hlast, hno⟩ := nothing_left_upTo (tol := fun _ => 1 / 1000) hnum hmc hmore hpool hp hG hcspy hK hg hspan
    hF hsound (fun t q _ => hfinds t q) hpaths (fun n stm htr hopt c hc p _ hdraw => by
      rw [hfl, add_zero]
      exact (hduals n stm htr hopt).2 c hc p hdraw) h hlim htime
  refine ⟨_, hlast, ?_⟩
  intro P dropped hP hdr hPF
  obtain ⟨hdu, _⟩ := hduals n stm htr hopt
  generalize env.master stm.tick (cfg.M.lp stm.mcols true) = a at hdu hno
  refine hdu.value.trans ?_
  refine Master.C54_weak_duality_periodic hG hper a hP (fun v _ hv => hdu.drop v (hdr v hv))
    (w := fun k => match reducedCosts cfg.M.G (cfg.M.duals stm.cols a) k none with | .ok w => w | .error _ => fun _ _ => 0)
    (cols := stm.cols) ?_ ?_
  · intro e he
    obtain ⟨w, hw, _⟩ := hno e.2 (hPF e he).2
    rw [(hPF e he).1]
    simp only [hw]
  · intro e he
    obtain ⟨w, hw, hle⟩ := hno e.2 (hPF e he).2
    rw [(hPF e he).1]
    simp only [hw]
    exact hle

end Solve

/-- What column generation for a periodic problem ends with, with cspy. -/
theorem horizon_cspy_generation {w : World} {a : SolveArgs} {fuel : Nat} {P0 P' : Vrp} {o : Obj} {rs : List (List Node)}
    {cols : List Column} {K : Nat} {N N3 : Net} {m : Heur} {stc : SolveState}
    {n : Nat} (hw : WorldOk w)
    (hfinds : ∀ t q, CspyFinds q (w.cspy t q)) (hP : DeliveryData P0) (hper : P0.periodic.getD 0 ≠ 0)
    (hD : NonnegativeData P0) (hC : CspyData P0) (hpen : 0 ≤ P0.dropPenalty)
    (hmixed : P0.mixedFleet = false) (hspan : P0.minimizeGlobalSpan = false) (hcspy : a.cspy = true) (hgreedy : a.greedy = false)
    (hn : P'.numStops.stops = some n) (hn0 : n ≠ 0) (hpaths : ∀ c ∈ cols, PathColumn N3 c)
    (S : Searched P0 P' K N N3) (R : Reported P0 P' [] K N) (U : UserData P0 P' N)
    (hsame : ∀ k < K, ∀ u v, v ∈ N.succ u → ¬ (u = .source ∧ v = .sink) → (N3.cost u v).getD k 0 ≤ (N.cost u v).getD k 0)
    (hnum : Solve.Numbered cols) (hm : PricingMode.ofName a.strategy = .fixed m)
    (hd : ∀ n stm, Solve.Trace (({ P' with initialRoutes := rs } : Vrp).solveCfg a w.falsy) w.toEnv false
        (o.start a ({ P' with initialRoutes := rs } : Vrp) cols) n stm →
      (w.master stm.tick (({ P' with initialRoutes := rs } : Vrp).master.lp stm.mcols true)).optimal = true →
      HorizonDualsOk ({ P' with initialRoutes := rs } : Vrp).master stm.mcols
        (w.master stm.tick (({ P' with initialRoutes := rs } : Vrp).master.lp stm.mcols true)) ∧
      HorizonColumnsPriced stm.mcols (w.master stm.tick (({ P' with initialRoutes := rs } : Vrp).master.lp stm.mcols true)))
    (hcg : Solve.columnGeneration (({ P' with initialRoutes := rs } : Vrp).solveCfg a w.falsy) w.toEnv false fuel
        (o.start a ({ P' with initialRoutes := rs } : Vrp) cols) = .ok (some stc))
    (hlim : Solve.limitReached (({ P' with initialRoutes := rs } : Vrp).solveCfg a w.falsy) stc = false)
    (htime : ∀ t, w.timeUp t = false) :
    ∃ bound, stc.bounds.getLast? = some bound ∧ ∀ S, ServesHorizon P0 K S →
      bound ≤ (userCosts P0 S).sum + P0.dropPenalty * S.dropped.length + 1 / 1000 * S.routes.length := by
  have hN3 : P'.G.toNet = N3 := by rw [S.graph]; rfl
  obtain ⟨f1, f2, f3, f4, f5, f6, f7, f8, f9, f10, f11⟩ := S.fields
  have hK1 : K = 1 := S.typesOne hmixed
  have hMG : (({ P' with initialRoutes := rs } : Vrp).solveCfg a w.falsy).M.G = N3 := hN3
  have hMp : (({ P' with initialRoutes := rs } : Vrp).solveCfg a w.falsy).M.dropPenalty = P0.dropPenalty := f5
  obtain ⟨bound, hb, hbound⟩ := Solve.C73_horizon_partial (cfg := ({ P' with initialRoutes := rs } : Vrp).solveCfg a w.falsy)
    (env := w.toEnv) (m := m) (st := o.start a ({ P' with initialRoutes := rs } : Vrp) cols)
    (F := Allowed P0 P' N3 0) hnum rfl f10
    (by rw [hMG]; exact hpaths) hm
    (by rw [hMG]; exact S.wfSearch) hcspy
    (by
      show P'.vehicleTypes.getD 0 = 1
      rw [S.types]
      exact hK1)
    (by
      show (a.greedy && _ && _ && _ && _) = false
      rw [hgreedy]
      rfl)
    (f9.trans hspan)
    (by
      show decide (P'.periodic.getD 0 ≠ 0) = true
      rw [f7]
      simpa using hper)
    (by
      intro q res r q1 q2 q3 q4 q5 q6 q7 q8 hform hr
      rw [hMG] at q1
      have e1 : (({ P' with initialRoutes := rs } : Vrp).solveCfg a w.falsy).caps = userCapacities P0.loadCapacity := S.caps
      have e2 : (({ P' with initialRoutes := rs } : Vrp).solveCfg a w.falsy).duration = P0.duration.limit := by
        show P'.duration.limit = _
        rw [f11]
      exact ⟨by rw [q1]; exact hr.admissible.simple, S.withinLimits U hP hD hC hn hn0 q1 q2 (q3.trans e1) q4 (q5.trans e2) (q6.trans f2)
        (q7.trans (f3.trans hP.pickupDelivery)) (q8.trans f4) hform hr⟩)
    hw.cspy hfinds hw.paths hd hcg hlim (htime _)
  refine ⟨bound, hb, ?_⟩
  rintro Sol ⟨hplan, hserved⟩
  obtain ⟨p1, p2, p3, p4, p5⟩ := searched_routes_of (A := Allowed P0 P' N3) S (fun k r h => h.admissible.simple)
    (by
      rintro k _ mid hmid hnd hne hal ⟨mid', e1, e2⟩
      have : mid' = mid := by simpa [routeOf] using e1.symm
      subst this
      exact S.admissible R U hP hmid hnd hne hal e2)
    hsame hD.stay hplan.routes
  have hdropped : ∀ v ∈ Sol.dropped, v ∈ N3.customers := fun v hv => (p2 v).2 (hplan.dropped v hv)
  have hHP : HorizonPlan N3 Sol.dropped (routesWithCustomers Sol) := by
    refine ⟨fun e he => (p1 e he).2.admissible.simple.1, ?_⟩
    intro v hv
    obtain ⟨⟨n, rfl⟩, hn⟩ := (p2 v).1 hv
    have hn' : Node.cust n ∈ N.nodes := by rw [S.userNodes]; exact hn
    rw [p3 n, S.same.freq, U.freq _ hn']
    exact hserved n hn
  have := hbound (routesWithCustomers Sol) Sol.dropped (by rw [hMG]; exact hHP)
    (by
      intro v hv
      unfold Master.drops
      rw [hMp, hMG]
      by_cases h0 : P0.dropPenalty = 0
      · rw [hplan.penalty h0] at hv
        cases hv
      · simp only [h0, if_false]
        exact hdropped v hv)
    (by
      intro e he
      have h0 : e.1 = 0 := by
        have := (p1 e he).1
        omega
      refine ⟨h0, ?_⟩
      have := (p1 e he).2
      rw [h0] at this
      exact this)
  rw [hMG, hMp] at this
  have p7 : (N3.customers.filter (fun v => v ∈ Sol.dropped)).length ≤ Sol.dropped.length := by
    have hnd : N3.customers.Nodup := S.wfSearch.nodes_nodup.filter _
    exact (List.subperm_of_subset (hnd.filter _) (fun v hv => by simpa using (List.mem_filter.1 hv).2)).length_le
  have q1 : P0.dropPenalty * ((N3.customers.filter (fun v => v ∈ Sol.dropped)).length : ℚ) ≤
      P0.dropPenalty * (Sol.dropped.length : ℚ) := mul_le_mul_of_nonneg_left (by exact_mod_cast p7) hpen
  have q2 : ((routesWithCustomers Sol).length : ℚ) ≤ Sol.routes.length := by exact_mod_cast p5
  linarith

/-- **C70 (partial), periodic problems, pricing with cspy.** As `C70_periodic_partial`, under the conditions of
`C70_cspy_partial`. -/
theorem C70_periodic_cspy_partial {w : World} {a : SolveArgs} {fuel : Nat} {P0 : Vrp} {o o' : Obj} (hw : WorldOk w)
    (hfinds : ∀ t q, CspyFinds q (w.cspy t q)) (hP : DeliveryData P0) (hper : P0.periodic.getD 0 ≠ 0)
    (hD : NonnegativeData P0) (hC : CspyData P0) (hpen : 0 ≤ P0.dropPenalty)
    (hmixed : P0.mixedFleet = false) (hone : (userCapacities P0.loadCapacity).length ≤ 1)
    (hstops : P0.numStops.stops ≠ none ∨ userCapacities P0.loadCapacity ≠ [])
    (hspan : P0.minimizeGlobalSpan = false) (hpre : a.preassignments = [])
    (hheur : a.heuristicOnly = false) (hcspy : a.cspy = true) (hgreedy : a.greedy = false)
    (hstrat : a.strategy ≠ "Hyper") (hc : Obj.create P0 = .ok o)
    (hduals : ∀ P' P'' fuel cols m stm, o.P.startSolve w.dist a.strategy a.cspy a.initialRoutes a.preassignments = .ok P' →
      P'.initialize P'.G.toNet w.cw fuel = .ok (some (P'', cols)) →
      Solve.Trace (P''.solveCfg a w.falsy) w.toEnv false (o.start a P'' cols) m stm →
      (w.master stm.tick (P''.master.lp stm.mcols true)).optimal = true →
      HorizonDualsOk P''.master stm.mcols (w.master stm.tick (P''.master.lp stm.mcols true)) ∧
      HorizonColumnsPriced stm.mcols (w.master stm.tick (P''.master.lp stm.mcols true)))
    (h : o.solve w a fuel = .ok (some o')) (hno : Spec.NotStagnant a o')
    (hiter : a.maxIter = 0 ∨ o'.iteration < a.maxIter) (htime : ∀ t, w.timeUp t = false) :
    ∃ K bound, o'.P.vehicleTypes = some K ∧ o'.bounds.getLast? = some bound ∧ ∀ S, ServesHorizon P0 K S →
      bound ≤ (userCosts P0 S).sum + P0.dropPenalty * S.dropped.length + 1 / 1000 * S.routes.length := by
  obtain ⟨P', rs, cols, K, N, N3, m, stc, hstart, h1, S, R, U, hnum, hm, hcg, hlim, hK', hbs⟩ :=
    generation_of_solve hP.wf hP.customer hP.costs (fun v hv _ => hP.demand v hv) hpre hheur hstrat hc h hno hiter
  obtain ⟨n, hn, hn0⟩ := stops_limited (w := w) hP hstops hc hstart S U
  obtain ⟨bound, hb, hS⟩ := horizon_cspy_generation hw hfinds hP hper hD hC hpen hmixed hspan hcspy hgreedy hn hn0 (initial_paths hP hone S hw.cw h1) S R U (searched_costs (w := w) hc hpre hstart S R) hnum hm
    (fun m stm => hduals P' _ fuel cols m stm hstart h1) hcg hlim htime
  exact ⟨K, bound, hK', by rw [hbs]; exact hb, hS⟩

/-! ## An example -/

/-- Two visits of customer 1, one of customer 2. -/
def weeklyCspyArgs : SolveArgs := { weeklyArgs with cspy := true, greedy := false }

/-- The master knows that both initial routes are needed. -/
noncomputable def weeklyCspyWorld : World := cspyWorld [picking [.num 1, .num 2]] (fun _ => weeklyDual)

theorem weeklyPlan_nonnegative : NonnegativeData weeklyPlan where
  service := by decide +kernel
  time := fun _ _ _ => by simp [weeklyPlan, exPlan]
  cost := exPlan_nonnegative.cost

theorem weeklyPlan_cspy : CspyData weeklyPlan :=
  ⟨fun h => (by cases h), fun h => (by cases h), fun h => (by cases h), fun h => (by cases h)⟩

/-- A test for `HorizonDualsOk` and `HorizonColumnsPriced`. -/
def horizonPriced (M : Master) (cols : List Column) (b : Master.Answer) : Bool :=
  decide (∀ v ∈ M.drops, b.visitDual v ≤ M.dropPenalty) &&
  decide ((M.objective cols).eval b.point ≤ (M.G.customers.map (fun v => b.visitDual v * M.G.freq v)).sum) &&
  cols.all (fun c => decide (((c.nodes.filter (fun v => v ≠ .source ∧ v ≠ .sink)).map b.visitDual).sum ≤ c.cost))

theorem horizonPriced_ok {M : Master} {cols : List Column} {b : Master.Answer} (h : horizonPriced M cols b = true) :
    HorizonDualsOk M cols b ∧ HorizonColumnsPriced cols b := by
  simp only [horizonPriced, Bool.and_eq_true, decide_eq_true_eq] at h
  refine ⟨⟨h.1.1, h.1.2⟩, fun c hc r hr => ?_⟩
  have := List.all_eq_true.1 h.2 c hc
  rw [sum_stops hr]
  exact of_decide_eq_true this

/-- All hypotheses of `C70_periodic_cspy_partial` hold for the example. -/
example : ∃ K, ∀ S, ServesHorizon weeklyPlan K S → 47 ≤ (userCosts weeklyPlan S).sum + 1 / 1000 * S.routes.length := by
  have hok : onTheWay weeklyCspyWorld weeklyCspyArgs 5 weeklyPlan horizonPriced = true := by decide +kernel
  have hleft : leftBehind weeklyCspyWorld weeklyCspyArgs 5 weeklyPlan = some ([47], 0, 1) := by decide +kernel
  unfold leftBehind at hleft
  split at hleft
  · cases hleft
  rename_i o ho
  split at hleft
  · rename_i o' hsolve
    simp only [Option.some.injEq, Prod.mk.injEq] at hleft
    obtain ⟨K, bound, _, hb, hS⟩ := C70_periodic_cspy_partial (a := weeklyCspyArgs) (cspyWorld_ok _ _).1 (cspyWorld_ok _ _).2
      weeklyPlan_deliveries (by decide) weeklyPlan_nonnegative weeklyPlan_cspy (by decide +kernel) rfl (by decide +kernel)
      (Or.inl (by decide +kernel)) rfl rfl rfl rfl rfl (by decide) ho (by
        intro P' P'' fuel cols m stm h1 h2 ht _
        exact horizonPriced_ok (onTheWay_ok hok ho h1 h2 ht)) hsolve (Or.inl ⟨rfl, by rw [hleft.2.1]; decide⟩) (Or.inl rfl)
      (fun _ => rfl)
    rw [hleft.1] at hb
    simp only [List.getLast?_singleton, Option.some.injEq] at hb
    subst hb
    refine ⟨K, fun S hSol => ?_⟩
    have := hS S hSol
    have hp : weeklyPlan.dropPenalty = 0 := rfl
    rw [hp] at this
    linarith
  · cases hleft

end Vrpy
