import Verif.Props.EndToEndBound
import Verif.Props.EndToEndPeriodic

/-!
# C54, C70 for periodic problems: the last lower bound of a run bounds the cost of every plan over the horizon
-/

namespace Vrpy

open Spec

/-- A plan over the horizon for the network: every customer is on as many routes as its frequency says, one fewer if it is
dropped. -/
structure Spec.HorizonPlan (G : Net) (dropped : List Node) (P : Plan) : Prop where
  routes : ∀ e ∈ P, IsRoute G e.2
  visits : ∀ v ∈ G.customers, (((P.map Prod.snd).flatten.filter (fun x => x = v)).length : ℚ) +
    (if v ∈ dropped then 1 else 0) = G.freq v

/-- What an LP solver promises about the dual values of the relaxed master of a periodic problem (see `DualsOk`), where there
are no fleet constraints. -/
structure Spec.HorizonDualsOk (M : Master) (cols : List Column) (a : Master.Answer) : Prop where
  drop : ∀ v ∈ M.drops, a.visitDual v ≤ M.dropPenalty
  value : (M.objective cols).eval a.point ≤ (M.G.customers.map (fun v => a.visitDual v * M.G.freq v)).sum

/-- A sum over visits, customer by customer. -/
theorem sum_by_customer (f : Node → ℚ) {cs : List Node} (hnd : cs.Nodup) :
    ∀ {l : List Node}, (∀ v ∈ l, v ∈ cs) → (l.map f).sum = (cs.map (fun v => f v * (l.count v : ℚ))).sum
  | [], _ => by simp
  | x :: l, h => by
    have hstep : ∀ cs : List Node, cs.Nodup →
        (cs.map (fun v => f v * (((x :: l).count v : ℕ) : ℚ))).sum =
          (if x ∈ cs then f x else 0) + (cs.map (fun v => f v * (l.count v : ℚ))).sum := by
      intro cs hcs
      induction cs with
      | nil => simp
      | cons c cs ih =>
        have hc := List.nodup_cons.1 hcs
        simp only [List.map_cons, List.sum_cons, ih hc.2]
        by_cases hx : x = c
        · subst hx
          simp only [List.count_cons_self, Nat.cast_add, Nat.cast_one, hc.1, if_false, List.mem_cons, true_or, if_true]
          ring
        · have : ¬ c = x := fun h => hx h.symm
          rw [List.count_cons_of_ne (by simpa using hx)]
          simp only [List.mem_cons, hx, false_or]
          ring
    rw [hstep cs hnd, if_pos (h x List.mem_cons_self), List.map_cons, List.sum_cons,
      sum_by_customer f hnd (fun v hv => h v (List.mem_cons_of_mem _ hv))]

namespace Master

variable {M : Master} {cols : List Column}

/-- **C54**, weak duality for periodic problems: let the dual values be any numbers that are not above the drop penalty for
customers that are dropped.  If no route of a plan over the horizon has reduced cost (as computed by
`add_reduced_cost_attribute`) below `-ε`, the dual value, in which a customer counts as often as it has to be visited, is at
most the cost of the plan (plus penalties) plus `ε` per route. -/
theorem C54_weak_duality_periodic (hG : WellFormed M.G) (hper : M.periodic = true) (a : Answer) {ε pen : ℚ}
    {dropped : List Node} {w : Nat → Node → Node → ℚ} {P : Plan} (hP : HorizonPlan M.G dropped P)
    (hdrop : ∀ v ∈ M.G.customers, v ∈ dropped → a.visitDual v ≤ pen)
    (hw : ∀ e ∈ P, reducedCosts M.G (M.duals cols a) e.1 none = .ok (w e.1))
    (hno : ∀ e ∈ P, -ε ≤ legSum (w e.1) e.2) :
    (M.G.customers.map (fun v => a.visitDual v * M.G.freq v)).sum ≤
      planCost M.G P + pen * (M.G.customers.filter (fun v => v ∈ dropped)).length + ε * P.length := by
  let d := M.duals cols a
  have hvis : d.visit.map Prod.fst = M.G.customers := by simp [d, duals, Function.comp_def]
  have hndc : M.G.customers.Nodup := hG.nodes_nodup.filter _
  have hnd : (d.visit.map Prod.fst).Nodup := by rw [hvis]; exact hndc
  have hs : Node.source ∉ d.visit.map Prod.fst := by rw [hvis]; exact fun h => (mem_customers.1 h).2.1 rfl
  have hcs : ∀ e ∈ P, ∀ v ∈ stops e.2, v ∈ M.G.customers := by
    intro e he v hv
    obtain ⟨mid, hmid, hall, _⟩ := hP.routes e he
    have hc : ∀ u ∈ mid, u ∈ M.G.customers := by
      intro u hu
      obtain ⟨⟨n, rfl⟩, hm⟩ := hall u hu
      exact mem_customers.2 ⟨hm, by simp, by simp⟩
    rw [hmid, stops_routeOf hc] at hv
    exact hc v hv
  have hroute : ∀ e ∈ P, ((stops e.2).map a.visitDual).sum ≤ Spec.cost M.G e.1 e.2 + ε := by
    intro e he
    have h1 := C14_reduced_costs hG hnd hs (hw e he) (hP.routes e he)
    have h2 := hno e he
    have h3 : ((stops e.2).map (fun v => (dget d.visit v).getD 0)).sum = ((stops e.2).map a.visitDual).sum := by
      congr 1
      refine List.map_congr_left ?_
      intro v hv
      rw [dget_visit a (hcs e he v hv)]; rfl
    rw [h3] at h1
    have hμ : ((d.fleet.getD []).getD e.1 0 : ℚ) = 0 := by simp [d, duals, hper]
    have h4 : legSum (w e.1) e.2 = Spec.cost M.G e.1 e.2 - ((stops e.2).map a.visitDual).sum - (d.fleet.getD []).getD e.1 0 := h1
    linarith
  have hsum : ((P.flatMap (fun e => stops e.2)).map a.visitDual).sum ≤ planCost M.G P + ε * P.length := by
    clear hP hw hno hcs
    unfold planCost
    induction P with
    | nil => simp
    | cons e P ih =>
      have h1 := hroute e List.mem_cons_self
      have h2 := ih (fun e he => hroute e (List.mem_cons_of_mem _ he))
      simp only [List.flatMap_cons, List.map_append, List.sum_append, List.map_cons, List.sum_cons, List.length_cons,
        Nat.cast_add, Nat.cast_one]
      linarith
  have hst : P.flatMap (fun e => stops e.2) = stops (P.map Prod.snd).flatten := by
    clear hP hw hno hcs hroute hsum
    unfold stops
    induction P with
    | nil => rfl
    | cons e P ih => simp only [List.flatMap_cons, List.map_cons, List.flatten_cons, List.filter_append, ih]
  rw [sum_by_customer a.visitDual hndc (by
    intro v hv
    obtain ⟨e, he, hv⟩ := List.mem_flatMap.1 hv
    exact hcs e he v hv)] at hsum
  have hcount : ∀ v ∈ M.G.customers, a.visitDual v * M.G.freq v =
      a.visitDual v * ((P.flatMap (fun e => stops e.2)).count v : ℚ) + (if v ∈ dropped then a.visitDual v else 0) := by
    intro v hv
    obtain ⟨_, h1, h2⟩ := mem_customers.1 hv
    have : (P.flatMap (fun e => stops e.2)).count v = ((P.map Prod.snd).flatten.filter (fun x => x = v)).length := by
      rw [hst]
      unfold stops
      rw [List.count_filter (by simp [h1, h2]), List.count, List.countP_eq_length_filter]
      congr 2
    rw [← hP.visits v hv, this]
    split <;> ring
  rw [List.map_congr_left hcount]
  have hsplit : ∀ l : List Node, (∀ v ∈ l, v ∈ dropped → a.visitDual v ≤ pen) → ∀ g : Node → ℚ,
      (l.map (fun v => g v + (if v ∈ dropped then a.visitDual v else 0))).sum ≤
      (l.map g).sum + pen * (l.filter (fun v => v ∈ dropped)).length := by
    intro l hl g
    induction l with
    | nil => simp
    | cons v l ih =>
      have h2 := ih (fun v hv => hl v (List.mem_cons_of_mem _ hv))
      by_cases hv : v ∈ dropped
      · have h1 := hl v List.mem_cons_self hv
        simp only [List.filter_cons, hv, decide_true, if_true, List.map_cons, List.sum_cons, List.length_cons,
          Nat.cast_add, Nat.cast_one]
        linarith
      · simp only [List.filter_cons, hv, decide_false, Bool.false_eq_true, if_false, List.map_cons, List.sum_cons]
        linarith
  have := hsplit M.G.customers hdrop (fun v => a.visitDual v * ((P.flatMap (fun e => stops e.2)).count v : ℚ))
  linarith

end Master

namespace Solve

variable {cfg : SolveCfg} {env : Env}

/-- **C34, C54** together for periodic problems (LP pricing, fixed strategies, no global span): if the first phase of column
generation ends before a limit is reached, the last value of `lower_bound` is a lower bound, up to 1/1000 per route, for
the cost of every plan over the horizon whose routes respect the limits. -/
theorem C34_horizon_partial {st st' : SolveState} {m : Heur} {fuel : Nat} (hnum : Numbered st.cols)
    (hmc : st.mcols = st.cols) (hmore : st.more = true) (hp : cfg.pricing = .fixed m) (hG : WellFormed cfg.M.G)
    (hd : cfg.M.G.demand .source = 0) (hs : cfg.M.G.service .sink = 0) (hcspy : cfg.cspy = false)
    (htw : cfg.timeWindows = true → WindowsFit cfg.M.G) (hspan : cfg.M.globalSpan = false) (hper : cfg.M.periodic = true)
    (hsolver : ∀ t, SolverExact (env.pricing t))
    (hduals : ∀ n stm, Trace cfg env false st n stm → (env.master stm.tick (cfg.M.lp stm.mcols true)).optimal = true →
      HorizonDualsOk cfg.M stm.mcols (env.master stm.tick (cfg.M.lp stm.mcols true)))
    (h : columnGeneration cfg env false fuel st = .ok (some st'))
    (hlim : limitReached cfg st' = false) (htime : env.timeUp st'.tick = false) :
    ∃ bound, st'.bounds.getLast? = some bound ∧
      ∀ (P : Plan) (dropped : List Node), HorizonPlan cfg.M.G dropped P →
        (∀ v ∈ dropped, v ∈ cfg.M.drops) → (∀ e ∈ P, e.1 < cfg.K) →
        (∀ e ∈ P, Admissible (limitsOf cfg e.1) e.2 ∧ VariantFit (limitsOf cfg e.1) e.2) →
        bound ≤ planCost cfg.M.G P + cfg.M.dropPenalty * (cfg.M.G.customers.filter (fun v => v ∈ dropped)).length +
          1 / 1000 * P.length := by
  rcases C34_exact_failed_partial hnum hmc hmore hp h with h' | h' | ⟨n, stm, d, cost, st1, htr, hsm, hf, _, hfail⟩
  · rw [htime] at h'; cases h'
  · rw [hlim] at h'; cases h'
  · obtain ⟨d', cost', st1', hh, st2, st3, e1, e2, e3, e4⟩ := findColumns_inv hf
    rw [hsm] at e1
    simp only [Except.ok.injEq, Prod.mk.injEq] at e1
    obtain ⟨rfl, rfl, rfl⟩ := e1
    obtain ⟨_, _, _, _, _, _, _, _, c9, _⟩ := count_step e4
    refine ⟨cost, by rw [c9]; simp, ?_⟩
    intro P dropped hP hdr hK hadm
    simp only [solveMaster, Bool.false_eq_true, if_false, solveRelaxed] at hsm
    by_cases hopt : (env.master stm.tick (cfg.M.lp stm.mcols true)).optimal = true
    · rw [if_pos hopt] at hsm
      simp only [Except.ok.injEq, Prod.mk.injEq] at hsm
      obtain ⟨rfl, rfl, _⟩ := hsm
      have hdu := hduals n stm htr hopt
      generalize env.master stm.tick (cfg.M.lp stm.mcols true) = a at hdu hfail
      refine hdu.value.trans ?_
      have hno : ∀ e ∈ P, ∃ w, reducedCosts cfg.M.G (cfg.M.duals stm.cols a) e.1 none = .ok w ∧
          -(1 / 1000) ≤ legSum w e.2 := by
        intro e he
        obtain ⟨cols, _, _, hx, _⟩ := hfail e.1 (hK e he)
        obtain ⟨t, ht⟩ := hx hspan
        obtain ⟨w, hw, hno⟩ := no_route_left hG hd hs hcspy htw (hsolver t) ht
        exact ⟨w, hw, hno e.2 (hadm e he).1 (hadm e he).2⟩
      refine Master.C54_weak_duality_periodic hG hper a hP (fun v _ hv => hdu.drop v (hdr v hv))
        (w := fun k => match reducedCosts cfg.M.G (cfg.M.duals stm.cols a) k none with | .ok w => w | .error _ => fun _ _ => 0)
        (cols := stm.cols) ?_ ?_
      · intro e he
        obtain ⟨w, hw, _⟩ := hno e he
        simp only [hw]
      · intro e he
        obtain ⟨w, hw, hle⟩ := hno e he
        simp only [hw]
        exact hle
    · simp [hopt] at hsm

end Solve

/-- The routes solve the periodic problem, within the limits: they are a plan over the horizon in which every customer is
visited as often as the user wants, dropping it saves one visit. -/
def Spec.ServesHorizon (P : Vrp) (K : Nat) (S : Solution) : Prop :=
  PeriodicPlanFor P K (fun k r => ∃ mid, r = routeOf mid ∧ WithinLimitsOf P k mid) S ∧
    ∀ n, Node.cust n ∈ P.G.nodes →
      (visitCount S (.cust n) : ℚ) + (if Node.cust n ∈ S.dropped then 1 else 0) = userFrequency P.G (.cust n)

/-- What column generation for a periodic problem ends with. -/
theorem horizon_generation {w : World} {a : SolveArgs} {fuel : Nat} {P0 P' : Vrp} {o : Obj} {rs : List (List Node)}
    {cols : List Column} {K : Nat} {N N3 : Net} {m : Heur} {stc : SolveState}
    (hexact : ∀ t, SolverExact (w.pricing t)) (hP : DeliveryData P0) (hper : P0.periodic.getD 0 ≠ 0)
    (hwide : P0.timeWindows = true → P0.G.nodes.head? = some .source ∧ WindowsWide P0)
    (hcost : ∀ k, 0 ≤ userArcCost P0 k .source .sink) (hpen : 0 ≤ P0.dropPenalty)
    (hspan : P0.minimizeGlobalSpan = false) (hcspy : a.cspy = false)
    (S : Searched P0 P' K N N3) (R : Reported P0 P' [] K N) (U : UserData P0 P' N)
    (hsame : ∀ k < K, ∀ u v, v ∈ N.succ u → ¬ (u = .source ∧ v = .sink) → (N3.cost u v).getD k 0 ≤ (N.cost u v).getD k 0)
    (hnum : Solve.Numbered cols) (hm : PricingMode.ofName a.strategy = .fixed m)
    (hd : ∀ n stm, Solve.Trace (({ P' with initialRoutes := rs } : Vrp).solveCfg a w.falsy) w.toEnv false
        (o.start a ({ P' with initialRoutes := rs } : Vrp) cols) n stm →
      (w.master stm.tick (({ P' with initialRoutes := rs } : Vrp).master.lp stm.mcols true)).optimal = true →
      HorizonDualsOk ({ P' with initialRoutes := rs } : Vrp).master stm.mcols
        (w.master stm.tick (({ P' with initialRoutes := rs } : Vrp).master.lp stm.mcols true)))
    (hcg : Solve.columnGeneration (({ P' with initialRoutes := rs } : Vrp).solveCfg a w.falsy) w.toEnv false fuel
        (o.start a ({ P' with initialRoutes := rs } : Vrp) cols) = .ok (some stc))
    (hlim : Solve.limitReached (({ P' with initialRoutes := rs } : Vrp).solveCfg a w.falsy) stc = false)
    (htime : ∀ t, w.timeUp t = false) :
    ∃ bound, stc.bounds.getLast? = some bound ∧ ∀ S, ServesHorizon P0 K S →
      bound ≤ (userCosts P0 S).sum + P0.dropPenalty * S.dropped.length + 1 / 1000 * S.routes.length := by
  have hN3 : P'.G.toNet = N3 := by rw [S.graph]; rfl
  obtain ⟨f1, f2, f3, f4, f5, f6, f7, f8, f9, f10, f11⟩ := S.fields
  have hK : (({ P' with initialRoutes := rs } : Vrp).solveCfg a w.falsy).K = K := by
    show P'.vehicleTypes.getD 0 = K
    rw [S.types]
    rfl
  obtain ⟨bound, hb, hbound⟩ := Solve.C34_horizon_partial (cfg := ({ P' with initialRoutes := rs } : Vrp).solveCfg a w.falsy)
    (env := w.toEnv) (m := m) (st := o.start a ({ P' with initialRoutes := rs } : Vrp) cols) hnum rfl f10 hm
    (by show WellFormed P'.G.toNet; rw [hN3]; exact S.wfSearch)
    (by show P'.G.toNet.demand .source = 0; rw [hN3, S.same.demand]; exact S.demandDepots.1)
    (by
      show P'.G.toNet.service .sink = 0
      rw [hN3, S.same.service]
      exact (S.serviceDepots hP.service.1 hP.service.2).2)
    hcspy (fun ht => by
      have ht : P'.timeWindows = true := ht
      rw [f2] at ht
      show WindowsFit P'.G.toNet
      rw [hN3]
      exact S.windowsFit U hP.customer hP.service (hP.times ht) ht (hwide ht).1 (hwide ht).2)
    (f9.trans hspan)
    (by
      show decide (P'.periodic.getD 0 ≠ 0) = true
      rw [f7]
      simpa using hper)
    hexact hd hcg hlim (htime _)
  have hMG : (({ P' with initialRoutes := rs } : Vrp).solveCfg a w.falsy).M.G = N3 := hN3
  have hMp : (({ P' with initialRoutes := rs } : Vrp).solveCfg a w.falsy).M.dropPenalty = P0.dropPenalty := f5
  refine ⟨bound, hb, ?_⟩
  rintro Sol ⟨hplan, hserved⟩
  obtain ⟨p1, p2, p3, p4, p5⟩ := searched_routes_of (A := Allowed P0 P' N3) S (fun k r h => h.admissible.simple)
    (by
      rintro k _ mid hmid hnd hne hal ⟨mid', e1, e2⟩
      have : mid' = mid := by simpa [routeOf] using e1.symm
      subst this
      exact S.admissible R U hP hmid hnd hne hal e2)
    hsame hcost hplan.routes
  have hdropped : ∀ v ∈ Sol.dropped, v ∈ N3.customers := fun v hv => (p2 v).2 (hplan.dropped v hv)
  have hHP : HorizonPlan N3 Sol.dropped (routesWithCustomers Sol) := by
    refine ⟨fun e he => (p1 e he).2.admissible.simple.1, ?_⟩
    intro v hv
    obtain ⟨⟨n, rfl⟩, hn⟩ := (p2 v).1 hv
    have hn' : Node.cust n ∈ N.nodes := by rw [S.userNodes]; exact hn
    rw [p3 n, S.same.freq, U.freq _ hn']
    exact hserved n hn
  have := hbound (routesWithCustomers Sol) Sol.dropped (by rw [hMG]; exact hHP)
    (by
      intro v hv
      unfold Master.drops
      rw [hMp, hMG]
      by_cases h0 : P0.dropPenalty = 0
      · rw [hplan.penalty h0] at hv
        cases hv
      · simp only [h0, if_false]
        exact hdropped v hv)
    (by rw [hK]; exact fun e he => (p1 e he).1)
    (by
      intro e he
      have hal := (p1 e he).2
      have hadm := hal.admissible
      have e1 : (({ P' with initialRoutes := rs } : Vrp).solveCfg a w.falsy).caps = userCapacities P0.loadCapacity := S.caps
      have e2 : (({ P' with initialRoutes := rs } : Vrp).solveCfg a w.falsy).duration = P0.duration.limit := by
        show P'.duration.limit = _
        rw [f11]
      have e3 : (({ P' with initialRoutes := rs } : Vrp).solveCfg a w.falsy).timeWindows = P0.timeWindows := f2
      have e4 : (({ P' with initialRoutes := rs } : Vrp).solveCfg a w.falsy).pickupDelivery = false := f3.trans hP.pickupDelivery
      have e5 : (({ P' with initialRoutes := rs } : Vrp).solveCfg a w.falsy).distributionCollection = P0.distributionCollection := f4
      have hlims : limitsOf (({ P' with initialRoutes := rs } : Vrp).solveCfg a w.falsy) e.1 =
          { searchLimits P0 P' N3 e.1 with distributionCollection := P0.distributionCollection } := by
        unfold limitsOf
        rw [hMG, e1, e2, e3, e4, e5]
        rfl
      rw [hlims]
      refine ⟨⟨hadm.simple, hadm.nonempty, hadm.stops, hadm.load, hadm.duration, hadm.onTime⟩, fun h => (by cases h), fun h c hc => ?_⟩
      refine ⟨fun v hv => ?_, fun v hv => ?_, hal.goods h c hc⟩
      · show 0 ≤ N3.demand v
        have hv : v ∈ N.nodes := by rw [← S.nodes]; exact hv
        rw [S.same.demand]
        by_cases hs : v = .source
        · rw [hs, S.demandDepots.1]
        · by_cases ht : v = .sink
          · rw [ht, S.demandDepots.2]
          · rw [S.demand v (mem_customers.2 ⟨hv, hs, ht⟩)]
            exact hP.demand v (by rw [← S.userNodes]; exact hv)
      · show 0 ≤ N3.collect v
        have hv : v ∈ N.nodes := by rw [← S.nodes]; exact hv
        rw [S.same.collect, U.collect v hv]
        exact (hP.collect h v (by rw [← S.userNodes]; exact hv)).1)
  rw [hMG, hMp] at this
  have p7 : (N3.customers.filter (fun v => v ∈ Sol.dropped)).length ≤ Sol.dropped.length := by
    have hnd : N3.customers.Nodup := S.wfSearch.nodes_nodup.filter _
    exact (List.subperm_of_subset (hnd.filter _) (fun v hv => by simpa using (List.mem_filter.1 hv).2)).length_le
  have q1 : P0.dropPenalty * ((N3.customers.filter (fun v => v ∈ Sol.dropped)).length : ℚ) ≤
      P0.dropPenalty * (Sol.dropped.length : ℚ) := mul_le_mul_of_nonneg_left (by exact_mod_cast p7) hpen
  have q2 : ((routesWithCustomers Sol).length : ℚ) ≤ Sol.routes.length := by exact_mod_cast p5
  linarith

/-- **C70 (partial), periodic problems.** As `C70_lower_bound_partial`: no plan over the horizon within the limits, in which every
customer is visited as often as the user wants, is cheaper than the last value of `_lower_bound`, up to 1/1000 for each
route – whether or not it can be scheduled with the vehicles there are. -/
theorem C70_periodic_partial {w : World} {a : SolveArgs} {fuel : Nat} {P0 : Vrp} {o o' : Obj}
    (hexact : ∀ t, SolverExact (w.pricing t)) (hP : DeliveryData P0) (hper : P0.periodic.getD 0 ≠ 0)
    (hwide : P0.timeWindows = true → P0.G.nodes.head? = some .source ∧ WindowsWide P0)
    (hcost : ∀ k, 0 ≤ userArcCost P0 k .source .sink) (hpen : 0 ≤ P0.dropPenalty)
    (hspan : P0.minimizeGlobalSpan = false) (hpre : a.preassignments = [])
    (hheur : a.heuristicOnly = false) (hcspy : a.cspy = false) (hstrat : a.strategy ≠ "Hyper")
    (hc : Obj.create P0 = .ok o)
    (hduals : ∀ P' P'' fuel cols m stm, o.P.startSolve w.dist a.strategy a.cspy a.initialRoutes a.preassignments = .ok P' →
      P'.initialize P'.G.toNet w.cw fuel = .ok (some (P'', cols)) →
      Solve.Trace (P''.solveCfg a w.falsy) w.toEnv false (o.start a P'' cols) m stm →
      (w.master stm.tick (P''.master.lp stm.mcols true)).optimal = true →
      HorizonDualsOk P''.master stm.mcols (w.master stm.tick (P''.master.lp stm.mcols true)))
    (h : o.solve w a fuel = .ok (some o')) (hno : Spec.NotStagnant a o')
    (hiter : a.maxIter = 0 ∨ o'.iteration < a.maxIter) (htime : ∀ t, w.timeUp t = false) :
    ∃ K bound, o'.P.vehicleTypes = some K ∧ o'.bounds.getLast? = some bound ∧ ∀ S, ServesHorizon P0 K S →
      bound ≤ (userCosts P0 S).sum + P0.dropPenalty * S.dropped.length + 1 / 1000 * S.routes.length := by
  obtain ⟨P', rs, cols, K, N, N3, m, stc, hstart, h1, S, R, U, hnum, hm, hcg, hlim, hK', hbs⟩ :=
    generation_of_solve hP.wf hP.customer hP.costs (fun v hv _ => hP.demand v hv) hpre hheur hstrat hc h hno hiter
  obtain ⟨bound, hb, hS⟩ := horizon_generation hexact hP hper hwide hcost hpen hspan hcspy S R U (searched_costs (w := w) hc hpre hstart S R) hnum hm
    (fun m stm => hduals P' _ fuel cols m stm hstart h1) hcg hlim htime
  exact ⟨K, bound, hK', by rw [hbs]; exact hb, hS⟩

end Vrpy
