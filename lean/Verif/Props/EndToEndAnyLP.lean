import Verif.Proofs.LpAnyPoint
import Verif.Props.EndToEndDuration
import Verif.Props.EndToEndDive
import Verif.Props.RunLoads

/-!
# C84: the routes reported after LP pricing, whatever feasible points the solver returns
-/

namespace Vrpy

open Spec

/-- A column whose shortest paths are simple routes of `G` with the property `F`; there may be cycles beside them. -/
def ColumnAny (G : Net) (K : Nat) (F : Nat → List Node → Prop) (c : Column) : Prop :=
  c.vehicleType < K ∧ (∃ r, IsShortestPath c.edges r) ∧ ∀ r, IsShortestPath c.edges r → IsSimpleRoute G r ∧ F c.vehicleType r ∧
    ∀ gs v, v ≠ .source → v ≠ .sink → r.count v ≤ (c.visited gs).count v

theorem columnAny_of_route {G : Net} {K : Nat} {F : Nat → List Node → Prop} {c : Column} (hk : c.vehicleType < K) {r : List Node}
    (hr : IsSimpleRoute G r) (hd : Draws c r) (hF : F c.vehicleType r) : ColumnAny G K F c := by
  obtain ⟨mid, rfl, _⟩ := id hr.1
  have key := shortest_iff hr.2 (fun e => hd.edges.mem_iff (a := e))
  refine ⟨hk, ⟨_, (key _).2 rfl⟩, ?_⟩
  intro r' hr'
  rw [(key r').1 hr']
  exact ⟨hr, hF, fun gs v h1 h2 => (Master.visited_count hd gs h1 h2).ge⟩

theorem columnFor_any {G : Net} {K : Nat} {F : Nat → List Node → Prop} {c : Column} (h : ColumnFor G K F c)
    (hn : Master.isNon c.name = false) : ColumnAny G K F c := by
  obtain ⟨hk, ⟨n, hname⟩ | ⟨r, hr, hd, hF⟩⟩ := h
  · rw [hname] at hn
    cases hn
  · exact columnAny_of_route hk hr hd hF

/-- What LP pricing adds, for any solver that returns feasible points. -/
theorem price_any {cfg : SolveCfg} {env : Env} {d : Duals} {F : Nat → List Node → Prop} (hcspy : cfg.cspy = false)
    (hG : WellFormed cfg.M.G) (hdem : cfg.M.G.demand .source = 0) (hser : cfg.M.G.service .sink = 0)
    (hsound : ∀ t, SolverSound (env.pricing t)) (hpaths : ∀ t, PathsOk (env.paths t))
    (hgreedy : ∀ k < cfg.K, ∀ st st' : SolveState, Solve.greedyPhase cfg env d k st = .ok st' →
      ∀ c ∈ st'.cols, c ∈ st.cols ∨ ColumnAny cfg.M.G cfg.K F c)
    (hF : ∀ k mid, IsSimpleRoute cfg.M.G (routeOf mid) → WithinStops cfg.numStops mid.length →
      ((∀ v ∈ cfg.M.G.nodes, 0 ≤ cfg.M.G.demand v) → WithinCapacity cfg.caps k (load cfg.M.G (routeOf mid))) →
      ((∀ u v, v ∈ cfg.M.G.succ u → 0 ≤ cfg.M.G.time u v + cfg.M.G.service u) →
        Within cfg.duration (Spec.duration cfg.M.G (routeOf mid))) →
      (cfg.timeWindows = true → OnTime cfg.M.G (routeOf mid)) → F k (routeOf mid)) :
    Solve.PriceOk cfg env d (ColumnAny cfg.M.G cfg.K F) := by
  refine ⟨?_, hgreedy⟩
  intro k hk t route cols s cols' _ h c hc
  unfold Solve.price at h
  cases hs : subProblem cfg.M.G d k route (env.paths t) s with
  | error e => simp [hs] at h
  | ok wS =>
  obtain ⟨w, S⟩ := wS
  simp only [hs, hcspy, Bool.false_eq_true, if_false] at h
  have hsub := C15_subgraph hs
  have hwf := subProblem_wf hG (hpaths t) hs
  generalize hq : ({ G := S.G, weight := w, vehicleType := k, caps := cfg.caps, numStops := cfg.numStops,
                     duration := cfg.duration, timeWindows := cfg.timeWindows, pickupDelivery := cfg.pickupDelivery,
                     distributionCollection := cfg.distributionCollection, negCycle := env.negCycle cfg.M.G w } :
                       PricingLP) = q at h
  have hqG : q.G = S.G := by rw [← hq]
  have hqk : q.vehicleType = k := by rw [← hq]
  have hqc : q.caps = cfg.caps := by rw [← hq]
  have hqs : q.numStops = cfg.numStops := by rw [← hq]
  have hqd : q.duration = cfg.duration := by rw [← hq]
  have hqt : q.timeWindows = cfg.timeWindows := by rw [← hq]
  rw [← hqG] at hwf hsub
  obtain ⟨prob, c', hform, hfeas, rfl, _, htype, hpath, hnodes, hedges⟩ := PricingLP.solve_any (hsound t) h
  obtain ⟨cap, rfl, hcap⟩ := PricingLP.formulate_inv hform
  rw [List.mem_append, List.mem_singleton] at hc
  rcases hc with hc | rfl
  · exact Or.inl hc
  right
  have hmem : ∀ e, e ∈ c.edges ↔ e ∈ q.chosen (env.pricing t (q.lp cap)).point := by
    intro e
    rw [hedges, mem_graphEdges]
  refine ⟨by rw [htype, hqk]; exact hk, ?_, ?_⟩
  · obtain ⟨r, h1, h2, _, h4⟩ := ((PricingLP.flowPoint hfeas).unitFlow hwf).exists_path
    exact exists_shortest ⟨h1, h2, (along_iff _ _).2 (fun u v huv => (hmem _).2 (h4 _ huv))⟩
  · intro r hr
    have hconn := shortest_connTo hmem hr
    obtain ⟨mid, rfl, hnd, hm1, hm2⟩ := connTo_routeOf hconn
    obtain ⟨hsimple, l1, l2, l3, l4⟩ := PricingLP.path_limits hwf (by rw [hsub.demand]; exact hdem)
      (by rw [hsub.service]; exact hser) (fun h => hcap (Or.inl h)) hfeas hconn hnd hm1 hm2
    refine ⟨isSimpleRoute_mono hsub.nodes hsub.arcs hsimple, ?_, ?_⟩
    · rw [htype]
      refine hF _ mid (isSimpleRoute_mono hsub.nodes hsub.arcs hsimple) (by rw [← hqs]; exact l1) ?_ ?_ ?_
      · intro h0
        have := l2 (fun v hv => by rw [hsub.demand]; exact h0 v (hsub.nodes v hv))
        rwa [hqc, load_congr hsub.demand] at this
      · intro h0
        have := l3 (fun u v huv => by rw [hsub.time, hsub.service]; exact h0 u v (hsub.arcs u v huv))
        have he : Spec.duration q.G (routeOf mid) = Spec.duration cfg.M.G (routeOf mid) := by
          unfold Spec.duration travel
          rw [hsub.time, hsub.service]
        rwa [hqd, he] at this
      · intro h0
        exact onTime_same hsub.service hsub.time hsub.lower hsub.upper (l4 (by rw [hqt]; exact h0))
    · intro gs v h1 h2
      by_cases hv : v ∈ routeOf mid
      · rw [List.count_eq_one_of_mem hnd hv, Column.visited, hpath]
        rw [Nat.one_le_iff_ne_zero, ← Nat.pos_iff_ne_zero, List.count_pos_iff, List.mem_filter]
        refine ⟨?_, by simp [h1, h2]⟩
        rw [hnodes, mem_graphNodes]
        have hv' : v ∈ mid ++ [Node.sink] := by
          rcases List.mem_cons.1 hv with h | h
          · exact absurd h h1
          · exact h
        obtain ⟨u, hu⟩ := pred_of_mem _ Node.source hv'
        exact ⟨_, hconn.2.2.2 _ hu, Or.inr rfl⟩
      · rw [List.count_eq_zero_of_not_mem hv]
        exact Nat.zero_le _

/-- The routes reported: every route starts at Source, visits different customers, ends at Sink, drives along arcs of the user's
graph (completed with depot arcs), and has the property `F` for its vehicle type; only customers are dropped, and only with a
penalty. -/
structure Spec.RoutesFor (P : Vrp) (K : Nat) (F : Nat → List Node → Prop) (S : Solution) : Prop where
  routes : ∀ i r, (i, r) ∈ S.routes → ∃ mid, r = routeOf mid ∧ mid.Nodup ∧
    (∀ v ∈ mid, (∃ n, v = .cust n) ∧ v ∈ P.G.nodes) ∧ Along (UserArc P.G) r ∧
    ∃ k < K, dget S.types i = some k ∧ F k r
  dropped : ∀ v ∈ S.dropped, (∃ n, v = .cust n) ∧ v ∈ P.G.nodes
  penalty : P.dropPenalty = 0 → S.dropped = []

/-- No customer is on two routes, no dropped customer on a route, and at most (exactly, with `use_all_vehicles`) `num_vehicles[k]`
vehicles of type `k` are used. -/
structure Spec.NothingTwice (P : Vrp) (S : Solution) : Prop where
  once : ∀ n, (S.routes.map (fun p => p.2.count (.cust n))).sum ≤ 1
  dropped : ∀ v ∈ S.dropped, ∀ i r, (i, r) ∈ S.routes → v ∉ r
  fleet : ∀ k n, (userFleet P.numVehicles)[k]? = some n →
    (S.routes.filter (fun p => dget S.types p.1 = some k)).length ≤ n ∧
    (P.useAllVehicles = true → (S.routes.filter (fun p => dget S.types p.1 = some k)).length = n)

/-- `best_value` is what the routes cost, plus penalties. -/
def Spec.ValueOfRoutes (P : Vrp) (N : Net) (S : Solution) : Prop :=
  (P.minimizeGlobalSpan = false → bestValue N false P.dropPenalty S =
    .ok ((userCosts P S).sum + P.dropPenalty * S.dropped.length)) ∧
  (P.minimizeGlobalSpan = true → S.routes ≠ [] → ∃ m, IsLargest m (userCosts P S) ∧
    bestValue N true P.dropPenalty S = .ok (m + P.dropPenalty * S.dropped.length))

/-- What is reported, if the first columns and those found by pricing carry routes with the property `F`. -/
theorem routes_of_columns {w : World} {a : SolveArgs} {fuel : Nat} {P0 P' : Vrp} {o o' : Obj} {K : Nat} {N N3 : Net}
    {F : Nat → List Node → Prop} (hcustomer : ∃ n, Node.cust n ∈ P0.G.nodes) (S : Searched P0 P' K N N3)
    (hd : a.dive = true → DiveOk w.toEnv) (hmaster : ∀ t, MasterSolverSound (w.master t))
    (hpath : ∀ (c : Column) (p : List Node), IsShortestPath c.edges p → IsShortestPath c.edges (w.path c))
    (hinit : ∀ P'' cols, P'.initialize P'.G.toNet w.cw fuel = .ok (some (P'', cols)) → Solve.Numbered cols ∧
      (∀ c ∈ cols, ColumnFor N3 K F c) ∧ ∃ rs, P'' = { P' with initialRoutes := rs })
    (hold : P0.dropPenalty = 0 → o.solution.dropped = [])
    (hprice : ∀ rs d,
      Solve.PriceOk (({ P' with initialRoutes := rs } : Vrp).solveCfg a w.falsy) w.toEnv d (ColumnAny N3 K F))
    (h : Obj.columnGeneration w a fuel P' o = .ok (some o')) :
    o'.P.H = some N ∧ RoutesFor P0 K F o'.solution ∧
      (a.dive = false → P0.periodic.getD 0 = 0 → NothingTwice P0 o'.solution) ∧ ValueOfRoutes P0 N o'.solution := by
  unfold Obj.columnGeneration at h
  cases h1 : P'.initialize P'.G.toNet w.cw fuel with
  | error e => simp [h1] at h
  | ok x =>
  cases x with
  | none => simp [h1] at h
  | some x =>
  obtain ⟨P'', cols⟩ := x
  simp only [h1] at h
  obtain ⟨hnum, hgood, rs, rfl⟩ := hinit _ _ h1
  split at h
  · cases h
  split at h
  · cases h
  · cases h
  rename_i st f hrun
  have hN3 : P'.G.toNet = N3 := by rw [S.graph]; rfl
  obtain ⟨f1, f2, f3, f4, f5, f6, f7, f8, f9, f10, f11⟩ := S.fields
  have hany : ∀ c ∈ cols, ColumnAny N3 K F c := fun c hc => columnFor_any (hgood c hc) (initialize_names h1 c hc)
  have hsize : 2 < N3.nodes.length := by
    obtain ⟨n, hn⟩ := hcustomer
    rw [← S.userNodes, ← S.nodes] at hn
    have hsub : [Node.source, .sink, .cust n].Subperm N3.nodes :=
      List.subperm_of_subset (by simp) (by
        intro v hv
        simp only [List.mem_cons, List.not_mem_nil, or_false] at hv
        rcases hv with rfl | rfl | rfl
        · exact S.wfSearch.source_mem
        · exact S.wfSearch.sink_mem
        · exact hn)
    exact hsub.length_le
  set M := (({ P' with initialRoutes := rs } : Vrp).solveCfg a w.falsy).M with hM
  have hMG : M.G = N3 := hN3
  have hMpen : M.dropPenalty = P0.dropPenalty := f5
  obtain ⟨pool, p, hgr, hdr, hall, hlp⟩ : ∃ pool p, f.graphs = Master.selected pool p ∧
      f.dropped = (if M.dropPenalty = 0 then none else some (M.dropped p)) ∧ (∀ c ∈ pool, ColumnAny N3 K F c) ∧
      (a.dive = false → (M.lp pool false).Feasible p) := by
    cases hdive : a.dive with
    | true =>
      rw [hdive] at hrun
      obtain ⟨pool, fixed, p, _, hgr, hdr, hall⟩ := Solve.run_dive (Q := ColumnAny N3 K F) (by exact hnum) rfl rfl (by exact f10) hany
        (fun _ _ d _ _ _ _ => hprice rs d) (hd hdive) hmaster hrun
      exact ⟨pool, p, hgr, hdr, hall, fun hf => (by cases hf)⟩
    | false =>
      rw [hdive] at hrun
      obtain ⟨p, hf, hgr, hdr, _, _, hall⟩ := Solve.run_selected (Q := ColumnAny N3 K F) (by exact hnum) rfl hany
        (fun _ d _ _ _ _ _ => hprice rs d) hmaster (by simpa [Vrp.solveCfg, Vrp.master, hN3] using hsize) hrun
      exact ⟨_, p, hgr, hdr, hall, fun _ => hf⟩
  have hsel : ∀ c ∈ Master.selected pool p, c.vehicleType < K ∧ IsSimpleRoute N3 (w.path c) ∧ F c.vehicleType (w.path c) ∧
      ∀ gs v, v ≠ .source → v ≠ .sink → (w.path c).count v ≤ (c.visited gs).count v := by
    intro c hc
    obtain ⟨h1, ⟨r, h2⟩, h3⟩ := hall c (Master.mem_selected.1 hc).1
    exact ⟨h1, h3 _ (hpath c r h2)⟩
  have c3 : M.dropPenalty = 0 → M.dropped p = [] := by
    intro h0
    simp [Master.dropped, Master.drops, h0]
  -- the report
  split at h
  · cases h
  rename_i o1 hpost
  simp only [Except.ok.injEq, Option.some.injEq] at h
  subst h
  unfold Obj.postProcess at hpost
  simp only [py_bind_ok] at hpost
  obtain ⟨dropped, hdrop, rt, hrt, sch, _, hpost⟩ := hpost
  simp only [pure, Except.pure, Except.ok.injEq] at hpost
  have hpre : ({ P' with initialRoutes := rs } : Vrp).preassignments = [] := f1
  rw [hpre, hgr] at hrt
  obtain ⟨hr1, hr2⟩ := Master.report_unlocked hrt
  have hdropped : dropped = M.dropped p := by
    unfold Obj.droppedNodes at hdrop
    by_cases h0 : P0.dropPenalty = 0
    · rw [if_neg (by simpa [f5] using h0)] at hdrop
      rw [c3 (by rw [hMpen]; exact h0)]
      simp only [Except.ok.injEq] at hdrop
      rw [← hdrop]
      exact hold h0
    · rw [if_pos (by simpa [f5] using h0), hdr, if_neg (by rw [hMpen]; exact h0)] at hdrop
      simp only [Except.ok.injEq] at hdrop
      exact hdrop.symm
  have hsol : o1.solution = ⟨numbered ((Master.selected pool p).map w.path),
      numbered ((Master.selected pool p).map Column.vehicleType), M.dropped p⟩ := by
    rw [← hpost, ← hdropped]
    simp only [hr1, hr2]
  have hH : o1.P.H = some N := by
    rw [← hpost]
    exact S.reports
  rw [hsol]
  have hmono : ∀ r, IsSimpleRoute N3 r → IsSimpleRoute N r := fun r =>
    isSimpleRoute_mono (fun v hv => by rw [← S.nodes]; exact hv) S.same.succ
  have hcustomers : ∀ v ∈ M.dropped p, v ∈ N3.customers := by
    intro v hv
    have hd : v ∈ M.drops := (Master.mem_dropped.1 hv).1
    unfold Master.drops at hd
    split at hd
    · simp at hd
    · rw [hMG] at hd
      exact hd
  have hcount : ∀ v, v ≠ .source → v ≠ .sink →
      (((Master.selected pool p).map (fun c => (w.path c).count v)).sum : ℚ) ≤
        ((Master.selected pool p).map (fun c => ((c.visited M.globalSpan).count v : ℚ))).sum := by
    intro v h1 h2
    have H : ∀ c ∈ Master.selected pool p, (w.path c).count v ≤ (c.visited M.globalSpan).count v :=
      fun c hc => (hsel c hc).2.2.2 _ v h1 h2
    revert H
    generalize Master.selected pool p = l
    intro H
    induction l with
    | nil => simp
    | cons c l ih =>
      simp only [List.map_cons, List.sum_cons, Nat.cast_add]
      have h3 := ih (fun c hc => H c (List.mem_cons_of_mem _ hc))
      have h4 : ((w.path c).count v : ℚ) ≤ (c.visited M.globalSpan).count v := by exact_mod_cast H c List.mem_cons_self
      linarith
  have hbound : a.dive = false → P0.periodic.getD 0 = 0 → ∀ v ∈ N3.customers,
      (((Master.selected pool p).map (fun c => (w.path c).count v)).sum : ℚ) + (if v ∈ M.drops then p (.drop v) else 0) ≤ 1 := by
    intro hdive hper v hv
    have hMper : M.periodic = false := by
      show decide (P'.periodic.getD 0 ≠ 0) = false
      rw [f7, hper]
      rfl
    have hdum : M.dummies = [] := by simp [Master.dummies, hMper]
    obtain ⟨_, h1, h2⟩ := mem_customers.1 hv
    have he := Master.visit_eq (hlp hdive) (by rw [hMG]; exact hv)
    have hle := hcount v h1 h2
    simp only [hdum, hMper, List.not_mem_nil, if_false, add_zero, Bool.false_eq_true] at he
    linarith
  have hdrop0 : a.dive = false → ∀ v ∈ M.drops, 0 ≤ p (.drop v) := by
    intro hdive v hv
    rcases Master.drop_zero_or_one (hlp hdive) hv with h | h <;> norm_num [h]
  have hfleet : a.dive = false → P0.periodic.getD 0 = 0 → ∀ k n, M.numVehicles[k]? = some n →
      ((Master.selected pool p).filter (fun c => c.vehicleType = k)).length ≤ n ∧
      (M.useAllVehicles = true → ((Master.selected pool p).filter (fun c => c.vehicleType = k)).length = n) := by
    intro hdive hper k n hk
    have hMper : M.periodic = false := by
      show decide (P'.periodic.getD 0 ≠ 0) = false
      rw [f7, hper]
      rfl
    exact Master.C24_fleet hMper (hlp hdive) hk
  generalize Master.selected pool p = sel at *
  have hcost : ∀ c ∈ sel, Along (fun u v => v ∈ N.succ u ∧ c.vehicleType < (N.cost u v).length) (w.path c) ∧
      Spec.cost N c.vehicleType (w.path c) = legSum (userArcCost P0 c.vehicleType) (w.path c) := by
    intro c hc
    obtain ⟨hk, hr, _⟩ := hsel c hc
    obtain ⟨⟨mid, _, _, hal⟩, _⟩ := hmono _ hr
    rw [along_iff] at hal
    refine ⟨(along_iff _ _).2 (fun u v huv => ⟨hal u v huv, by rw [S.costs u v (hal u v huv)]; exact hk⟩), ?_⟩
    exact legSum_congr (fun u v huv => S.arcCost u v (hal u v huv) _ hk)
  have hcosts : userCosts P0 ⟨numbered (sel.map w.path), numbered (sel.map Column.vehicleType), M.dropped p⟩ =
      routeCosts N ⟨numbered (sel.map w.path), numbered (sel.map Column.vehicleType), M.dropped p⟩ := by
    rw [Master.routeCosts_numbered]
    unfold userCosts
    refine (numbered_map (fun r k => legSum (userArcCost P0 (k.getD 0)) r) w.path sel).trans ?_
    exact List.map_congr_left (fun c hc => ((hcost c hc).2).symm)
  have hval : ∀ span, (span = true → sel ≠ []) → ∃ v, bestValue N span P0.dropPenalty
      ⟨numbered (sel.map w.path), numbered (sel.map Column.vehicleType), M.dropped p⟩ = .ok v := by
    intro span hne
    refine C26_value_defined ?_ ?_
    · intro i r hir
      obtain ⟨c, hc, rfl, hk⟩ := mem_numbered_map hir
      exact ⟨_, hk, (hcost c hc).1⟩
    · intro hs h0
      refine hne hs ?_
      simpa [numbered] using h0
  refine ⟨hH, ⟨?_, ?_, ?_⟩, ?_, ?_, ?_⟩
  · intro i r hir
    obtain ⟨c, hc, rfl, hk⟩ := mem_numbered_map hir
    obtain ⟨hlt, hr, hF, _⟩ := hsel c hc
    obtain ⟨⟨mid, hmideq, hmid, hal⟩, hnd⟩ := id hr
    rw [hmideq] at hnd
    refine ⟨mid, hmideq, ?_, ?_, ?_, c.vehicleType, hlt, hk, hF⟩
    · exact (List.nodup_append.1 (List.nodup_cons.1 hnd).2).1
    · intro v hv
      refine ⟨(hmid v hv).1, ?_⟩
      rw [← S.userNodes, ← S.nodes]
      exact (hmid v hv).2
    · rw [along_iff] at hal ⊢
      exact fun u v huv => S.userArcs u v (S.same.succ u v (hal u v huv))
  · intro v hv
    obtain ⟨e1, e2, e3⟩ := mem_customers.1 (hcustomers v hv)
    refine ⟨?_, by rw [← S.userNodes, ← S.nodes]; exact e1⟩
    cases v with
    | source => exact absurd rfl e2
    | sink => exact absurd rfl e3
    | cust n => exact ⟨n, rfl⟩
  · intro h0
    exact c3 (by rw [hMpen]; exact h0)
  · intro hdive hper
    have hin : ∀ c ∈ sel, ∀ n, Node.cust n ∈ w.path c → Node.cust n ∈ N3.customers := by
      intro c hc n hn
      obtain ⟨_, ⟨⟨mid, hmideq, hmid, _⟩, _⟩, _⟩ := hsel c hc
      rw [hmideq] at hn
      have hn' : Node.cust n ∈ mid := by simpa [routeOf] using hn
      exact mem_customers.2 ⟨(hmid _ hn').2, by simp, by simp⟩
    refine ⟨?_, ?_, ?_⟩
    · intro n
      have h2 := numbered_map (fun r _ => r.count (.cust n)) w.path sel
      simp only at h2 ⊢
      rw [h2]
      by_cases hn : ∃ c ∈ sel, Node.cust n ∈ w.path c
      · obtain ⟨c, hc, hn⟩ := hn
        have hb := hbound hdive hper _ (hin c hc n hn)
        have h0 : (0 : ℚ) ≤ if Node.cust n ∈ M.drops then p (.drop (.cust n)) else 0 := by
          split
          · rename_i hdr'
            exact hdrop0 hdive _ hdr'
          · exact le_refl _
        have : ((sel.map (fun c => (w.path c).count (.cust n))).sum : ℚ) ≤ 1 := by linarith
        exact_mod_cast this
      · push Not at hn
        rw [List.sum_eq_zero]
        · exact Nat.zero_le _
        · intro x hx
          obtain ⟨c, hc, rfl⟩ := List.mem_map.1 hx
          exact List.count_eq_zero_of_not_mem (hn c hc)
    · intro v hv i r hir hvr
      obtain ⟨c, hc, rfl, _⟩ := mem_numbered_map hir
      obtain ⟨hd, hgt⟩ := Master.mem_dropped.1 hv
      have hb := hbound hdive hper v (hcustomers v hv)
      rw [if_pos hd] at hb
      have hpos : 1 ≤ (sel.map (fun c => (w.path c).count v)).sum := by
        have h3 : (w.path c).count v ≤ (sel.map (fun c => (w.path c).count v)).sum :=
          List.single_le_sum (fun _ _ => Nat.zero_le _) _ (List.mem_map.2 ⟨c, hc, rfl⟩)
        have h4 : 0 < (w.path c).count v := List.count_pos_iff.2 hvr
        omega
      have hpos' : (1 : ℚ) ≤ (sel.map (fun c => (w.path c).count v)).sum := by exact_mod_cast hpos
      linarith
    · intro k n hkn
      have hMv : M.numVehicles[k]? = some n := by
        rw [← hkn, ← S.fleet hper]
        rfl
      have hlen : ((numbered (sel.map w.path)).filter (fun q => dget (numbered (sel.map Column.vehicleType)) q.1 = some k)).length =
          (sel.filter (fun c => c.vehicleType = k)).length := by
        rw [← List.countP_eq_length_filter, ← List.countP_eq_length_filter]
        have h2 := congrArg (List.countP id) (numbered_map (fun _ t => decide (t = some k)) w.path sel)
        rw [List.countP_map, List.countP_map] at h2
        refine h2.trans ?_
        congr 1
        funext c
        simp
      simp only [hlen]
      obtain ⟨x, y⟩ := hfleet hdive hper k n hMv
      exact ⟨x, fun h => y (f8.trans h)⟩
  · intro _
    obtain ⟨v, hv⟩ := hval false (fun h => (by cases h))
    rw [hv, (C26_best_value hv).1 rfl, hcosts]
  · intro _ hne
    obtain ⟨v, hv⟩ := hval true (fun _ h0 => hne (by simp [numbered, h0]))
    obtain ⟨m, hm, rfl⟩ := (C26_best_value hv).2 rfl
    exact ⟨m, by rw [hcosts]; exact hm, hv⟩

/-! ## Whole runs -/

/-- Driving and serving take no negative time. -/
structure Spec.TimesForward (P : Vrp) : Prop where
  service : ∀ v ∈ P.G.nodes, 0 ≤ (P.G.nd v).serviceTime.getD 0
  time : ∀ u v, v ∈ P.G.succ u → 0 ≤ (P.G.ed u v).time.getD 0

theorem Searched.forward {P0 P' : Vrp} {K : Nat} {N N3 : Net} (S : Searched P0 P' K N N3) (hD : TimesForward P0) :
    ∀ u v, v ∈ N3.succ u → 0 ≤ N3.time u v + N3.service u := by
  intro u v hv
  rw [S.same.time, S.same.service]
  have hv := S.same.succ u v hv
  rw [S.time u v hv, S.service u (S.wf.edge_mem u v hv).1]
  have h1 := hD.service u (by rw [← S.userNodes]; exact (S.wf.edge_mem u v hv).1)
  split
  · rename_i h
    have := hD.time u v h
    linarith
  · linarith

theorem Searched.demands {P0 P' : Vrp} {K : Nat} {N N3 : Net} (S : Searched P0 P' K N N3)
    (hdem : ∀ v ∈ P0.G.nodes, 0 ≤ userDemand P0.G v) : ∀ v ∈ N3.nodes, 0 ≤ N3.demand v := by
  intro v hv
  rw [S.same.demand]
  rw [S.nodes] at hv
  by_cases h1 : v = .source
  · rw [h1, S.demandDepots.1]
  · by_cases h2 : v = .sink
    · rw [h2, S.demandDepots.2]
    · rw [S.demand v (mem_customers.2 ⟨hv, h1, h2⟩)]
      exact hdem v (by rw [← S.userNodes]; exact hv)

/-- A simple route of the network searched, in the user's terms. -/
theorem Searched.customersOf {P0 P' : Vrp} {K : Nat} {N N3 : Net} (S : Searched P0 P' K N N3) {mid : List Node}
    (hr : IsSimpleRoute N3 (routeOf mid)) : ∀ v ∈ mid, (∃ n, v = .cust n) ∧ v ∈ P0.G.nodes := by
  intro v hv
  obtain ⟨h1, h2, h3⟩ := mem_customers.1 (route_customers hr.1 v hv)
  refine ⟨?_, by rw [← S.userNodes, ← S.nodes]; exact h1⟩
  cases v with
  | source => exact absurd rfl h2
  | sink => exact absurd rfl h3
  | cust n => exact ⟨n, rfl⟩

theorem routes_of_searched {w : World} {a : SolveArgs} {fuel : Nat} {P0 P' : Vrp} {o o' : Obj} {K : Nat} {N N3 : Net} (hw : LpSound w)
    (hcw : ∀ x, (w.cw x).Valid) (hdive : a.dive = true → DiveOk w.toEnv) (hP : CapacitatedData P0) (S : Searched P0 P' K N N3)
    (hcspy : a.cspy = false) (hinit : ∀ r ∈ P'.initialRoutes, r.Nodup ∧ WithinStops P0.numStops.stops (stops r).length)
    (hold : P0.dropPenalty = 0 → o.solution.dropped = []) (h : Obj.columnGeneration w a fuel P' o = .ok (some o')) :
    o'.P.H = some N ∧
      RoutesFor P0 K (fun k r => ∃ mid, r = routeOf mid ∧ WithinStops P0.numStops.stops mid.length ∧
        WithinCapacity (userCapacities P0.loadCapacity) k (mid.map (userDemand P0.G)).sum) o'.solution ∧
      (a.dive = false → P0.periodic.getD 0 = 0 → NothingTwice P0 o'.solution) ∧ ValueOfRoutes P0 N o'.solution := by
  obtain ⟨f1, f2, f3, f4, f5, f6, f7, f8, f9, f10, f11⟩ := S.fields
  have hser := S.serviceDepots hP.service.1 hP.service.2
  have hconv : ∀ c, RouteColumn N3 K (userCapacities P0.loadCapacity) P0.numStops.stops c →
      ColumnFor N3 K (fun k r => ∃ mid, r = routeOf mid ∧ WithinStops P0.numStops.stops mid.length ∧
        WithinCapacity (userCapacities P0.loadCapacity) k (mid.map (userDemand P0.G)).sum) c := by
    rintro c ⟨h1, r, h2, h3, h4, h5⟩
    obtain ⟨mid, rfl, _⟩ := id h2.1
    obtain ⟨e1, e2⟩ := load_user S (S.customersOf h2)
    rw [e1] at h5
    rw [e2] at h4
    exact ⟨h1, Or.inr ⟨_, h2, h3, mid, rfl, h4, h5⟩⟩
  refine routes_of_columns hP.customer S hdive hw.master hw.path (fun P'' cols h1 => ?_) hold (fun rs d => ?_) h
  · obtain ⟨b1, b2, b3⟩ := initial_good hP S hcw hinit h1
    exact ⟨b1, fun c hc => hconv c (b2 c hc), b3⟩
  · have hN3 : P'.G.toNet = N3 := by rw [S.graph]; rfl
    generalize hcfg : ({ P' with initialRoutes := rs } : Vrp).solveCfg a w.falsy = cfg at *
    have hMG : cfg.M.G = N3 := by rw [← hcfg]; exact hN3
    have hcaps : cfg.caps = userCapacities P0.loadCapacity := by rw [← hcfg]; exact S.caps
    have hK : cfg.K = K := by
      rw [← hcfg]
      show P'.vehicleTypes.getD 0 = K
      rw [S.types]
      rfl
    have hns : cfg.numStops = P'.numStops.stops := by rw [← hcfg]; rfl
    rw [← hK, ← hMG]
    refine price_any (by rw [← hcfg]; exact hcspy) (by rw [hMG]; exact S.wfSearch)
      (by rw [hMG, S.same.demand]; exact S.demandDepots.1) (by rw [hMG, S.same.service]; exact hser.2) hw.sound hw.paths ?_ ?_
    · intro k hk st st' hg c hcc
      rcases Solve.greedy_good (env := w.toEnv) (by rw [hMG]; exact S.wfSearch)
        (by rw [hMG, S.same.demand]; exact S.demandDepots) (by rw [hcaps]; exact S.capsPos) k hk st st' hg c hcc with h1 | h1
      · exact Or.inl h1
      · rw [hMG, hK, hcaps, hns] at h1
        rw [hMG, hK]
        obtain ⟨h1, r, h2, h3, h4, h5⟩ := h1
        obtain ⟨mid, rfl, _⟩ := id h2.1
        obtain ⟨e1, e2⟩ := load_user S (S.customersOf h2)
        rw [e1] at h5
        rw [e2] at h4
        exact Or.inr (columnAny_of_route h1 h2 h3 ⟨mid, rfl, S.stops hP.distributionCollection _ h4, h5⟩)
    · intro k mid hr h1 h2 _ _
      rw [hMG] at hr h2
      obtain ⟨e1, e2⟩ := load_user S (S.customersOf hr)
      refine ⟨mid, rfl, S.stops hP.distributionCollection _ (by rw [← hns]; exact h1), ?_⟩
      have := h2 (S.demands hP.demand)
      rwa [e1, hcaps] at this

/-- **C84**, capacitated problems. Let a problem without time windows, collection, and pickups be handed to the constructor, periodic or
not, with a mixed fleet, fleet bounds, `use_all_vehicles`, a penalty, the global span or not, and let `solve(cspy=False)` be called
without preassigned routes, with or without diving and greedy pricing, and return.  The solver of the pricing problems may
return any feasible point (optimal or not, with cycles beside the route or not), the dual values may be anything, networkx
may say anything about negative cycles.  Then every reported route visits different customers along arcs of the graph, is within
the number of stops, and can be carried by its vehicle; without diving and if the problem is not periodic no customer is on two
routes, no dropped customer is on a route, and no more vehicles are used than there are; `best_value` is what the routes
cost plus penalties. -/
theorem C84_routes {w : World} {a : SolveArgs} {fuel : Nat} {P0 : Vrp} {o o' : Obj} (hw : LpSound w)
    (hcw : ∀ x, (w.cw x).Valid) (hdive : a.dive = true → DiveOk w.toEnv) (hP : CapacitatedData P0)
    (hpre : a.preassignments = []) (hheur : a.heuristicOnly = false) (hcspy : a.cspy = false)
    (hinit : ∀ r ∈ a.initialRoutes, r.Nodup ∧ WithinStops P0.numStops.stops (stops r).length)
    (hc : Obj.create P0 = .ok o) (h : o.solve w a fuel = .ok (some o')) :
    ∃ K N, (P0.mixedFleet = false → K = 1) ∧ o'.P.H = some N ∧
      RoutesFor P0 K (fun k r => ∃ mid, r = routeOf mid ∧ WithinStops P0.numStops.stops mid.length ∧
        WithinCapacity (userCapacities P0.loadCapacity) k (mid.map (userDemand P0.G)).sum) o'.solution ∧
      (a.dive = false → P0.periodic.getD 0 = 0 → NothingTwice P0 o'.solution) ∧ ValueOfRoutes P0 N o'.solution := by
  unfold Obj.solve at h
  split at h
  · cases h
  rename_i P' hstart
  rw [hheur] at h
  simp only [Bool.false_eq_true, if_false] at h
  obtain ⟨K, N, N3, S⟩ := searched (w := w) hP.wf hP.customer hP.costs hP.demand hpre hc hstart
  have hold : o.solution.dropped = [] := by
    obtain ⟨G, _, rfl⟩ := create_ok hc
    rfl
  exact ⟨K, N, S.typesOne, routes_of_searched hw hcw hdive hP S hcspy (by rw [startSolve_initial hc hstart]; exact hinit) (fun _ => hold) h⟩

theorem inTime_of_searched {w : World} {a : SolveArgs} {fuel : Nat} {P0 P' : Vrp} {o o' : Obj} {K : Nat} {N N3 : Net} (hw : LpSound w)
    (hcw : ∀ x, (w.cw x).Valid) (hdive : a.dive = true → DiveOk w.toEnv) (hP : CapacitatedData P0) (hT : TimesForward P0)
    (hsym : SymmetricUserTimes P0.G) (hfit : RoundTripsFit P0) (hgreedy : a.greedy = false) (S : Searched P0 P' K N N3)
    (hcspy : a.cspy = false) (hinit : ∀ r ∈ P'.initialRoutes, r.Nodup ∧ (IsSimpleRoute N3 r → InTime P0 r))
    (hold : P0.dropPenalty = 0 → o.solution.dropped = []) (h : Obj.columnGeneration w a fuel P' o = .ok (some o')) :
    RoutesFor P0 K (fun _ => InTime P0) o'.solution := by
  obtain ⟨f1, f2, f3, f4, f5, f6, f7, f8, f9, f10, f11⟩ := S.fields
  have hser := S.serviceDepots hP.service.1 hP.service.2
  have hprice : ∀ rs d, Solve.PriceOk (({ P' with initialRoutes := rs } : Vrp).solveCfg a w.falsy) w.toEnv d
      (ColumnAny N3 K (fun _ => InTime P0)) := by
    intro rs d
    have hN3 : P'.G.toNet = N3 := by rw [S.graph]; rfl
    generalize hcfg : ({ P' with initialRoutes := rs } : Vrp).solveCfg a w.falsy = cfg at *
    have hMG : cfg.M.G = N3 := by rw [← hcfg]; exact hN3
    have hdur : cfg.duration = P0.duration.limit := by rw [← hcfg, ← f11]; rfl
    have hK : cfg.K = K := by
      rw [← hcfg]
      show P'.vehicleTypes.getD 0 = K
      rw [S.types]
      rfl
    have hgr : Solve.usesGreedy cfg = false := by
      have : cfg.greedy = false := by rw [← hcfg]; exact hgreedy
      simp [Solve.usesGreedy, this]
    rw [← hK, ← hMG]
    refine price_any (by rw [← hcfg]; exact hcspy) (by rw [hMG]; exact S.wfSearch)
      (by rw [hMG, S.same.demand]; exact S.demandDepots.1) (by rw [hMG, S.same.service]; exact hser.2) hw.sound hw.paths ?_ ?_
    · intro k _ st st' hg c hcc
      unfold Solve.greedyPhase at hg
      rw [hgr] at hg
      simp only [Bool.false_eq_true, if_false, Except.ok.injEq] at hg
      subst hg
      exact Or.inl hcc
    · intro k mid hr _ _ h3 _
      rw [hMG] at hr h3
      intro _
      rw [← S.duration_eq hr, ← hdur]
      exact h3 (S.forward hT)
  obtain ⟨_, r2, _⟩ := routes_of_columns (F := fun _ => InTime P0) hP.customer S hdive hw.master hw.path
    (fun P'' cols h1 => initial_inTime hP S hcw hsym hfit hinit h1) hold hprice h
  exact r2

/-- **C84**, the duration: as `C84_routes`, without greedy pricing (`C62_greedy_counterexample`), for symmetric travel times (for the
savings heuristic, C09) that are not negative and round trips that fit: no reported route with customers takes longer than the duration. -/
theorem C84_duration {w : World} {a : SolveArgs} {fuel : Nat} {P0 : Vrp} {o o' : Obj} (hw : LpSound w)
    (hcw : ∀ x, (w.cw x).Valid) (hdive : a.dive = true → DiveOk w.toEnv) (hP : CapacitatedData P0) (hT : TimesForward P0)
    (hsym : SymmetricUserTimes P0.G) (hfit : RoundTripsFit P0) (hgreedy : a.greedy = false)
    (hpre : a.preassignments = []) (hheur : a.heuristicOnly = false) (hcspy : a.cspy = false)
    (hinit : ∀ r ∈ a.initialRoutes, r.Nodup ∧ InTime P0 r)
    (hc : Obj.create P0 = .ok o) (h : o.solve w a fuel = .ok (some o')) :
    ∀ i r, (i, r) ∈ o'.solution.routes → stops r ≠ [] → Within P0.duration.limit (userDuration P0.G r) := by
  unfold Obj.solve at h
  split at h
  · cases h
  rename_i P' hstart
  rw [hheur] at h
  simp only [Bool.false_eq_true, if_false] at h
  obtain ⟨K, N, N3, S⟩ := searched (w := w) hP.wf hP.customer hP.costs hP.demand hpre hc hstart
  have hold : o.solution.dropped = [] := by
    obtain ⟨G, _, rfl⟩ := create_ok hc
    rfl
  have r2 := inTime_of_searched hw hcw hdive hP hT hsym hfit hgreedy S hcspy
    (by rw [startSolve_initial hc hstart]; exact fun r hr => ⟨(hinit r hr).1, fun _ => (hinit r hr).2⟩) (fun _ => hold) h
  intro i r hir
  obtain ⟨_, _, _, _, _, _, _, _, hF⟩ := r2.routes i r hir
  exact hF

/-- **C84**, time windows: as `C84_routes`, for problems with time windows (without collection): every reported route is on time, within
the number of stops, can be carried by its vehicle, and takes no longer than the duration if the round trips fit. -/
theorem C84_windows {w : World} {a : SolveArgs} {fuel : Nat} {P0 : Vrp} {o o' : Obj} (hw : LpSound w)
    (hdive : a.dive = true → DiveOk w.toEnv) (hP : WindowedOrCollecting P0) (htw : P0.timeWindows = true)
    (hdc : P0.distributionCollection = false) (hT : TimesForward P0) (hpre : a.preassignments = [])
    (hheur : a.heuristicOnly = false) (hcspy : a.cspy = false)
    (hinit : ∀ r ∈ a.initialRoutes, r.Nodup ∧ ∀ mid k, r = routeOf mid →
      WithinCapacity (userCapacities P0.loadCapacity) k (mid.map (userDemand P0.G)).sum → RouteLimits P0 k mid)
    (hc : Obj.create P0 = .ok o) (h : o.solve w a fuel = .ok (some o')) :
    ∃ K N, (P0.mixedFleet = false → K = 1) ∧ o'.P.H = some N ∧
      RoutesFor P0 K (fun k r => ∃ mid, r = routeOf mid ∧ RouteLimits P0 k mid) o'.solution ∧
      (a.dive = false → NothingTwice P0 o'.solution) ∧ ValueOfRoutes P0 N o'.solution := by
  unfold Obj.solve at h
  split at h
  · cases h
  rename_i P' hstart
  rw [hheur] at h
  simp only [Bool.false_eq_true, if_false] at h
  obtain ⟨K, N, N3, S⟩ := searched (w := w) hP.wf hP.customer hP.costs hP.demand hpre hc hstart
  have U := userData (w := w) hP.wf hP.demand hpre hc hstart S.reports
  have hold : o.solution.dropped = [] := by
    obtain ⟨G, _, rfl⟩ := create_ok hc
    rfl
  have hi := startSolve_initial hc hstart
  obtain ⟨f1, f2, f3, f4, f5, f6, f7, f8, f9, f10, f11⟩ := S.fields
  have hser := S.serviceDepots hP.service.1 hP.service.2
  have hprice : ∀ rs d, Solve.PriceOk (({ P' with initialRoutes := rs } : Vrp).solveCfg a w.falsy) w.toEnv d
      (ColumnAny N3 K (fun k r => ∃ mid, r = routeOf mid ∧ RouteLimits P0 k mid)) := by
    intro rs d
    have hN3 : P'.G.toNet = N3 := by rw [S.graph]; rfl
    generalize hcfg : ({ P' with initialRoutes := rs } : Vrp).solveCfg a w.falsy = cfg at *
    have hMG : cfg.M.G = N3 := by rw [← hcfg]; exact hN3
    have hcaps : cfg.caps = userCapacities P0.loadCapacity := by rw [← hcfg]; exact S.caps
    have hdur : cfg.duration = P0.duration.limit := by rw [← hcfg, ← f11]; rfl
    have hctw : cfg.timeWindows = true := by rw [← hcfg]; exact f2.trans htw
    have hns : cfg.numStops = P'.numStops.stops := by rw [← hcfg]; rfl
    have hK : cfg.K = K := by
      rw [← hcfg]
      show P'.vehicleTypes.getD 0 = K
      rw [S.types]
      rfl
    have hgr : Solve.usesGreedy cfg = false := by simp [Solve.usesGreedy, hctw]
    rw [← hK, ← hMG]
    refine price_any (by rw [← hcfg]; exact hcspy) (by rw [hMG]; exact S.wfSearch)
      (by rw [hMG, S.same.demand]; exact S.demandDepots.1) (by rw [hMG, S.same.service]; exact hser.2) hw.sound hw.paths ?_ ?_
    · intro k _ st st' hg c hcc
      unfold Solve.greedyPhase at hg
      rw [hgr] at hg
      simp only [Bool.false_eq_true, if_false, Except.ok.injEq] at hg
      subst hg
      exact Or.inl hcc
    · intro k mid hr h1 h2 h3 h4
      rw [hMG] at hr h2 h3 h4
      obtain ⟨e1, e2⟩ := load_user S (S.customersOf hr)
      have hrN : IsSimpleRoute N (routeOf mid) :=
        isSimpleRoute_mono (fun v hv => by rw [← S.nodes]; exact hv) S.same.succ hr
      have hal : Along (fun u v => v ∈ N.succ u) (routeOf mid) := by obtain ⟨⟨_, _, _, h⟩, _⟩ := hrN; exact h
      refine ⟨mid, rfl, ?_, ?_, ?_, ?_, ?_⟩
      · exact S.stops hdc _ (by rw [← hns]; exact h1)
      · have := h2 (S.demands hP.demand)
        rwa [e1, hcaps] at this
      · intro _
        obtain ⟨w1, w2, _⟩ := S.windows htw (hP.source htw).1
        exact onTime_user S U hal (S.onTime w1 w2 (h4 hctw))
      · intro hf
        rw [hdc] at hf
        cases hf
      · intro _
        rw [← S.duration_eq hr, ← hdur]
        exact h3 (S.forward hT)
  obtain ⟨r1, r2, r3, r4⟩ := routes_of_columns hP.customer S hdive hw.master hw.path
    (fun P'' cols h1 => initial_limits hP.toVariantData S U (by rw [hi]; exact hinit) h1) (fun _ => hold) hprice h
  exact ⟨K, N, S.typesOne, r1, r2, fun hd => r3 hd hP.periodic, r4⟩

/-! ## Loads -/

/-- **C27**, whole runs of capacitated problems with LP pricing, with and without diving, whatever feasible points the solver of
the pricing problems returns: `best_routes_load` is the load of every route and at most the capacity of its vehicle. -/
theorem C27_run_any_lp_partial {w : World} {a : SolveArgs} {fuel : Nat} {P0 : Vrp} {o o' : Obj} (hw : LpSound w)
    (hcw : ∀ x, (w.cw x).Valid) (hdive : a.dive = true → DiveOk w.toEnv) (hP : CapacitatedData P0)
    (hpre : a.preassignments = []) (hheur : a.heuristicOnly = false) (hcspy : a.cspy = false)
    (hinit : ∀ r ∈ a.initialRoutes, r.Nodup ∧ WithinStops P0.numStops.stops (stops r).length)
    (hc : Obj.create P0 = .ok o) (h : o.solve w a fuel = .ok (some o')) : LoadsFit P0 o' := by
  refine loads_fit hP.wf hP.customer hP.costs hP.demand hheur hc h ?_
  intro i r hir
  obtain ⟨K, N, _, _, h3, _⟩ := C84_routes hw hcw hdive hP hpre hheur hcspy hinit hc h
  obtain ⟨mid, rfl, _, h5, _, k, _, h7, mid', h8, _, h9⟩ := h3.routes i r hir
  refine ⟨mid, rfl, h5, ?_⟩
  intro k' hk'
  rw [h7] at hk'
  cases hk'
  simp only [routeOf, List.cons.injEq, true_and] at h8
  rw [stops_customers (fun v hv => (h5 v hv).1), List.append_cancel_right h8]
  exact h9

/-- **C27**, whole runs of problems with time windows (without collection) with LP pricing, with and without diving, whatever
feasible points the solver of the pricing problems returns. -/
theorem C27_run_any_windows_partial {w : World} {a : SolveArgs} {fuel : Nat} {P0 : Vrp} {o o' : Obj} (hw : LpSound w)
    (hdive : a.dive = true → DiveOk w.toEnv) (hP : WindowedOrCollecting P0) (htw : P0.timeWindows = true)
    (hdc : P0.distributionCollection = false) (hT : TimesForward P0) (hpre : a.preassignments = [])
    (hheur : a.heuristicOnly = false) (hcspy : a.cspy = false)
    (hinit : ∀ r ∈ a.initialRoutes, r.Nodup ∧ ∀ mid k, r = routeOf mid →
      WithinCapacity (userCapacities P0.loadCapacity) k (mid.map (userDemand P0.G)).sum → RouteLimits P0 k mid)
    (hc : Obj.create P0 = .ok o) (h : o.solve w a fuel = .ok (some o')) : LoadsFit P0 o' := by
  refine loads_fit hP.wf hP.customer hP.costs hP.demand hheur hc h ?_
  intro i r hir
  obtain ⟨K, N, _, _, h3, _⟩ := C84_windows hw hdive hP htw hdc hT hpre hheur hcspy hinit hc h
  obtain ⟨mid, rfl, _, h5, _, k, _, h7, mid', h8, h9⟩ := h3.routes i r hir
  refine ⟨mid, rfl, h5, ?_⟩
  intro k' hk'
  rw [h7] at hk'
  cases hk'
  simp only [routeOf, List.cons.injEq, true_and] at h8
  rw [stops_customers (fun v hv => (h5 v hv).1), List.append_cancel_right h8]
  exact h9.load

/-! ## Examples -/

/-- The problem of `C55_lp_counterexample` with demands, capacities, and times. -/
def cxLimited : Vrp :=
  { cxPlan with
    G := { cxPlan.G with
      nd := fun v => if v.isDepot then {} else { demand := some 1 }
      ed := fun u v => { cxPlan.G.ed u v with time := some 1 } }
    loadCapacity := .one (.int 5)
    numStops := .int 4
    duration := .int 9 }

/-- The four round trips. -/
def cxTrips : SolveArgs :=
  { strategy := "Exact"
    cspy := false
    initialRoutes := [routeOf [.cust 1], routeOf [.cust 2], routeOf [.cust 3], routeOf [.cust 4]] }

theorem cxLimited_capacitated : Capacitated cxLimited where
  wf := ⟨cxPlan_capacitated.wf.1, cxPlan_capacitated.wf.2, cxPlan_capacitated.wf.3⟩
  customer := cxPlan_capacitated.customer
  costs := cxPlan_capacitated.costs
  demand := by decide +kernel
  service := by decide +kernel
  timeWindows := rfl
  pickupDelivery := rfl
  distributionCollection := rfl
  periodic := rfl
  oneCapacity := by decide +kernel

theorem cxLimited_forward : TimesForward cxLimited where
  service := by decide +kernel
  time := fun _ _ _ => by simp [cxLimited]

theorem cxTrips_routes : ∀ r ∈ cxTrips.initialRoutes,
    r.Nodup ∧ WithinStops cxLimited.numStops.stops (stops r).length := by
  intro r hr
  simp only [cxTrips, List.mem_cons, List.not_mem_nil, or_false] at hr
  rcases hr with rfl | rfl | rfl | rfl <;>
  · refine ⟨by decide, fun d hd _ => ?_⟩
    cases hd
    decide

theorem cxLimited_symmetric : SymmetricUserTimes cxLimited.G where
  sym := by
    have into : ∀ u, ¬ UserArc cxLimited.G u .source := by
      rintro u (h | ⟨_, n, h⟩ | ⟨h, _⟩ | ⟨_, h⟩)
      · revert h
        simp only [cxLimited, cxPlan]
        split <;> simp
      all_goals cases h
    have out : ∀ v, ¬ UserArc cxLimited.G .sink v := by
      rintro v (h | ⟨h, _⟩ | ⟨_, n, h⟩ | ⟨h, _⟩)
      · simp [cxLimited, cxPlan] at h
      all_goals cases h
    intro u v
    by_cases h : v ∈ cxLimited.G.succ u ∧ u ∈ cxLimited.G.succ v
    · left
      simp only [userTime, h.1, h.2, if_true]
      rfl
    · right
      rintro ⟨h1, h2⟩
      refine h ⟨?_, ?_⟩
      · rcases h1 with h1 | ⟨rfl, _⟩ | ⟨rfl, _⟩ | ⟨rfl, _⟩
        · exact h1
        · exact absurd h2 (into _)
        · exact absurd h2 (out _)
        · exact absurd h2 (into _)
      · rcases h2 with h2 | ⟨rfl, _⟩ | ⟨rfl, _⟩ | ⟨rfl, _⟩
        · exact h2
        · exact absurd h1 (into _)
        · exact absurd h1 (out _)
        · exact absurd h1 (into _)
  depot := by
    intro n hn
    have : n = 1 ∨ n = 2 ∨ n = 3 ∨ n = 4 := by simpa [cxLimited, cxPlan] using hn
    rcases this with rfl | rfl | rfl | rfl <;> decide +kernel

/-- Meeting `C84_routes` and `C27_run_any_lp_partial`: the solver of the pricing problem answers with a route and a cycle beside it.  The
run reports the route; two customers are missed, the limits are respected. -/
example : LpSound cxWorld2 ∧ (∀ x, (cxWorld2.cw x).Valid) ∧ CapacitatedData cxLimited ∧
    (∀ r ∈ cxTrips.initialRoutes, r.Nodup ∧ WithinStops cxLimited.numStops.stops (stops r).length) ∧
    planOf cxWorld2 cxTrips 5 cxLimited = .ok (some ⟨[(1, routeOf [.cust 1, .cust 4])], [(1, 0)], []⟩) :=
  ⟨cxWorld2_ok, cxWorld_ok.cw, cxLimited_capacitated.toCapacitatedData, cxTrips_routes,
    Solve.eq_ok_of_toOption (by decide +kernel)⟩

/-- Meeting `C84_duration`. -/
example : TimesForward cxLimited ∧ SymmetricUserTimes cxLimited.G ∧ RoundTripsFit cxLimited ∧
    ∀ r ∈ cxTrips.initialRoutes, r.Nodup ∧ InTime cxLimited r := by
  refine ⟨cxLimited_forward, cxLimited_symmetric, ?_, ?_⟩
  · intro n hn d hd _
    cases hd
    have : n = 1 ∨ n = 2 ∨ n = 3 ∨ n = 4 := by simpa [cxLimited, cxPlan] using hn
    rcases this with rfl | rfl | rfl | rfl <;> decide +kernel
  · intro r hr
    simp only [cxTrips, List.mem_cons, List.not_mem_nil, or_false] at hr
    rcases hr with rfl | rfl | rfl | rfl <;>
    · refine ⟨by decide, fun _ d hd _ => ?_⟩
      cases hd
      decide +kernel

/-- Meeting `C84_windows` and `C27_run_any_windows_partial`. -/
example : LpSound cxWorld2 ∧ WindowedOrCollecting cxTimed ∧ cxTimed.timeWindows = true ∧
    cxTimed.distributionCollection = false ∧ TimesForward cxTimed ∧
    planOf cxWorld2 { strategy := "Exact", cspy := false } 5 cxTimed =
      .ok (some ⟨[(1, routeOf [.cust 1, .cust 4])], [(1, 0)], []⟩) :=
  ⟨cxWorld2_ok, cxTimed_ok, rfl, rfl, ⟨by decide +kernel, fun _ _ _ => by simp [cxTimed, cxPlan]⟩,
    Solve.eq_ok_of_toOption (by decide +kernel)⟩

end Vrpy
