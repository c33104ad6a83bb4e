import Verif.Proofs.DiveRun
import Verif.Proofs.ExampleWorld
import Verif.Props.EndToEndRequests

/-!
# C53 for whole runs: what diving returns
-/

namespace Vrpy

open Spec

/-- What is left of a plan (`PlanFor`) when diving: every route starts at Source, visits different customers, ends at Sink,
drives along arcs of the user's graph (completed with depot arcs), and has the property `F` for its vehicle type; every customer
is on a route or dropped; nothing is dropped without a penalty. -/
structure Spec.CoverFor (P : Vrp) (K : Nat) (F : Nat → List Node → Prop) (S : Solution) : Prop where
  routes : ∀ i r, (i, r) ∈ S.routes → ∃ mid, r = routeOf mid ∧ mid.Nodup ∧
    (∀ v ∈ mid, (∃ n, v = .cust n) ∧ v ∈ P.G.nodes) ∧ Along (UserArc P.G) r ∧
    ∃ k < K, dget S.types i = some k ∧ F k r
  covered : ∀ n, Node.cust n ∈ P.G.nodes → Node.cust n ∉ S.dropped → ∃ i r, (i, r) ∈ S.routes ∧ Node.cust n ∈ r
  dropped : ∀ v ∈ S.dropped, (∃ n, v = .cust n) ∧ v ∈ P.G.nodes
  penalty : P.dropPenalty = 0 → S.dropped = []

/-- The first columns are numbered, none is marked as repeating customers. -/
theorem initialize_names {P' P'' : Vrp} {G : Net} {cw : ℚ → CWOracle} {fuel : Nat} {cols : List Column}
    (h : P'.initialize G cw fuel = .ok (some (P'', cols))) : ∀ c ∈ cols, Master.isNon c.name = false := by
  unfold Vrp.initialize at h
  split at h
  · cases h
  · cases h
  · split at h
    · cases h
    · rename_i cols' hcv
      simp only [Except.ok.injEq, Option.some.injEq, Prod.mk.injEq] at h
      obtain ⟨_, rfl⟩ := h
      intro c hc
      have hall := py_mapM_ok.1 hcv
      obtain ⟨i, hi, rfl⟩ := List.getElem_of_mem hc
      have hri := hall.length_eq.symm ▸ hi
      obtain ⟨_, k, _, he⟩ := convertRoute_ok.1 ((List.forall₂_iff_get.1 hall).2 i hri hi)
      simp only [List.get_eq_getElem] at he
      rw [he]
      rfl

/-- The same for the customers with the property `Q`, in periodic problems. -/
structure DiveRoutes (P : Vrp) (K : Nat) (F : Nat → List Node → Prop) (Q : Node → Prop) (S : Solution) : Prop where
  routes : ∀ i r, (i, r) ∈ S.routes → ∃ mid, r = routeOf mid ∧ mid.Nodup ∧
    (∀ v ∈ mid, (∃ n, v = .cust n) ∧ v ∈ P.G.nodes) ∧ Along (UserArc P.G) r ∧
    ∃ k < K, dget S.types i = some k ∧ F k r
  covered : ∀ n, Node.cust n ∈ P.G.nodes → Q (.cust n) → Node.cust n ∉ S.dropped → ∃ i r, (i, r) ∈ S.routes ∧ Node.cust n ∈ r
  dropped : ∀ v ∈ S.dropped, (∃ n, v = .cust n) ∧ v ∈ P.G.nodes
  penalty : P.dropPenalty = 0 → S.dropped = []

/-- The routes that diving selects, if the first columns and those found by pricing stand for routes with the property `F`. -/
theorem dive_columns {w : World} {a : SolveArgs} {fuel : Nat} {P0 P' : Vrp} {o o' : Obj} {K : Nat} {N N3 : Net}
    {F : Nat → List Node → Prop}
    (S : Searched P0 P' K N N3)
    (hd : DiveOk w.toEnv) (hmaster : ∀ t, MasterSolverSound (w.master t))
    (hcspy : a.cspy = true → ∀ t q, CspySound q (w.cspy t q))
    (hpath : ∀ (c : Column) (p : List Node), IsShortestPath c.edges p → IsShortestPath c.edges (w.path c))
    (hinit : ∀ P'' cols, P'.initialize P'.G.toNet w.cw fuel = .ok (some (P'', cols)) → Solve.Numbered cols ∧
      (∀ c ∈ cols, ColumnFor N3 K F c) ∧ ∃ rs, P'' = { P' with initialRoutes := rs })
    (hdive : a.dive = true) (hold : P0.dropPenalty = 0 → o.solution.dropped = [])
    (hprice : ∀ rs dive stm d cost st1,
      (dive = true → Solve.Diving (({ P' with initialRoutes := rs } : Vrp).solveCfg a w.falsy) stm) →
      Solve.solveMaster (({ P' with initialRoutes := rs } : Vrp).solveCfg a w.falsy) w.toEnv dive stm = .ok (d, cost, st1) →
      Solve.PriceOk (({ P' with initialRoutes := rs } : Vrp).solveCfg a w.falsy) w.toEnv d (ColumnFor N3 K F))
    (h : Obj.columnGeneration w a fuel P' o = .ok (some o')) :
    o'.P.H = some N ∧ DiveRoutes P0 K F (fun v => P0.periodic.getD 0 = 0 ∨ 0 < N3.freq v ∧ N3.freq v ≤ 1) o'.solution ∧
      (o'.solution.routes.map Prod.fst).Nodup ∧
      (∃ rs old, Obj.makeSchedule w { P' with initialRoutes := rs } o'.solution old = .ok o'.schedule) ∧
      (P0.minimizeGlobalSpan = false → bestValue N false P0.dropPenalty o'.solution =
        .ok ((userCosts P0 o'.solution).sum + P0.dropPenalty * o'.solution.dropped.length)) ∧
      (P0.minimizeGlobalSpan = true → o'.solution.routes ≠ [] → ∃ m, IsLargest m (userCosts P0 o'.solution) ∧
        bestValue N true P0.dropPenalty o'.solution = .ok (m + P0.dropPenalty * o'.solution.dropped.length)) := by
  unfold Obj.columnGeneration at h
  cases h1 : P'.initialize P'.G.toNet w.cw fuel with
  | error e => simp [h1] at h
  | ok x =>
  cases x with
  | none => simp [h1] at h
  | some x =>
  obtain ⟨P'', cols⟩ := x
  simp only [h1] at h
  obtain ⟨hnum, hgood, rs, rfl⟩ := hinit _ _ h1
  split at h
  · cases h
  rw [hdive] at h
  split at h
  · cases h
  · cases h
  rename_i st f hrun
  have hN3 : P'.G.toNet = N3 := by rw [S.graph]; rfl
  obtain ⟨f1, f2, f3, f4, f5, f6, f7, f8, f9, f10, f11⟩ := S.fields
  have hgood' : ∀ c ∈ cols, ColumnFor N3 K F c ∧ Master.isNon c.name = false := by
    intro c hc
    refine ⟨hgood c hc, ?_⟩
    exact initialize_names h1 c hc
  obtain ⟨pool, fixed, p, hf, hgr, hdr, hall⟩ := Solve.run_dive
    (Q := fun c => ColumnFor N3 K F c ∧ Master.isNon c.name = false) (by exact hnum) rfl rfl (by exact f10) hgood'
    (fun dv stm d cost st1 hdv hs => (hprice rs dv stm d cost st1 hdv hs).and
      (Solve.price_elementary (by simp [Vrp.solveCfg, hdive]) (fun hc => hcspy hc))) hd hmaster hrun
  set M := (({ P' with initialRoutes := rs } : Vrp).solveCfg a w.falsy).M with hM
  have hMG : M.G = N3 := hN3
  have hMper : P0.periodic.getD 0 = 0 → M.periodic = false := by
    intro h0
    show decide (P'.periodic.getD 0 ≠ 0) = false
    rw [f7, h0]
    rfl
  have hMpen : M.dropPenalty = P0.dropPenalty := f5
  have hsimple : ∀ c ∈ pool, ∃ r, IsSimpleRoute N3 r ∧ Draws c r ∧ F c.vehicleType r := by
    intro c hc
    obtain ⟨⟨_, hn | hr⟩, hnon⟩ := hall c hc
    · obtain ⟨n, hn⟩ := hn
      rw [hn] at hnon
      cases hnon
    · exact hr
  have hsel : ∀ c ∈ Master.selected pool p, ∃ r, IsSimpleRoute N3 r ∧ Draws c r ∧
      F c.vehicleType r ∧
      c.vehicleType < K ∧ IsShortestPath c.edges (w.path c) ∧ w.path c = r := by
    intro c hc
    have hcol := (Master.mem_selected.1 hc).1
    obtain ⟨r, hr, hd, hF⟩ := hsimple c hcol
    obtain ⟨mid, hmid, _, _⟩ := id hr.1
    have hsp : IsShortestPath c.edges r := by
      rw [hmid]
      rw [hmid] at hr hd
      exact (shortest_iff hr.2 (fun e => hd.edges.mem_iff) _).2 rfl
    have hsp' := hpath c r hsp
    exact ⟨r, hr, hd, hF, (hall c hcol).1.1, hsp', Master.path_eq hr hd hsp'⟩
  have hshort : ∀ c ∈ Master.selected pool p, IsShortestPath c.edges (w.path c) := by
    intro c hc
    obtain ⟨_, _, _, _, _, h, _⟩ := hsel c hc
    exact h
  have hcov : ∀ v ∈ M.G.customers, (P0.periodic.getD 0 = 0 ∨ 0 < N3.freq v ∧ N3.freq v ≤ 1) → v ∉ M.dropped p →
      ∃ c ∈ Master.selected pool p, v ∈ w.path c :=
    fun v hv hq hv' => Master.C53_covered_partial (fun c hc => by
      obtain ⟨r, h1, h2, _⟩ := hsimple c hc
      exact ⟨r, by rw [hMG]; exact h1, h2⟩) hf hshort hv (fun hp => by
        rcases hq with h0 | hq
        · rw [hMper h0] at hp
          cases hp
        · rw [hMG]
          exact hq) hv'
  have c3 : M.dropPenalty = 0 → M.dropped p = [] := by
    intro h0
    simp [Master.dropped, Master.drops, h0]
  -- the report
  split at h
  · cases h
  rename_i o1 hpost
  simp only [Except.ok.injEq, Option.some.injEq] at h
  subst h
  unfold Obj.postProcess at hpost
  simp only [py_bind_ok] at hpost
  obtain ⟨dropped, hdrop, rt, hrt, sch, hsch, hpost⟩ := hpost
  simp only [pure, Except.pure, Except.ok.injEq] at hpost
  have hpre : ({ P' with initialRoutes := rs } : Vrp).preassignments = [] := f1
  rw [hpre, hgr] at hrt
  obtain ⟨hr1, hr2⟩ := Master.report_unlocked hrt
  have hdropped : dropped = M.dropped p := by
    unfold Obj.droppedNodes at hdrop
    by_cases h0 : P0.dropPenalty = 0
    · rw [if_neg (by simpa [f5] using h0)] at hdrop
      rw [c3 (by rw [hMpen]; exact h0)]
      simp only [Except.ok.injEq] at hdrop
      rw [← hdrop]
      exact hold h0
    · rw [if_pos (by simpa [f5] using h0), hdr, if_neg (by rw [hMpen]; exact h0)] at hdrop
      simp only [Except.ok.injEq] at hdrop
      exact hdrop.symm
  have hsol : o1.solution = ⟨numbered ((Master.selected pool p).map w.path),
      numbered ((Master.selected pool p).map Column.vehicleType), M.dropped p⟩ := by
    rw [← hpost, ← hdropped]
    simp only [hr1, hr2]
  have hH : o1.P.H = some N := by
    rw [← hpost]
    exact S.reports
  have hsched : ∃ rs old, Obj.makeSchedule w { P' with initialRoutes := rs } o1.solution old = .ok o1.schedule := by
    rw [← hpost]
    exact ⟨rs, _, hsch⟩
  rw [hsol] at hsched ⊢
  generalize Master.selected pool p = sel at *
  have hmono : ∀ r, IsSimpleRoute N3 r → IsSimpleRoute N r := fun r =>
    isSimpleRoute_mono (fun v hv => by rw [← S.nodes]; exact hv) S.same.succ
  have hcost : ∀ c ∈ sel, Along (fun u v => v ∈ N.succ u ∧ c.vehicleType < (N.cost u v).length) (w.path c) ∧
      Spec.cost N c.vehicleType (w.path c) = legSum (userArcCost P0 c.vehicleType) (w.path c) := by
    intro c hc
    obtain ⟨r, hr, _, _, hk, _, rfl⟩ := hsel c hc
    obtain ⟨⟨mid, _, _, hal⟩, _⟩ := hmono _ hr
    rw [along_iff] at hal
    refine ⟨(along_iff _ _).2 (fun u v huv => ⟨hal u v huv, by rw [S.costs u v (hal u v huv)]; exact hk⟩), ?_⟩
    exact legSum_congr (fun u v huv => S.arcCost u v (hal u v huv) _ hk)
  have hcosts : userCosts P0 ⟨numbered (sel.map w.path), numbered (sel.map Column.vehicleType), M.dropped p⟩ =
      routeCosts N ⟨numbered (sel.map w.path), numbered (sel.map Column.vehicleType), M.dropped p⟩ := by
    rw [Master.routeCosts_numbered]
    unfold userCosts
    refine (numbered_map (fun r k => legSum (userArcCost P0 (k.getD 0)) r) w.path sel).trans ?_
    exact List.map_congr_left (fun c hc => ((hcost c hc).2).symm)
  have hval : ∀ span, (span = true → sel ≠ []) → ∃ v, bestValue N span P0.dropPenalty
      ⟨numbered (sel.map w.path), numbered (sel.map Column.vehicleType), M.dropped p⟩ = .ok v := by
    intro span hne
    refine C26_value_defined ?_ ?_
    · intro i r hir
      obtain ⟨c, hc, rfl, hk⟩ := mem_numbered_map hir
      exact ⟨_, hk, (hcost c hc).1⟩
    · intro hs h0
      refine hne hs ?_
      simpa [numbered] using h0
  refine ⟨hH, ⟨?_, ?_, ?_, ?_⟩, ?_, hsched, ?_, ?_⟩
  · intro i r hir
    obtain ⟨c, hc, rfl, hk⟩ := mem_numbered_map hir
    obtain ⟨r, hr, _, hF, hlt, _, hrr⟩ := hsel c hc
    rw [hrr]
    obtain ⟨⟨mid, rfl, hmid, hal⟩, hnd⟩ := hr
    refine ⟨mid, rfl, ?_, ?_, ?_, c.vehicleType, hlt, hk, hF⟩
    · exact (List.nodup_append.1 (List.nodup_cons.1 hnd).2).1
    · intro v hv
      refine ⟨(hmid v hv).1, ?_⟩
      rw [← S.userNodes, ← S.nodes]
      exact (hmid v hv).2
    · rw [along_iff] at hal ⊢
      exact fun u v huv => S.userArcs u v (S.same.succ u v (hal u v huv))
  · intro n hn hq hnd
    obtain ⟨c, hc, hv⟩ := hcov (.cust n) (by
      rw [mem_customers, hMG, S.nodes, S.userNodes]
      exact ⟨hn, by simp, by simp⟩) hq hnd
    obtain ⟨i, hi, rfl⟩ := List.getElem_of_mem hc
    refine ⟨1 + i, _, List.mem_map.2 ⟨((w.path sel[i]), 1 + i), ?_, rfl⟩, hv⟩
    refine List.mem_iff_getElem?.2 ⟨i, ?_⟩
    simp [hi]
  · intro v hv
    have hd : v ∈ M.drops := (Master.mem_dropped.1 hv).1
    have hcu : v ∈ N3.customers := by
      unfold Master.drops at hd
      split at hd
      · simp at hd
      · rw [hMG] at hd
        exact hd
    obtain ⟨e1, e2, e3⟩ := mem_customers.1 hcu
    refine ⟨?_, by rw [← S.userNodes, ← S.nodes]; exact e1⟩
    cases v with
    | source => exact absurd rfl e2
    | sink => exact absurd rfl e3
    | cust n => exact ⟨n, rfl⟩
  · intro h0
    exact c3 (by rw [hMpen]; exact h0)
  · have : (numbered (sel.map w.path)).map Prod.fst = List.range' 1 (sel.map w.path).length := by
      rw [numbered, List.map_map]
      exact List.zipIdx_map_snd 1 _
    show ((numbered (sel.map w.path)).map Prod.fst).Nodup
    rw [this]
    exact List.nodup_range'
  · intro _
    obtain ⟨v, hv⟩ := hval false (fun h => (by cases h))
    rw [hv, (C26_best_value hv).1 rfl, hcosts]
  · intro _ hne
    obtain ⟨v, hv⟩ := hval true (fun _ h0 => hne (by simp [numbered, h0]))
    obtain ⟨m, hm, rfl⟩ := (C26_best_value hv).2 rfl
    exact ⟨m, by rw [hcosts]; exact hm, hv⟩

/-- The same without periodic visits. -/
theorem cover_of_columns {w : World} {a : SolveArgs} {fuel : Nat} {P0 P' : Vrp} {o o' : Obj} {K : Nat} {N N3 : Net}
    {F : Nat → List Node → Prop}
    (hperiodic : P0.periodic.getD 0 = 0) (S : Searched P0 P' K N N3)
    (hd : DiveOk w.toEnv) (hmaster : ∀ t, MasterSolverSound (w.master t))
    (hcspy : a.cspy = true → ∀ t q, CspySound q (w.cspy t q))
    (hpath : ∀ (c : Column) (p : List Node), IsShortestPath c.edges p → IsShortestPath c.edges (w.path c))
    (hinit : ∀ P'' cols, P'.initialize P'.G.toNet w.cw fuel = .ok (some (P'', cols)) → Solve.Numbered cols ∧
      (∀ c ∈ cols, ColumnFor N3 K F c) ∧ ∃ rs, P'' = { P' with initialRoutes := rs })
    (hdive : a.dive = true) (hold : P0.dropPenalty = 0 → o.solution.dropped = [])
    (hprice : ∀ rs dive stm d cost st1,
      (dive = true → Solve.Diving (({ P' with initialRoutes := rs } : Vrp).solveCfg a w.falsy) stm) →
      Solve.solveMaster (({ P' with initialRoutes := rs } : Vrp).solveCfg a w.falsy) w.toEnv dive stm = .ok (d, cost, st1) →
      Solve.PriceOk (({ P' with initialRoutes := rs } : Vrp).solveCfg a w.falsy) w.toEnv d (ColumnFor N3 K F))
    (h : Obj.columnGeneration w a fuel P' o = .ok (some o')) :
    o'.P.H = some N ∧ CoverFor P0 K F o'.solution ∧
      (P0.minimizeGlobalSpan = false → bestValue N false P0.dropPenalty o'.solution =
        .ok ((userCosts P0 o'.solution).sum + P0.dropPenalty * o'.solution.dropped.length)) ∧
      (P0.minimizeGlobalSpan = true → o'.solution.routes ≠ [] → ∃ m, IsLargest m (userCosts P0 o'.solution) ∧
        bestValue N true P0.dropPenalty o'.solution = .ok (m + P0.dropPenalty * o'.solution.dropped.length)) := by
  obtain ⟨r1, r2, _, _, r3⟩ := dive_columns S hd hmaster hcspy hpath hinit hdive hold hprice h
  exact ⟨r1, ⟨r2.routes, fun n hn => r2.covered n hn (Or.inl hperiodic), r2.dropped, r2.penalty⟩, r3⟩

/-- **C53 (partial), capacitated problems.** Let a capacitated problem be handed to the constructor and `solve(dive=True)` be called
with cspy, any pricing strategy, greedy pricing or not, any limits on iterations and time, possibly with initial routes (without
repeated nodes and within the number of stops), and let it return, however the solvers behave within their contracts.  Then every
reported route is feasible (different customers, arcs of the graph, stops and capacity), every customer is on some route or dropped,
and `best_value` is what the routes cost plus penalties.  What is missing: a customer may be on two routes
(`C53_run_counterexample`), so that more vehicles than there are may be used. -/
theorem C53_dive_partial {w : World} {a : SolveArgs} {fuel : Nat} {P0 : Vrp} {o o' : Obj} (hw : WorldOk w) (hd : DiveOk w.toEnv)
    (hP : Capacitated P0) (hpre : a.preassignments = []) (hdive : a.dive = true) (hheur : a.heuristicOnly = false)
    (hcspy : a.cspy = true)
    (hinit : ∀ r ∈ a.initialRoutes, r.Nodup ∧ WithinStops P0.numStops.stops (stops r).length)
    (hc : Obj.create P0 = .ok o) (h : o.solve w a fuel = .ok (some o')) :
    ∃ K N, (P0.mixedFleet = false → K = 1) ∧ o'.P.H = some N ∧
      CoverFor P0 K (fun k r => ∃ mid, r = routeOf mid ∧ WithinStops P0.numStops.stops mid.length ∧
        WithinCapacity (userCapacities P0.loadCapacity) k (mid.map (userDemand P0.G)).sum) o'.solution ∧
      (P0.minimizeGlobalSpan = false → bestValue N false P0.dropPenalty o'.solution =
        .ok ((userCosts P0 o'.solution).sum + P0.dropPenalty * o'.solution.dropped.length)) ∧
      (P0.minimizeGlobalSpan = true → o'.solution.routes ≠ [] → ∃ m, IsLargest m (userCosts P0 o'.solution) ∧
        bestValue N true P0.dropPenalty o'.solution = .ok (m + P0.dropPenalty * o'.solution.dropped.length)) := by
  unfold Obj.solve at h
  split at h
  · cases h
  rename_i P' hstart
  rw [hheur] at h
  simp only [Bool.false_eq_true, if_false] at h
  obtain ⟨K, N, N3, S⟩ := searched (w := w) hP.wf hP.customer hP.costs hP.demand hpre hc hstart
  have hold : o.solution.dropped = [] := by
    obtain ⟨G, _, rfl⟩ := create_ok hc
    rfl
  have hi := startSolve_initial hc hstart
  obtain ⟨r1, r2, r3⟩ := cover_of_columns (F := fun k r => WithinStops P0.numStops.stops (stops r).length ∧
      WithinCapacity (userCapacities P0.loadCapacity) k (load N3 r)) hP.periodic S hd hw.master (fun _ => hw.cspy) hw.path
    (fun P'' cols h1 => by
      obtain ⟨b1, b2, b3⟩ := initial_good hP.toCapacitatedData S hw.cw (by rw [hi]; exact hinit) h1
      exact ⟨b1, fun c hc => (b2 c hc).good, b3⟩) hdive (fun _ => hold)
    (fun rs _ _ d _ _ _ _ => price_searched hw hP.toCapacitatedData S hcspy rs d) h
  refine ⟨K, N, S.typesOne, r1, ⟨?_, r2.covered, r2.dropped, r2.penalty⟩, r3⟩
  intro i r hir
  obtain ⟨mid, rfl, h1, h2, h3, k, h4, h5, h6, h7⟩ := r2.routes i r hir
  obtain ⟨e1, e2⟩ := load_user S h2
  rw [e1] at h7
  rw [e2] at h6
  exact ⟨mid, rfl, h1, h2, h3, k, h4, h5, mid, rfl, h6, h7⟩

/-- **C53 (partial), time windows, distribution and collection.** As `C53_dive_partial`, for these problems (with cspy): every
reported route is within the limits (`RouteLimits`: stops, loads on every leg, duration, time windows), every customer is on
some route or dropped, `best_value` is what the routes cost plus penalties. -/
theorem C53_dive_variants_partial {w : World} {a : SolveArgs} {fuel : Nat} {P0 : Vrp} {o o' : Obj} (hw : WorldOk w)
    (hd : DiveOk w.toEnv) (hP : WindowedOrCollecting P0) (hpre : a.preassignments = []) (hdive : a.dive = true)
    (hheur : a.heuristicOnly = false) (hcspy : a.cspy = true)
    (hinit : ∀ r ∈ a.initialRoutes, r.Nodup ∧ ∀ mid k, r = routeOf mid →
      WithinCapacity (userCapacities P0.loadCapacity) k (mid.map (userDemand P0.G)).sum → RouteLimits P0 k mid)
    (hc : Obj.create P0 = .ok o) (h : o.solve w a fuel = .ok (some o')) :
    ∃ K N, (P0.mixedFleet = false → K = 1) ∧ o'.P.H = some N ∧
      CoverFor P0 K (fun k r => ∃ mid, r = routeOf mid ∧ RouteLimits P0 k mid) o'.solution ∧
      (P0.minimizeGlobalSpan = false → bestValue N false P0.dropPenalty o'.solution =
        .ok ((userCosts P0 o'.solution).sum + P0.dropPenalty * o'.solution.dropped.length)) ∧
      (P0.minimizeGlobalSpan = true → o'.solution.routes ≠ [] → ∃ m, IsLargest m (userCosts P0 o'.solution) ∧
        bestValue N true P0.dropPenalty o'.solution = .ok (m + P0.dropPenalty * o'.solution.dropped.length)) := by
  unfold Obj.solve at h
  split at h
  · cases h
  rename_i P' hstart
  rw [hheur] at h
  simp only [Bool.false_eq_true, if_false] at h
  obtain ⟨K, N, N3, S⟩ := searched (w := w) hP.wf hP.customer hP.costs hP.demand hpre hc hstart
  have U := userData (w := w) hP.wf hP.demand hpre hc hstart S.reports
  have hold : o.solution.dropped = [] := by
    obtain ⟨G, _, rfl⟩ := create_ok hc
    rfl
  have hi := startSolve_initial hc hstart
  exact ⟨K, N, S.typesOne, cover_of_columns hP.periodic S hd hw.master (fun _ => hw.cspy) hw.path
    (fun P'' cols h1 => initial_limits hP.toVariantData S U (by rw [hi]; exact hinit) h1) hdive (fun _ => hold)
    (fun rs _ _ d _ _ _ _ => price_variant hw hP.toVariantData S U hcspy rs d) h⟩

/-- **C53 (partial), time windows, LP pricing.** As `C53_dive_variants_partial`, for problems with time windows where going from
a customer to another takes time. -/
theorem C53_dive_windows_lp_partial {w : World} {a : SolveArgs} {fuel : Nat} {P0 : Vrp} {o o' : Obj} (hw : LpSound w)
    (hd : DiveOk w.toEnv) (hP : WindowedOrCollecting P0) (htw : P0.timeWindows = true) (htime : TravelTakesTime P0)
    (hpre : a.preassignments = []) (hdive : a.dive = true) (hheur : a.heuristicOnly = false) (hcspy : a.cspy = false)
    (hinit : ∀ r ∈ a.initialRoutes, r.Nodup ∧ ∀ mid k, r = routeOf mid →
      WithinCapacity (userCapacities P0.loadCapacity) k (mid.map (userDemand P0.G)).sum → RouteLimits P0 k mid)
    (hc : Obj.create P0 = .ok o) (h : o.solve w a fuel = .ok (some o')) :
    ∃ K N, (P0.mixedFleet = false → K = 1) ∧ o'.P.H = some N ∧
      CoverFor P0 K (fun k r => ∃ mid, r = routeOf mid ∧ RouteLimits P0 k mid) o'.solution ∧
      (P0.minimizeGlobalSpan = false → bestValue N false P0.dropPenalty o'.solution =
        .ok ((userCosts P0 o'.solution).sum + P0.dropPenalty * o'.solution.dropped.length)) ∧
      (P0.minimizeGlobalSpan = true → o'.solution.routes ≠ [] → ∃ m, IsLargest m (userCosts P0 o'.solution) ∧
        bestValue N true P0.dropPenalty o'.solution = .ok (m + P0.dropPenalty * o'.solution.dropped.length)) := by
  unfold Obj.solve at h
  split at h
  · cases h
  rename_i P' hstart
  rw [hheur] at h
  simp only [Bool.false_eq_true, if_false] at h
  obtain ⟨K, N, N3, S⟩ := searched (w := w) hP.wf hP.customer hP.costs hP.demand hpre hc hstart
  have U := userData (w := w) hP.wf hP.demand hpre hc hstart S.reports
  have hold : o.solution.dropped = [] := by
    obtain ⟨G, _, rfl⟩ := create_ok hc
    rfl
  have hi := startSolve_initial hc hstart
  exact ⟨K, N, S.typesOne, cover_of_columns hP.periodic S hd hw.master (fun hf => by rw [hcspy] at hf; cases hf) hw.path
    (fun P'' cols h1 => initial_limits hP.toVariantData S U (by rw [hi]; exact hinit) h1) hdive (fun _ => hold)
    (fun rs _ _ d _ _ _ _ => price_windows_lp hw hP.toVariantData htw htime S U hcspy rs d) h⟩

/-- **C53 (partial), pickup and delivery.** As `C53_dive_partial`, for requests: every reported route is within the limits
(`RequestLimits`: it contains both ends of a request or none, the pickup first, ...), every customer is on some route or dropped,
`best_value` is what the routes cost plus penalties. -/
theorem C53_dive_requests_partial {w : World} {a : SolveArgs} {fuel : Nat} {P0 : Vrp} {o o' : Obj} (hw : LpSound w)
    (hd : DiveOk w.toEnv) (hP : PickupDelivery P0) (hpre : a.preassignments = []) (hdive : a.dive = true)
    (hheur : a.heuristicOnly = false)
    (hinit : ∀ r ∈ a.initialRoutes, r.Nodup ∧ ∀ mid k, r = routeOf mid →
      WithinCapacity (userCapacities P0.loadCapacity) k (mid.map (userDemand P0.G)).sum → RequestLimits P0 k mid)
    (hc : Obj.create P0 = .ok o) (h : o.solve w a fuel = .ok (some o')) :
    ∃ K N, (P0.mixedFleet = false → K = 1) ∧ o'.P.H = some N ∧
      CoverFor P0 K (fun k r => ∃ mid, r = routeOf mid ∧ RequestLimits P0 k mid) o'.solution ∧
      (P0.minimizeGlobalSpan = false → bestValue N false P0.dropPenalty o'.solution =
        .ok ((userCosts P0 o'.solution).sum + P0.dropPenalty * o'.solution.dropped.length)) ∧
      (P0.minimizeGlobalSpan = true → o'.solution.routes ≠ [] → ∃ m, IsLargest m (userCosts P0 o'.solution) ∧
        bestValue N true P0.dropPenalty o'.solution = .ok (m + P0.dropPenalty * o'.solution.dropped.length)) := by
  unfold Obj.solve at h
  split at h
  · cases h
  rename_i P' hstart
  rw [hheur] at h
  simp only [Bool.false_eq_true, if_false] at h
  have hcspy := startSolve_no_cspy (w := w) hc hP.pickupDelivery hstart
  obtain ⟨K, N, N3, S⟩ := searched_of (w := w) hP.wf hP.customer hP.costs (fun v hv hd => by
    rcases hd with hd | hd
    · rw [hP.pickupDelivery] at hd
      cases hd
    · exact hP.depots v hv hd) hpre hc hstart
  have U := userData_of (w := w) hP.wf (fun hf => by rw [hP.pickupDelivery] at hf; cases hf) hpre hc hstart S.reports
  have hold : o.solution.dropped = [] := by
    obtain ⟨G, _, rfl⟩ := create_ok hc
    rfl
  have hi := startSolve_initial hc hstart
  exact ⟨K, N, S.typesOne, cover_of_columns hP.periodic S hd hw.master (fun hf => by rw [hcspy] at hf; cases hf) hw.path
    (fun P'' cols h1 => initial_requests hP.toRequestsData S U (by rw [hi]; exact hinit) h1) hdive (fun _ => hold)
    (fun rs _ _ d _ _ _ _ => price_requests hw hP.toRequestsData S U hcspy rs d) h⟩

/-- Both ways of pricing. -/
theorem dive_limits {w : World} {a : SolveArgs} {fuel : Nat} {P0 : Vrp} {o o' : Obj}
    (hw : WorldOk w ∧ a.cspy = true ∨ LpSound w ∧ a.cspy = false ∧ P0.timeWindows = true ∧ TravelTakesTime P0)
    (hd : DiveOk w.toEnv) (hP : WindowedOrCollecting P0) (hpre : a.preassignments = []) (hdive : a.dive = true)
    (hheur : a.heuristicOnly = false)
    (hinit : ∀ r ∈ a.initialRoutes, r.Nodup ∧ ∀ mid k, r = routeOf mid →
      WithinCapacity (userCapacities P0.loadCapacity) k (mid.map (userDemand P0.G)).sum → RouteLimits P0 k mid)
    (hc : Obj.create P0 = .ok o) (h : o.solve w a fuel = .ok (some o')) :
    ∃ K, (P0.mixedFleet = false → K = 1) ∧ CoverFor P0 K (fun k r => ∃ mid, r = routeOf mid ∧ RouteLimits P0 k mid) o'.solution := by
  rcases hw with ⟨hw, hcspy⟩ | ⟨hw, hcspy, htw, htime⟩
  · obtain ⟨K, N, h1, _, h3, _⟩ := C53_dive_variants_partial hw hd hP hpre hdive hheur hcspy hinit hc h
    exact ⟨K, h1, h3⟩
  · obtain ⟨K, N, h1, _, h3, _⟩ := C53_dive_windows_lp_partial hw hd hP htw htime hpre hdive hheur hcspy hinit hc h
    exact ⟨K, h1, h3⟩

/-- **C60 (partial), diving.** Every route reported after `solve(dive=True)` reaches every node before it closes, and every customer
is on some route or dropped.  What is missing: that it is on one only (false, `C53_run_counterexample`). -/
theorem C60_dive_partial {w : World} {a : SolveArgs} {fuel : Nat} {P0 : Vrp} {o o' : Obj}
    (hw : WorldOk w ∧ a.cspy = true ∨ LpSound w ∧ a.cspy = false ∧ P0.timeWindows = true ∧ TravelTakesTime P0)
    (hd : DiveOk w.toEnv) (hP : WindowedOrCollecting P0) (htw : P0.timeWindows = true) (hpre : a.preassignments = []) (hdive : a.dive = true)
    (hheur : a.heuristicOnly = false)
    (hinit : ∀ r ∈ a.initialRoutes, r.Nodup ∧ ∀ mid k, r = routeOf mid →
      WithinCapacity (userCapacities P0.loadCapacity) k (mid.map (userDemand P0.G)).sum → RouteLimits P0 k mid)
    (hc : Obj.create P0 = .ok o) (h : o.solve w a fuel = .ok (some o')) :
    (∀ i r, (i, r) ∈ o'.solution.routes → UserOnTime P0.G r) ∧
      ∀ n, Node.cust n ∈ P0.G.nodes → Node.cust n ∉ o'.solution.dropped → ∃ i r, (i, r) ∈ o'.solution.routes ∧ Node.cust n ∈ r := by
  obtain ⟨K, _, h3⟩ := dive_limits hw hd hP hpre hdive hheur hinit hc h
  refine ⟨?_, h3.covered⟩
  intro i r hir
  obtain ⟨_, _, _, _, _, k, _, _, mid, rfl, hl⟩ := h3.routes i r hir
  exact hl.windows htw

/-- **C61 (partial), diving.** On no leg of a route reported after `solve(dive=True)` does the vehicle carry more than its
capacity, and every customer is on some route or dropped. -/
theorem C61_dive_partial {w : World} {a : SolveArgs} {fuel : Nat} {P0 : Vrp} {o o' : Obj}
    (hw : WorldOk w ∧ a.cspy = true ∨ LpSound w ∧ a.cspy = false ∧ P0.timeWindows = true ∧ TravelTakesTime P0)
    (hd : DiveOk w.toEnv) (hP : WindowedOrCollecting P0) (hdc : P0.distributionCollection = true) (hpre : a.preassignments = []) (hdive : a.dive = true)
    (hheur : a.heuristicOnly = false)
    (hinit : ∀ r ∈ a.initialRoutes, r.Nodup ∧ ∀ mid k, r = routeOf mid →
      WithinCapacity (userCapacities P0.loadCapacity) k (mid.map (userDemand P0.G)).sum → RouteLimits P0 k mid)
    (hc : Obj.create P0 = .ok o) (h : o.solve w a fuel = .ok (some o')) :
    (∀ i r pre post, (i, r) ∈ o'.solution.routes → r = routeOf (pre ++ post) →
        ∃ k, dget o'.solution.types i = some k ∧ WithinCapacity (userCapacities P0.loadCapacity) k
          ((pre.map (userCollect P0.G)).sum + (post.map (userDemand P0.G)).sum)) ∧
      ∀ n, Node.cust n ∈ P0.G.nodes → Node.cust n ∉ o'.solution.dropped → ∃ i r, (i, r) ∈ o'.solution.routes ∧ Node.cust n ∈ r := by
  obtain ⟨K, _, h3⟩ := dive_limits hw hd hP hpre hdive hheur hinit hc h
  refine ⟨?_, h3.covered⟩
  intro i r pre post hir hr
  obtain ⟨_, _, _, _, _, k, _, hk, mid, rfl, hl⟩ := h3.routes i r hir
  refine ⟨k, hk, hl.goods hdc pre post ?_⟩
  simp only [routeOf, List.cons.injEq, true_and] at hr
  exact List.append_cancel_right hr

/-- **C62 (partial), diving.** No route reported after `solve(dive=True)` takes longer than the duration, if no round trip
does. -/
theorem C62_dive_partial {w : World} {a : SolveArgs} {fuel : Nat} {P0 : Vrp} {o o' : Obj}
    (hw : WorldOk w ∧ a.cspy = true ∨ LpSound w ∧ a.cspy = false ∧ P0.timeWindows = true ∧ TravelTakesTime P0)
    (hd : DiveOk w.toEnv) (hP : WindowedOrCollecting P0) (hfit : RoundTripsFit P0) (hpre : a.preassignments = []) (hdive : a.dive = true)
    (hheur : a.heuristicOnly = false)
    (hinit : ∀ r ∈ a.initialRoutes, r.Nodup ∧ ∀ mid k, r = routeOf mid →
      WithinCapacity (userCapacities P0.loadCapacity) k (mid.map (userDemand P0.G)).sum → RouteLimits P0 k mid)
    (hc : Obj.create P0 = .ok o) (h : o.solve w a fuel = .ok (some o')) :
    ∀ i r, (i, r) ∈ o'.solution.routes → Within P0.duration.limit (userDuration P0.G r) := by
  obtain ⟨K, _, h3⟩ := dive_limits hw hd hP hpre hdive hheur hinit hc h
  intro i r hir
  obtain ⟨_, _, _, _, _, k, _, _, mid, rfl, hl⟩ := h3.routes i r hir
  exact hl.duration hfit

/-- **C63 (partial), diving.** Every route reported after `solve(dive=True)` contains pickup and delivery of a request, the
pickup first, or neither, and the vehicle never carries less than nothing or more than its capacity; every customer is on
some route or dropped. -/
theorem C63_dive_partial {w : World} {a : SolveArgs} {fuel : Nat} {P0 : Vrp} {o o' : Obj} (hw : LpSound w)
    (hd : DiveOk w.toEnv) (hP : PickupDelivery P0) (hpre : a.preassignments = []) (hdive : a.dive = true)
    (hheur : a.heuristicOnly = false)
    (hinit : ∀ r ∈ a.initialRoutes, r.Nodup ∧ ∀ mid k, r = routeOf mid →
      WithinCapacity (userCapacities P0.loadCapacity) k (mid.map (userDemand P0.G)).sum → RequestLimits P0 k mid)
    (hc : Obj.create P0 = .ok o) (h : o.solve w a fuel = .ok (some o')) :
    (∀ i r, (i, r) ∈ o'.solution.routes → ∃ mid k, r = routeOf mid ∧ dget o'.solution.types i = some k ∧ RequestLimits P0 k mid) ∧
      ∀ n, Node.cust n ∈ P0.G.nodes → Node.cust n ∉ o'.solution.dropped → ∃ i r, (i, r) ∈ o'.solution.routes ∧ Node.cust n ∈ r := by
  obtain ⟨K, N, _, _, h3, _⟩ := C53_dive_requests_partial hw hd hP hpre hdive hheur hinit hc h
  refine ⟨?_, h3.covered⟩
  intro i r hir
  obtain ⟨_, _, _, _, _, k, _, hk, mid, rfl, hl⟩ := h3.routes i r hir
  exact ⟨mid, k, rfl, hk, hl⟩

/-! ## Examples -/

open Classical in
/-- A solver that knows some points, and solves all other problems somehow. -/
noncomputable def diveMaster (pts : List (MVar → ℚ)) (dual : LP MVar → Node → ℚ) (prob : LP MVar) : Master.Answer :=
  if pts.any (feasiblePoint prob) then masterOf pts dual prob
  else if h : ∃ p, prob.Feasible p then
    { optimal := true, point := h.choose, visitDual := dual prob, fleetDual := fun _ => 0, spanDual := fun _ => 0 }
  else masterOf pts dual prob

theorem diveMaster_sound (pts : List (MVar → ℚ)) (dual : LP MVar → Node → ℚ) : MasterSolverSound (diveMaster pts dual) := by
  intro prob h
  unfold diveMaster at h ⊢
  split
  · rename_i hp
    rw [if_pos hp] at h
    exact masterOf_sound _ _ _ h
  · rename_i hp
    rw [if_neg hp] at h
    split
    · rename_i hf
      exact hf.choose_spec
    · rename_i hf
      rw [dif_neg hf] at h
      exact masterOf_sound _ _ _ h

/-- The world with this solver. -/
noncomputable def diveWorld (pts : List (MVar → ℚ)) (dual : LP MVar → Node → ℚ) (ppts : List (PVar → ℚ)) : World :=
  { lpWorld pts dual ppts with
    master := fun _ => diveMaster pts dual
    solvable := fun _ P => pts.any (feasiblePoint P)
    negCycle := fun _ _ => false }

theorem diveWorld_dive (pts : List (MVar → ℚ)) (dual : LP MVar → Node → ℚ) (ppts : List (PVar → ℚ)) :
    DiveOk (diveWorld pts dual ppts).toEnv := by
  constructor
  · intro t P h
    obtain ⟨p, _, hp⟩ := List.any_eq_true.1 h
    exact ⟨p, feasible_of _ _ (of_decide_eq_true hp)⟩
  · intro t P h _
    show (diveMaster pts dual P).optimal = true
    unfold diveMaster
    split
    · rename_i hp
      unfold masterOf
      simp only
      obtain ⟨p, hp⟩ := Option.isSome_iff_exists.1 (List.find?_isSome.2 (List.any_eq_true.1 hp))
      rw [hp]
      exact List.find?_some hp
    · rfl

theorem diveWorld_ok (pts : List (MVar → ℚ)) (dual : LP MVar → Node → ℚ) (ppts : List (PVar → ℚ)) :
    WorldOk (diveWorld pts dual ppts) :=
  ⟨exWorld_ok.cw, exWorld_ok.cspy, fun _ => diveMaster_sound _ _, exWorld_ok.paths, routePath_ok⟩

theorem diveWorld_lp (pts : List (MVar → ℚ)) (dual : LP MVar → Node → ℚ) (ppts : List (PVar → ℚ)) :
    LpSound (diveWorld pts dual ppts) :=
  ⟨fun _ => diveMaster_sound _ _, fun _ => pricingOf_sound _, exWorld_ok.paths, routePath_ok⟩

/-- All pairs of three customers can be visited, driving between customers costs nothing. -/
def exThree : Vrp where
  G := {
    nodes := [.source, .cust 1, .cust 2, .cust 3, .sink]
    nd := fun _ => {}
    succ := fun u => match u with
      | .source => [.cust 1, .cust 2, .cust 3]
      | .cust 1 => [.cust 2, .sink]
      | .cust 2 => [.cust 3, .sink]
      | .cust 3 => [.cust 1, .sink]
      | _ => []
    ed := fun u v => { cost := some (.scalar (if u = .source ∨ v = .sink then 1 else 0)) } }
  numStops := .int 2

theorem exThree_capacitated : Capacitated exThree where
  wf := by
    refine ⟨by decide, ?_, ?_⟩
    · intro u; simp only [exThree]; split <;> decide
    · intro u v hv
      simp only [exThree] at hv ⊢
      split at hv <;> simp at hv <;> (try rcases hv with rfl | rfl | rfl) <;> (try rcases hv with rfl | rfl) <;>
        (try subst hv) <;> decide
  customer := ⟨1, by decide⟩
  costs := fun _ u v _ => ⟨_, Or.inl rfl⟩
  demand := by decide +kernel
  service := by decide +kernel
  timeWindows := rfl
  pickupDelivery := rfl
  distributionCollection := rfl
  periodic := rfl
  oneCapacity := by decide +kernel

/-- Diving from all routes with at most two customers. -/
def exDiveArgs : SolveArgs where
  initialRoutes := [routeOf [.cust 1], routeOf [.cust 2], routeOf [.cust 3], routeOf [.cust 1, .cust 2],
    routeOf [.cust 2, .cust 3], routeOf [.cust 3, .cust 1]]
  dive := true

theorem exDiveArgs_ok : ∀ r ∈ exDiveArgs.initialRoutes, r.Nodup ∧ WithinStops exThree.numStops.stops (stops r).length := by
  intro r hr
  have : ∀ r ∈ exDiveArgs.initialRoutes, r.Nodup ∧ (stops r).length ≤ 2 := by decide +kernel
  refine ⟨(this r hr).1, ?_⟩
  intro m hm _
  have hm' : (2 : Nat) = m := by simpa [exThree, PyVal.stops] using hm
  rw [← hm']
  exact (this r hr).2

/-- A dual solution of the relaxed problem. -/
def exDual : LP MVar → Node → ℚ := fun _ v => if v.isDepot then 0 else 1

/-- All hypotheses of `C53_dive_partial` hold, and diving finds a plan: half of each pair at first, then the first pair is fixed, and
the third customer is visited alone. -/
example : let w := diveWorld [Master.exHalf, choosing [3, 4]] exDual []
    WorldOk w ∧ DiveOk w.toEnv ∧ Capacitated exThree ∧
    (∀ r ∈ exDiveArgs.initialRoutes, r.Nodup ∧ WithinStops exThree.numStops.stops (stops r).length) ∧
    planOf w exDiveArgs 5 exThree =
      .ok (some ⟨[(1, routeOf [.cust 3]), (2, routeOf [.cust 1, .cust 2])], [(1, 0), (2, 0)], []⟩) :=
  ⟨diveWorld_ok _ _ _, diveWorld_dive _ _ _, exThree_capacitated, exDiveArgs_ok, Solve.eq_ok_of_toOption (by decide +kernel)⟩

/-- All hypotheses of `C53_dive_variants_partial` hold for the problem with time windows and collection. -/
example : let w := diveWorld [choosing [1, 2]] exDual []
    WorldOk w ∧ DiveOk w.toEnv ∧ WindowedOrCollecting exBoth ∧
    planOf w { dive := true } 5 exBoth = .ok (some ⟨[(1, routeOf [.cust 1]), (2, routeOf [.cust 2])], [(1, 0), (2, 0)], []⟩) :=
  ⟨diveWorld_ok _ _ _, diveWorld_dive _ _ _, exBoth_ok, Solve.eq_ok_of_toOption (by decide +kernel)⟩

/-- Duals that make the pricing problem find a column once. -/
def exDual2 (prob : LP MVar) (v : Node) : ℚ :=
  if v.isDepot then 0 else if prob.vars.any (fun d => d.var = .y (.num 3)) then 5 else 23

/-- All hypotheses of `C53_dive_windows_lp_partial` hold, and the route found by pricing is reported. -/
example : let w := diveWorld [choosing [3], choosing [1, 2]] exDual2 [exPoint]
    LpSound w ∧ DiveOk w.toEnv ∧ WindowedOrCollecting exBoth ∧ TravelTakesTime exBoth ∧
    planOf w { dive := true, cspy := false } 5 exBoth = .ok (some ⟨[(1, routeOf [.cust 1, .cust 2])], [(1, 0)], []⟩) :=
  ⟨diveWorld_lp _ _ _, diveWorld_dive _ _ _, exBoth_ok, exBoth_timed, Solve.eq_ok_of_toOption (by decide +kernel)⟩

/-- All hypotheses of `C53_dive_requests_partial` hold for two requests. -/
example : let w := diveWorld [choosing [1, 2]] exDual []
    LpSound w ∧ DiveOk w.toEnv ∧ PickupDelivery exRequests ∧
    planOf w { dive := true, cspy := false } 5 exRequests =
      .ok (some ⟨[(1, routeOf [.cust 1, .cust 3]), (2, routeOf [.cust 2, .cust 4])], [(1, 0), (2, 0)], []⟩) :=
  ⟨diveWorld_lp _ _ _, diveWorld_dive _ _ _, exRequests_ok, Solve.eq_ok_of_toOption (by decide +kernel)⟩

/-- **C53**, counterexample for a whole run (the one of `C53_twice_counterexample`, where the points that the solver returns are shown
to be optimal): customer 2 is visited twice. -/
theorem C53_run_counterexample : let w := diveWorld [Master.exHalf, Master.exTwo] exDual []
    WorldOk w ∧ DiveOk w.toEnv ∧ Capacitated exThree ∧
    (∀ r ∈ exDiveArgs.initialRoutes, r.Nodup ∧ WithinStops exThree.numStops.stops (stops r).length) ∧
    planOf w exDiveArgs 5 exThree =
      .ok (some ⟨[(1, routeOf [.cust 1, .cust 2]), (2, routeOf [.cust 2, .cust 3])], [(1, 0), (2, 0)], []⟩) :=
  ⟨diveWorld_ok _ _ _, diveWorld_dive _ _ _, exThree_capacitated, exDiveArgs_ok, Solve.eq_ok_of_toOption (by decide +kernel)⟩

end Vrpy
