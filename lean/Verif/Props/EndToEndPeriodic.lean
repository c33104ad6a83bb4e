import Verif.Props.Schedule
import Verif.Proofs.ExampleWorld
import Verif.Proofs.UserData

/-!
# C66: what a first `solve()` returns for a periodic problem
-/

namespace Vrpy

open Spec

/-- How often the user wants `v` visited over the horizon. -/
def Spec.userFrequency (G : DiGraph) (v : Node) : ℚ := (G.nd v).frequency.getD 1

/-- The user's demand, nothing at the depots. -/
def Spec.customerDemand (G : DiGraph) (v : Node) : ℚ := if v.isDepot then 0 else userDemand G v

/-- The solver of the scheduling problem returns feasible points. -/
def Spec.ScheduleOk (w : World) : Prop := ∀ lp, (w.schedule lp).1 = true → lp.Feasible (w.schedule lp).2

/-- The number of visits of `v`. -/
def Spec.visitCount (S : Solution) (v : Node) : Nat := (S.routes.map (fun p => p.2.count v)).sum

/-- The routes form a periodic plan for the problem `P` with `K` vehicle types: every route starts at Source, visits different
customers, ends at Sink, drives along arcs of the user's graph (completed with depot arcs), and has the property `F`
for its vehicle type; no customer is on more routes than its frequency says (less one if it is dropped), customers with frequency
at most 1 are on exactly as many; nothing is dropped without a penalty. -/
structure Spec.PeriodicPlanFor (P : Vrp) (K : Nat) (F : Nat → List Node → Prop) (S : Solution) : Prop where
  routes : ∀ i r, (i, r) ∈ S.routes → ∃ mid, r = routeOf mid ∧ mid.Nodup ∧
    (∀ v ∈ mid, (∃ n, v = .cust n) ∧ v ∈ P.G.nodes) ∧ Along (UserArc P.G) r ∧
    ∃ k < K, dget S.types i = some k ∧ F k r
  visits : ∀ n, Node.cust n ∈ P.G.nodes →
    (visitCount S (.cust n) : ℚ) + (if Node.cust n ∈ S.dropped then 1 else 0) ≤
      userFrequency P.G (.cust n) ∧
    (userFrequency P.G (.cust n) ≤ 1 →
      (visitCount S (.cust n) : ℚ) + (if Node.cust n ∈ S.dropped then 1 else 0) =
        userFrequency P.G (.cust n))
  dropped : ∀ v ∈ S.dropped, (∃ n, v = .cust n) ∧ v ∈ P.G.nodes
  penalty : P.dropPenalty = 0 → S.dropped = []

/-- What capacitated problems ask of a route. -/
def Spec.CapacitatedRoute (P : Vrp) (k : Nat) (r : List Node) : Prop :=
  ∃ mid, r = routeOf mid ∧ WithinStops P.numStops.stops mid.length ∧
    WithinCapacity (userCapacities P.loadCapacity) k (mid.map (userDemand P.G)).sum

/-- A valid schedule of the routes of `S` over the horizon of `P`, with the vehicles of `P` on every day. -/
def Spec.PeriodicSchedule (P : Vrp) (S : Solution) (sch : Dict Nat (List Nat)) : Prop :=
  ValidSchedule (customerDemand P.G) (P.periodic.getD 0) S.routes S.types (userFleet P.numVehicles) sch

theorem validSchedule_congr {d d' : Node → ℚ} {span : Nat} {routes : Dict Nat (List Node)} {types : Dict Nat Nat} {fleet : List Nat}
    {sch : Dict Nat (List Nat)} (hd : ∀ r ∈ routes, ∀ v ∈ r.2, d v = d' v)
    (h : ValidSchedule d span routes types fleet sch) : ValidSchedule d' span routes types fleet sch := by
  refine ⟨h.days, h.horizon, h.each, ?_, h.fleet⟩
  intro e he v hv
  by_cases hm : v ∈ visitsOf routes e.2
  · obtain ⟨i, _, hi⟩ := List.mem_flatMap.1 hm
    cases hg : dget routes i with
    | none => rw [hg] at hi; simp at hi
    | some L =>
      rw [hg] at hi
      exact h.once e he v (by rw [hd _ (mem_of_dget hg) v hi]; exact hv)
  · rw [List.count_eq_zero_of_not_mem hm]
    exact Nat.zero_le _

/-- The fleet of a periodic problem is left to the schedule. -/
theorem periodic_fleet {w : World} {a : SolveArgs} {P0 P' : Vrp} {o : Obj} (hper : P0.periodic.getD 0 ≠ 0)
    (hc : Obj.create P0 = .ok o)
    (h : o.P.startSolve w.dist a.strategy a.cspy a.initialRoutes a.preassignments = .ok P') :
    P'.numVehicles.toList = [] ∧ P'.numVehiclesSchedule = userFleet P0.numVehicles := by
  obtain ⟨G, hG, rfl⟩ := create_ok hc
  set P1 : Vrp := { P0 with
      G := G
      numVehiclesSchedule := []
      vehicleTypes := none
      initialRoutes := []
      preassignments := []
      moreRoutes := false
      H := none } with hP1
  obtain ⟨G1, N', N1, N2, N3', S⟩ := startSolve_prepared h
  obtain ⟨f1, f2, f3, f4, f5, f6, f7, f8, f9, f10, f11, f12, f13, f14⟩ :=
    prepared_fields (P := P1) (R := a.initialRoutes) (Q := a.preassignments)
  have hf := prepared_fleet S.vt
  have hper1 : (P1.prepared a.initialRoutes a.preassignments).periodic.getD 0 ≠ 0 := by rw [f10]; exact hper
  have hres := S.result
  rw [hres]
  show (checkPeriodicNumVehicles _ _).1 = [] ∧ (checkPeriodicNumVehicles _ _).2 = _
  unfold checkPeriodicNumVehicles
  rw [hf]
  split
  · exact ⟨rfl, rfl⟩
  · rename_i hne
    have : userFleet P1.numVehicles = [] := by
      by_contra hx
      exact hne ⟨hper1, hx⟩
    exact ⟨this, this.symm⟩

/-- The plan and the schedule made of the columns that column generation selects, if the first columns and those found by pricing stand
for routes with the property `F`. -/
theorem periodic_of_columns {w : World} {a : SolveArgs} {fuel : Nat} {P0 P' : Vrp} {o o' : Obj} {K : Nat} {N N3 : Net}
    {F : Nat → List Node → Prop}
    (hcustomer : ∃ n, Node.cust n ∈ P0.G.nodes) (hperiodic : P0.periodic.getD 0 ≠ 0) (S : Searched P0 P' K N N3)
    (U : UserData P0 P' N) (hfleet : P'.numVehiclesSchedule = userFleet P0.numVehicles)
    (hmaster : ∀ t, MasterSolverSound (w.master t)) (hschedule : ScheduleOk w)
    (hpath : ∀ (c : Column) (p : List Node), IsShortestPath c.edges p → IsShortestPath c.edges (w.path c))
    (hinit : ∀ P'' cols, P'.initialize P'.G.toNet w.cw fuel = .ok (some (P'', cols)) → Solve.Numbered cols ∧
      (∀ c ∈ cols, ColumnFor N3 K F c) ∧ ∃ rs, P'' = { P' with initialRoutes := rs })
    (hdive : a.dive = false) (hold : P0.dropPenalty = 0 → o.solution.dropped = [])
    (hprice : ∀ rs stm d cost st1, Solve.Inv stm → (∀ c ∈ stm.cols, ColumnFor N3 K F c) →
      Solve.solveMaster (({ P' with initialRoutes := rs } : Vrp).solveCfg a w.falsy) w.toEnv false stm = .ok (d, cost, st1) →
      Solve.PriceOk (({ P' with initialRoutes := rs } : Vrp).solveCfg a w.falsy) w.toEnv d (ColumnFor N3 K F))
    (h : Obj.columnGeneration w a fuel P' o = .ok (some o')) :
    o'.P.H = some N ∧ PeriodicPlanFor P0 K F o'.solution ∧
      (o'.schedule = [] ∨ PeriodicSchedule P0 o'.solution o'.schedule) ∧
      ((∀ lp, (∃ x, lp.Feasible x) → (w.schedule lp).1 = true) → ∀ sch, PeriodicSchedule P0 o'.solution sch →
        PeriodicSchedule P0 o'.solution o'.schedule) ∧
      ((∀ lp, (∃ x, lp.Feasible x) → (w.schedule lp).1 = true) → (∀ lp, (w.schedule lp).1 = true → lp.Optimal (w.schedule lp).2) →
        ∀ sch, PeriodicSchedule P0 o'.solution sch → ∀ d d', IsSpread (P0.periodic.getD 0) o'.schedule d →
          IsSpread (P0.periodic.getD 0) sch d' → d ≤ d') ∧
      (P0.minimizeGlobalSpan = false → bestValue N false P0.dropPenalty o'.solution =
        .ok ((userCosts P0 o'.solution).sum + P0.dropPenalty * o'.solution.dropped.length)) ∧
      (P0.minimizeGlobalSpan = true → o'.solution.routes ≠ [] → ∃ m, IsLargest m (userCosts P0 o'.solution) ∧
        bestValue N true P0.dropPenalty o'.solution = .ok (m + P0.dropPenalty * o'.solution.dropped.length)) := by
  unfold Obj.columnGeneration at h
  cases h1 : P'.initialize P'.G.toNet w.cw fuel with
  | error e => simp [h1] at h
  | ok x =>
  cases x with
  | none => simp [h1] at h
  | some x =>
  obtain ⟨P'', cols⟩ := x
  simp only [h1] at h
  obtain ⟨hnum, hgood, rs, rfl⟩ := hinit _ _ h1
  split at h
  · cases h
  rw [hdive] at h
  split at h
  · cases h
  · cases h
  rename_i st f hrun
  have hN3 : P'.G.toNet = N3 := by rw [S.graph]; rfl
  obtain ⟨f1, f2, f3, f4, f5, f6, f7, f8, f9, f10, f11⟩ := S.fields
  have hsize : 2 < N3.nodes.length := by
    obtain ⟨n, hn⟩ := hcustomer
    rw [← S.userNodes, ← S.nodes] at hn
    have hsub : [Node.source, .sink, .cust n].Subperm N3.nodes :=
      List.subperm_of_subset (by simp) (by
        intro v hv
        simp only [List.mem_cons, List.not_mem_nil, or_false] at hv
        rcases hv with rfl | rfl | rfl
        · exact S.wfSearch.source_mem
        · exact S.wfSearch.sink_mem
        · exact hn)
    exact hsub.length_le
  obtain ⟨p, hf, hgr, hdr, hinv, _, hall⟩ := Solve.run_selected
    (Q := ColumnFor N3 K F) (by exact hnum) rfl hgood
    (hprice rs) hmaster (by simpa [Vrp.solveCfg, Vrp.master, hN3] using hsize) hrun
  set M := (({ P' with initialRoutes := rs } : Vrp).solveCfg a w.falsy).M with hM
  have hMG : M.G = N3 := hN3
  have hMper : M.periodic = true := by
    show decide (P'.periodic.getD 0 ≠ 0) = true
    rw [f7]
    exact decide_eq_true hperiodic
  have hMpen : M.dropPenalty = P0.dropPenalty := f5
  have hpool : PoolOk M.G st.cols := by
    intro c hc
    rw [hMG]
    rcases (hall c hc).2 with hn | ⟨r, hr, hd, _⟩
    · exact Or.inl hn
    · exact Or.inr ⟨r, hr, hd⟩
  have hsel : ∀ c ∈ Master.selected st.cols p, ∃ r, IsSimpleRoute N3 r ∧ Draws c r ∧
      F c.vehicleType r ∧
      c.vehicleType < K ∧ IsShortestPath c.edges (w.path c) ∧ w.path c = r := by
    intro c hc
    have hcol := (Master.mem_selected.1 hc).1
    obtain ⟨hk, hn | ⟨r, hr, hd, hF⟩⟩ := hall c hcol
    · obtain ⟨n, hn⟩ := hn
      have := Master.selected_not_non hf hc
      rw [hn] at this
      exact absurd this (by simp [Master.isNon])
    · obtain ⟨mid, hmid, _, _⟩ := id hr.1
      have hsp : IsShortestPath c.edges r := by
        rw [hmid]
        rw [hmid] at hr hd
        exact (shortest_iff hr.2 (fun e => hd.edges.mem_iff) _).2 rfl
      have hsp' := hpath c r hsp
      exact ⟨r, hr, hd, hF, hk, hsp', Master.path_eq hr hd hsp'⟩
  have hshort : ∀ c ∈ Master.selected st.cols p, IsShortestPath c.edges (w.path c) := by
    intro c hc
    obtain ⟨_, _, _, _, _, h, _⟩ := hsel c hc
    exact h
  have hvisits : ∀ v ∈ M.G.customers, _ := fun v hv => Master.C32_visits_partial hpool hMper hf hshort (v := v) hv
  have c3 : M.dropPenalty = 0 → M.dropped p = [] := by
    intro h0
    simp [Master.dropped, Master.drops, h0]
  have hdummy : ∀ v ∈ M.G.customers, 1 < M.G.freq v → 0 ≤ p (.dummy v) := by
    intro v hv hq
    rcases Master.dummy_int hf (v := v) (by simp [Master.dummies, hMper, hv, hq]) with h0 | h1 <;> linarith
  -- the report
  split at h
  · cases h
  rename_i o1 hpost
  simp only [Except.ok.injEq, Option.some.injEq] at h
  subst h
  unfold Obj.postProcess at hpost
  simp only [py_bind_ok] at hpost
  obtain ⟨dropped, hdrop, rt, hrt, sch, hsch, hpost⟩ := hpost
  simp only [pure, Except.pure, Except.ok.injEq] at hpost
  have hpre : ({ P' with initialRoutes := rs } : Vrp).preassignments = [] := f1
  rw [hpre, hgr] at hrt
  obtain ⟨hr1, hr2⟩ := Master.report_unlocked hrt
  have hdropped : dropped = M.dropped p := by
    unfold Obj.droppedNodes at hdrop
    by_cases h0 : P0.dropPenalty = 0
    · rw [if_neg (by simpa [f5] using h0)] at hdrop
      rw [c3 (by rw [hMpen]; exact h0)]
      simp only [Except.ok.injEq] at hdrop
      rw [← hdrop]
      exact hold h0
    · rw [if_pos (by simpa [f5] using h0), hdr, if_neg (by rw [hMpen]; exact h0)] at hdrop
      simp only [Except.ok.injEq] at hdrop
      exact hdrop.symm
  have hsol : o1.solution = ⟨numbered ((Master.selected st.cols p).map w.path),
      numbered ((Master.selected st.cols p).map Column.vehicleType), M.dropped p⟩ := by
    rw [← hpost, ← hdropped]
    simp only [hr1, hr2]
  have hH : o1.P.H = some N := by
    rw [← hpost]
    exact S.reports
  rw [hsol]
  generalize Master.selected st.cols p = sel at *
  have hmono : ∀ r, IsSimpleRoute N3 r → IsSimpleRoute N r := fun r =>
    isSimpleRoute_mono (fun v hv => by rw [← S.nodes]; exact hv) S.same.succ
  have hcost : ∀ c ∈ sel, Along (fun u v => v ∈ N.succ u ∧ c.vehicleType < (N.cost u v).length) (w.path c) ∧
      Spec.cost N c.vehicleType (w.path c) = legSum (userArcCost P0 c.vehicleType) (w.path c) := by
    intro c hc
    obtain ⟨r, hr, _, _, hk, _, rfl⟩ := hsel c hc
    obtain ⟨⟨mid, _, _, hal⟩, _⟩ := hmono _ hr
    rw [along_iff] at hal
    refine ⟨(along_iff _ _).2 (fun u v huv => ⟨hal u v huv, by rw [S.costs u v (hal u v huv)]; exact hk⟩), ?_⟩
    exact legSum_congr (fun u v huv => S.arcCost u v (hal u v huv) _ hk)
  have hcosts : userCosts P0 ⟨numbered (sel.map w.path), numbered (sel.map Column.vehicleType), M.dropped p⟩ =
      routeCosts N ⟨numbered (sel.map w.path), numbered (sel.map Column.vehicleType), M.dropped p⟩ := by
    rw [Master.routeCosts_numbered]
    unfold userCosts
    refine (numbered_map (fun r k => legSum (userArcCost P0 (k.getD 0)) r) w.path sel).trans ?_
    exact List.map_congr_left (fun c hc => ((hcost c hc).2).symm)
  have hval : ∀ span, (span = true → sel ≠ []) → ∃ v, bestValue N span P0.dropPenalty
      ⟨numbered (sel.map w.path), numbered (sel.map Column.vehicleType), M.dropped p⟩ = .ok v := by
    intro span hne
    refine C26_value_defined ?_ ?_
    · intro i r hir
      obtain ⟨c, hc, rfl, hk⟩ := mem_numbered_map hir
      exact ⟨_, hk, (hcost c hc).1⟩
    · intro hs h0
      refine hne hs ?_
      simpa [numbered] using h0
  have hroutes : ∀ i r, (i, r) ∈ numbered (sel.map w.path) → ∃ mid, r = routeOf mid ∧ mid.Nodup ∧
      (∀ v ∈ mid, (∃ n, v = .cust n) ∧ v ∈ P0.G.nodes) ∧ Along (UserArc P0.G) r ∧
      ∃ k < K, dget (numbered (sel.map Column.vehicleType)) i = some k ∧ F k r := by
    intro i r hir
    obtain ⟨c, hc, rfl, hk⟩ := mem_numbered_map hir
    obtain ⟨r, hr, _, hF, hlt, _, hrr⟩ := hsel c hc
    rw [hrr]
    obtain ⟨⟨mid, rfl, hmid, hal⟩, hnd⟩ := hr
    refine ⟨mid, rfl, ?_, ?_, ?_, c.vehicleType, hlt, hk, hF⟩
    · exact (List.nodup_append.1 (List.nodup_cons.1 hnd).2).1
    · intro v hv
      refine ⟨(hmid v hv).1, ?_⟩
      rw [← S.userNodes, ← S.nodes]
      exact (hmid v hv).2
    · rw [along_iff] at hal ⊢
      exact fun u v huv => S.userArcs u v (S.same.succ u v (hal u v huv))
  have hkeys : ((numbered (sel.map w.path)).map Prod.fst).Nodup := by
    have : (numbered (sel.map w.path)).map Prod.fst = List.range' 1 (sel.map w.path).length := by
      rw [numbered, List.map_map]
      exact List.zipIdx_map_snd 1 _
    rw [this]
    exact List.nodup_range'
  have hfreq : ∀ v ∈ P0.G.nodes, M.G.freq v = userFrequency P0.G v := by
    intro v hv
    rw [hMG, S.same.freq]
    exact U.freq v (by rw [S.userNodes]; exact hv)
  -- the schedule
  have hspan : ({ P' with initialRoutes := rs } : Vrp).periodic.getD 0 = P0.periodic.getD 0 := by rw [← f7]
  have hdem : ∀ r ∈ numbered (sel.map w.path), ∀ v ∈ r.2, N3.demand v = customerDemand P0.G v := by
    rintro ⟨i, r⟩ hir v hv
    obtain ⟨mid, rfl, _, hmid, _⟩ := hroutes i r hir
    rw [S.same.demand]
    simp only [routeOf, List.mem_cons, List.mem_append, List.not_mem_nil, or_false] at hv
    rcases hv with rfl | hv | rfl
    · exact S.demandDepots.1
    · obtain ⟨⟨n, rfl⟩, hn⟩ := hmid v hv
      rw [S.demand _ (mem_customers.2 ⟨by rw [S.userNodes]; exact hn, by simp, by simp⟩)]
      rfl
    · exact S.demandDepots.2
  have hnodes : ∀ r ∈ numbered (sel.map w.path), ∀ v ∈ r.2, v ∈ N3.nodes := by
    rintro ⟨i, r⟩ hir v hv
    obtain ⟨mid, rfl, _, hmid, _⟩ := hroutes i r hir
    simp only [routeOf, List.mem_cons, List.mem_append, List.not_mem_nil, or_false] at hv
    rcases hv with rfl | hv | rfl
    · exact S.wfSearch.source_mem
    · rw [S.nodes, S.userNodes]
      exact (hmid v hv).2
    · exact S.wfSearch.sink_mem
  have hnd : ∀ r ∈ numbered (sel.map w.path), r.2.Nodup := by
    rintro ⟨i, r⟩ hir
    obtain ⟨c, hc, rfl, _⟩ := mem_numbered_map hir
    obtain ⟨r, hr, _, _, _, _, hrr⟩ := hsel c hc
    simp only [hrr]
    exact hr.2
  set s : Schedule :=
    { G := N3
      timeSpan := P0.periodic.getD 0
      routes := numbered (sel.map w.path)
      types := numbered (sel.map Column.vehicleType)
      numVehicles := userFleet P0.numVehicles } with hs
  have hsched : o1.schedule = s.routesPerDay (w.schedule s.lp).1 (w.schedule s.lp).2 := by
    rw [← hpost]
    simp only
    unfold Obj.makeSchedule at hsch
    rw [if_neg (by rw [hspan]; exact hperiodic)] at hsch
    simp only [hr1, hr2, hspan, hfleet, hN3] at hsch
    have hform : s.formulate = .ok s.lp := by
      refine Schedule.C30_formulate.2 (Or.inr (Or.inr ?_))
      rintro ⟨i, r⟩ hir
      obtain ⟨c, _, _, hk⟩ := mem_numbered_map hir
      exact ⟨_, hk⟩
    rw [← hs, hform] at hsch
    simp only [Except.ok.injEq] at hsch
    exact hsch.symm
  have hiff : ∀ sch, s.Valid sch ↔ PeriodicSchedule P0
      ⟨numbered (sel.map w.path), numbered (sel.map Column.vehicleType), M.dropped p⟩ sch := fun sch =>
    ⟨validSchedule_congr hdem, validSchedule_congr (fun r hr v hv => (hdem r hr v hv).symm)⟩
  have hvalid := Schedule.C30_schedule_valid (s := s) hkeys (fun r hr v hv _ => hnodes r hr v hv)
    (fun r hr v _ => List.nodup_iff_count_le_one.1 (hnd r hr) v) (w.schedule s.lp).1 (w.schedule s.lp).2
    (hschedule s.lp)
  rw [hsched]
  refine ⟨hH, ⟨hroutes, ?_, ?_, ?_⟩, ?_, ?_, ?_, ?_, ?_⟩
  · intro n hn
    have hc : Node.cust n ∈ M.G.customers := by
      rw [mem_customers, hMG, S.nodes, S.userNodes]
      exact ⟨hn, by simp, by simp⟩
    have h1 := hvisits _ hc
    have h2 := numbered_map (fun r _ => r.count (.cust n)) w.path sel
    have h3 : ((numbered (sel.map w.path)).map (fun p => p.2.count (.cust n))).sum =
        ((sel.map w.path).flatten).count (.cust n) := by
      rw [h2, List.count_flatten, List.map_map]
      rfl
    unfold visitCount
    rw [h3, h1, hfreq _ hn]
    by_cases hq : 1 < userFrequency P0.G (.cust n)
    · have h4 := hdummy _ hc (by rw [hfreq _ hn]; exact hq)
      rw [if_pos hq]
      exact ⟨by linarith, fun h => absurd hq (not_lt.2 h)⟩
    · rw [if_neg hq]
      exact ⟨by linarith, fun _ => by linarith⟩
  · intro v hv
    have hd : v ∈ M.drops := (Master.mem_dropped.1 hv).1
    have hcu : v ∈ N3.customers := by
      unfold Master.drops at hd
      split at hd
      · simp at hd
      · rw [hMG] at hd
        exact hd
    obtain ⟨e1, e2, e3⟩ := mem_customers.1 hcu
    refine ⟨?_, by rw [← S.userNodes, ← S.nodes]; exact e1⟩
    cases v with
    | source => exact absurd rfl e2
    | sink => exact absurd rfl e3
    | cust n => exact ⟨n, rfl⟩
  · intro h0
    exact c3 (by rw [hMpen]; exact h0)
  · cases hopt : (w.schedule s.lp).1 with
    | false => exact Or.inl rfl
    | true =>
      rw [hopt] at hvalid
      exact Or.inr ((hiff _).1 (hvalid.1 rfl))
  · intro hex sch hS
    have hopt := hex s.lp ((Schedule.C30_feasible_iff hkeys (fun r hr v hv _ => hnodes r hr v hv)
      (fun r hr v _ => List.nodup_iff_count_le_one.1 (hnd r hr) v)).2 ⟨sch, (hiff _).2 hS⟩)
    exact (hiff _).1 (hvalid.1 hopt)
  · intro hex hbest sch hS d d' hd hd'
    have hopt := hex s.lp ((Schedule.C30_feasible_iff hkeys (fun r hr v hv _ => hnodes r hr v hv)
      (fun r hr v _ => List.nodup_iff_count_le_one.1 (hnd r hr) v)).2 ⟨sch, (hiff _).2 hS⟩)
    rw [hopt] at hd
    exact Schedule.C31_balanced hkeys (hbest _ hopt) ((hiff _).2 hS) hd hd'
  · intro _
    obtain ⟨v, hv⟩ := hval false (fun h => (by cases h))
    rw [hv, (C26_best_value hv).1 rfl, hcosts]
  · intro _ hne
    obtain ⟨v, hv⟩ := hval true (fun _ h0 => hne (by simp [numbered, h0]))
    obtain ⟨m, hm, rfl⟩ := (C26_best_value hv).2 rfl
    exact ⟨m, by rw [hcosts]; exact hm, hv⟩

/-- **C66 (partial).** Let a capacitated periodic problem be handed to the constructor and `solve()` be called with cspy, any
pricing strategy, greedy pricing or not, any limits on iterations and time, possibly with initial routes (without repeated nodes
and within the number of stops), and let it return, however the solvers behave within their contracts.  Then the routes are feasible,
no customer is visited more often than its frequency says, customers with frequency at most 1 exactly as often; the schedule is empty or
a valid one for the routes, the horizon and the fleet; it is not empty, if the solver finds a feasible point whenever there is one and
there is a valid schedule; if the solver returns optima, no valid schedule is more balanced; `best_value` is what the routes cost plus
penalties.  What is missing: customers may be visited less often than their frequency says (`C66_visits_counterexample`), dropped
customers may be visited (`C66_dropped_counterexample`), and the schedule may be empty (`C66_schedule_counterexample`). -/
theorem C66_periodic_partial {w : World} {a : SolveArgs} {fuel : Nat} {P0 : Vrp} {o o' : Obj} (hw : WorldOk w)
    (hschedule : ScheduleOk w) (hP : CapacitatedData P0) (hperiodic : P0.periodic.getD 0 ≠ 0) (hpre : a.preassignments = [])
    (hdive : a.dive = false) (hheur : a.heuristicOnly = false) (hcspy : a.cspy = true)
    (hinit : ∀ r ∈ a.initialRoutes, r.Nodup ∧ WithinStops P0.numStops.stops (stops r).length)
    (hc : Obj.create P0 = .ok o) (h : o.solve w a fuel = .ok (some o')) :
    ∃ K N, (P0.mixedFleet = false → K = 1) ∧ o'.P.H = some N ∧
      PeriodicPlanFor P0 K (CapacitatedRoute P0) o'.solution ∧
      (o'.schedule = [] ∨ PeriodicSchedule P0 o'.solution o'.schedule) ∧
      ((∀ lp, (∃ x, lp.Feasible x) → (w.schedule lp).1 = true) → ∀ sch, PeriodicSchedule P0 o'.solution sch →
        PeriodicSchedule P0 o'.solution o'.schedule) ∧
      ((∀ lp, (∃ x, lp.Feasible x) → (w.schedule lp).1 = true) → (∀ lp, (w.schedule lp).1 = true → lp.Optimal (w.schedule lp).2) →
        ∀ sch, PeriodicSchedule P0 o'.solution sch → ∀ d d', IsSpread (P0.periodic.getD 0) o'.schedule d →
          IsSpread (P0.periodic.getD 0) sch d' → d ≤ d') ∧
      (P0.minimizeGlobalSpan = false → bestValue N false P0.dropPenalty o'.solution =
        .ok ((userCosts P0 o'.solution).sum + P0.dropPenalty * o'.solution.dropped.length)) ∧
      (P0.minimizeGlobalSpan = true → o'.solution.routes ≠ [] → ∃ m, IsLargest m (userCosts P0 o'.solution) ∧
        bestValue N true P0.dropPenalty o'.solution = .ok (m + P0.dropPenalty * o'.solution.dropped.length)) := by
  unfold Obj.solve at h
  split at h
  · cases h
  rename_i P' hstart
  rw [hheur] at h
  simp only [Bool.false_eq_true, if_false] at h
  obtain ⟨K, N, N3, S⟩ := searched (w := w) hP.wf hP.customer hP.costs hP.demand hpre hc hstart
  have U := userData (w := w) hP.wf hP.demand hpre hc hstart S.reports
  have hold : o.solution.dropped = [] := by
    obtain ⟨G, _, rfl⟩ := create_ok hc
    rfl
  have hi := startSolve_initial hc hstart
  obtain ⟨r1, r2, r3⟩ := periodic_of_columns (F := fun k r => WithinStops P0.numStops.stops (stops r).length ∧
      WithinCapacity (userCapacities P0.loadCapacity) k (load N3 r)) hP.customer hperiodic S U (periodic_fleet hperiodic hc hstart).2
    hw.master hschedule hw.path
    (fun P'' cols h1 => by
      obtain ⟨b1, b2, b3⟩ := initial_good hP S hw.cw (by rw [hi]; exact hinit) h1
      exact ⟨b1, fun c hc => (b2 c hc).good, b3⟩) hdive (fun _ => hold)
    (fun rs _ d _ _ _ _ _ => price_searched hw hP S hcspy rs d) h
  refine ⟨K, N, S.typesOne, r1, ⟨?_, r2.visits, r2.dropped, r2.penalty⟩, r3⟩
  intro i r hir
  obtain ⟨mid, rfl, h1, h2, h3, k, h4, h5, h6, h7⟩ := r2.routes i r hir
  obtain ⟨e1, e2⟩ := load_user S h2
  rw [e1] at h7
  rw [e2] at h6
  exact ⟨mid, rfl, h1, h2, h3, k, h4, h5, mid, rfl, h6, h7⟩

/-! ## Examples -/

/-- A solver of scheduling problems that knows some points. -/
def scheduleOf (pts : List (SVar → ℚ)) (prob : LP SVar) : Bool × (SVar → ℚ) :=
  match pts.find? (feasiblePoint prob) with
  | some pt => (true, pt)
  | none => (false, fun _ => 0)

/-- The world with these solvers, and a labelling algorithm that finds nothing. -/
noncomputable def periodicWorld (mpts : List (MVar → ℚ)) (dual : LP MVar → Node → ℚ) (spts : List (SVar → ℚ)) : World :=
  { exWorld with
    master := fun _ => masterOf mpts dual
    cspy := fun _ _ _ _ => none
    path := routePath
    schedule := scheduleOf spts }

theorem periodicWorld_ok (mpts : List (MVar → ℚ)) (dual : LP MVar → Node → ℚ) (spts : List (SVar → ℚ)) :
    WorldOk (periodicWorld mpts dual spts) where
  cw := exWorld_ok.cw
  cspy := fun _ _ _ _ _ _ h => by cases h
  master := fun _ => masterOf_sound _ _
  paths := exWorld_ok.paths
  path := routePath_ok

theorem periodicWorld_schedule (mpts : List (MVar → ℚ)) (dual : LP MVar → Node → ℚ) (spts : List (SVar → ℚ)) :
    ScheduleOk (periodicWorld mpts dual spts) := by
  intro prob h
  show prob.Feasible (scheduleOf spts prob).2
  have h' : (scheduleOf spts prob).1 = true := h
  unfold scheduleOf at h' ⊢
  split
  · rename_i pt hpt
    exact feasible_of _ _ (of_decide_eq_true (by have := List.find?_some hpt; exact this))
  · rename_i hpt
    rw [hpt] at h'
    cases h'

/-- The same, with the schedule. -/
def periodicOf (w : World) (a : SolveArgs) (fuel : Nat) (P : Vrp) : Py (Option (Solution × Dict Nat (List Nat))) :=
  match Obj.create P with
  | .error e => .error e
  | .ok o =>
    match o.solve w a fuel with
    | .error e => .error e
    | .ok none => .ok none
    | .ok (some o') => .ok (some (o'.solution, o'.schedule))

/-- Two customers, the first to be visited `f` times in `days` days, the arc between them costs `c`. -/
def exWeekly (f : ℚ) (days : Nat) (c : ℚ) : Vrp where
  G := {
    nodes := [.source, .cust 1, .cust 2, .sink]
    nd := fun v => if v.isDepot then {} else { demand := some 2, frequency := if v = .cust 1 then some f else none }
    succ := fun u => match u with
      | .source => [.cust 1, .cust 2]
      | .cust 1 => [.cust 2, .sink]
      | .cust 2 => [.sink]
      | _ => []
    ed := fun u v => { cost := some (.scalar (if u = .source ∨ v = .sink then 10 else c)) } }
  loadCapacity := .one (.int 5)
  numVehicles := .one 1
  periodic := some days

theorem exWeekly_capacitated (f : ℚ) (days : Nat) (c : ℚ) : CapacitatedData (exWeekly f days c) where
  wf := by
    refine ⟨by simp [exWeekly], ?_, ?_⟩
    · intro u; simp only [exWeekly]; split <;> decide
    · intro u v hv
      simp only [exWeekly] at hv ⊢
      split at hv <;> simp at hv <;> (try rcases hv with rfl | rfl) <;> (try subst hv) <;> simp
  customer := ⟨1, by simp [exWeekly]⟩
  costs := fun _ u v _ => ⟨_, Or.inl rfl⟩
  demand := by
    intro v _
    simp only [userDemand, exWeekly]
    split <;> simp
  service := by simp [exWeekly, Node.isDepot]
  timeWindows := rfl
  pickupDelivery := rfl
  distributionCollection := rfl
  oneCapacity := by intro _; simp [exWeekly, userCapacities]

/-- The point with these routes on these days. -/
def onDays (l : List (Nat × Nat)) (hi lo : ℚ) : SVar → ℚ
  | .y r t => if (r, t) ∈ l then 1 else 0
  | .loadMax => hi
  | .loadMin => lo

/-- All hypotheses of `C66_periodic_partial` hold: customer 1 is visited on both days, customer 2 on the second one, by the only
vehicle. -/
example : let w := periodicWorld [choosing [1, 2]] (fun _ _ => 0) [onDays [(1, 0), (2, 1)] 1 1]
    let a : SolveArgs := { initialRoutes := [routeOf [.cust 1], routeOf [.cust 1, .cust 2]] }
    WorldOk w ∧ ScheduleOk w ∧ CapacitatedData (exWeekly 2 2 1) ∧
    (∀ r ∈ a.initialRoutes, r.Nodup ∧ WithinStops (exWeekly 2 2 1).numStops.stops (stops r).length) ∧
    periodicOf w a 5 (exWeekly 2 2 1) =
      .ok (some (⟨[(1, routeOf [.cust 1]), (2, routeOf [.cust 1, .cust 2])], [(1, 0), (2, 0)], []⟩, [(0, [1]), (1, [2])])) :=
  ⟨periodicWorld_ok _ _ _, periodicWorld_schedule _ _ _, exWeekly_capacitated _ _ _, by
    intro r hr
    refine ⟨?_, ?_⟩
    · revert r
      decide
    · intro m hm
      exact absurd hm (by simp [exWeekly, PyVal.stops]), Solve.eq_ok_of_toOption (by decide +kernel)⟩

/-- The same with a vehicle that can serve one customer only. -/
def exSmall (pen : ℚ) : Vrp := { exWeekly 2 3 1 with
  loadCapacity := .one (.int 3)
  dropPenalty := pen }

theorem exSmall_capacitated (pen : ℚ) : CapacitatedData (exSmall pen) where
  wf := (exWeekly_capacitated 2 3 1).wf
  customer := ⟨1, by simp [exWeekly, exSmall]⟩
  costs := fun _ u v _ => ⟨_, Or.inl rfl⟩
  demand := (exWeekly_capacitated 2 3 1).demand
  service := (exWeekly_capacitated 2 3 1).service
  timeWindows := rfl
  pickupDelivery := rfl
  distributionCollection := rfl
  oneCapacity := by intro _; simp [exSmall, userCapacities]

/-- A route of a small network is one a plan may have. -/
theorem planRoute {P : Vrp} {r : List Node} (mid : List Node) (hr : r = routeOf mid) (h1 : mid.Nodup)
    (h2 : ∀ v ∈ mid, v.isDepot = false ∧ v ∈ P.G.nodes) (h3 : ∀ e ∈ consecutive r, e.2 ∈ P.G.succ e.1)
    (h4 : P.numStops.stops = none) (h5 : ∀ c ∈ (userCapacities P.loadCapacity)[0]?, (mid.map (userDemand P.G)).sum ≤ c)
    (h6 : (userCapacities P.loadCapacity).length = 1) {types : Dict Nat Nat} {i : Nat} (h7 : dget types i = some 0) :
    ∃ mid, r = routeOf mid ∧ mid.Nodup ∧ (∀ v ∈ mid, (∃ n, v = .cust n) ∧ v ∈ P.G.nodes) ∧ Along (UserArc P.G) r ∧
      ∃ k < 1, dget types i = some k ∧ CapacitatedRoute P k r := by
  refine ⟨mid, hr, h1, ?_, ?_, 0, by decide, h7, mid, hr, ?_, ?_⟩
  · intro v hv
    refine ⟨?_, (h2 v hv).2⟩
    have := (h2 v hv).1
    cases v with
    | source => cases this
    | sink => cases this
    | cust n => exact ⟨n, rfl⟩
  · rw [along_iff]
    exact fun u v huv => Or.inl (h3 (u, v) huv)
  · intro m hm
    rw [h4] at hm
    cases hm
  · intro _
    have : 0 < (userCapacities P.loadCapacity).length := by omega
    exact ⟨_, List.getElem?_eq_getElem this, h5 _ (List.getElem?_eq_getElem this)⟩

/-- **C66**, counterexample for the frequencies: customer 1 is to be visited twice in three days, and visiting each customer alone, on
three days, is a plan with a schedule; the run reports one visit.  (The solver's answer is optimal for the only columns there can
be, see `C32_counterexample`.) -/
theorem C66_visits_counterexample :
    let w := periodicWorld [fun x => if x = .y (.num 1) ∨ x = .y (.num 2) ∨ x = .dummy (.cust 1) then 1 else 0] (fun _ _ => 0)
      [onDays [(1, 0), (2, 1)] 1 0]
    let S : Solution := ⟨[(1, routeOf [.cust 1]), (2, routeOf [.cust 2])], [(1, 0), (2, 0)], []⟩
    let S' : Solution := ⟨[(1, routeOf [.cust 1]), (2, routeOf [.cust 2]), (3, routeOf [.cust 1])], [(1, 0), (2, 0), (3, 0)], []⟩
    WorldOk w ∧ ScheduleOk w ∧ CapacitatedData (exSmall 0) ∧
    periodicOf w {} 5 (exSmall 0) = .ok (some (S, [(0, [1]), (1, [2])])) ∧
    userFrequency (exSmall 0).G (.cust 1) = 2 ∧ visitCount S (.cust 1) = 1 ∧
    PeriodicPlanFor (exSmall 0) 1 (CapacitatedRoute (exSmall 0)) S' ∧ visitCount S' (.cust 1) = 2 ∧
    PeriodicSchedule (exSmall 0) S' [(0, [1]), (1, [2]), (2, [3])] := by
  refine ⟨periodicWorld_ok _ _ _, periodicWorld_schedule _ _ _, exSmall_capacitated _, Solve.eq_ok_of_toOption (by decide +kernel),
    rfl, by decide, ⟨?_, ?_, ?_, ?_⟩, by decide, ⟨by decide, by decide, by decide, ?_, ?_⟩⟩
  · intro i r hir
    simp only [List.mem_cons, Prod.mk.injEq, List.not_mem_nil, or_false] at hir
    rcases hir with ⟨rfl, rfl⟩ | ⟨rfl, rfl⟩ | ⟨rfl, rfl⟩
    · exact planRoute [.cust 1] rfl (by decide) (by decide +kernel) (by decide +kernel) rfl (by decide +kernel) rfl rfl
    · exact planRoute [.cust 2] rfl (by decide) (by decide +kernel) (by decide +kernel) rfl (by decide +kernel) rfl rfl
    · exact planRoute [.cust 1] rfl (by decide) (by decide +kernel) (by decide +kernel) rfl (by decide +kernel) rfl rfl
  · intro n hn
    have : n = 1 ∨ n = 2 := by simpa [exSmall, exWeekly] using hn
    rcases this with rfl | rfl <;> decide +kernel
  · intro v hv
    cases hv
  · intro _
    rfl
  · have : ∀ e ∈ [(0, [1]), (1, [2]), (2, [3])], (visitsOf [(1, routeOf [.cust 1]), (2, routeOf [.cust 2]), (3, routeOf [.cust 1])]
        (e : Nat × List Nat).2).Nodup := by decide
    exact fun e he v _ => List.nodup_iff_count_le_one.1 (this e he) v
  · intro e he k n hk
    have hn : k = 0 ∧ n = 1 := by
      rcases k with _ | k
      · simp [exSmall, exWeekly, userFleet] at hk
        exact ⟨rfl, hk.symm⟩
      · simp [exSmall, exWeekly, userFleet] at hk
    obtain ⟨rfl, rfl⟩ := hn
    revert e
    decide

/-- **C66**, counterexample for dropped customers: customer 1, to be visited twice, is dropped and visited once. -/
theorem C66_dropped_counterexample :
    let w := periodicWorld [choosing [1, 2] [1]] (fun _ _ => 0) [onDays [(1, 0), (2, 1)] 1 0]
    WorldOk w ∧ ScheduleOk w ∧ CapacitatedData (exSmall 1) ∧
    periodicOf w {} 5 (exSmall 1) =
      .ok (some (⟨[(1, routeOf [.cust 1]), (2, routeOf [.cust 2])], [(1, 0), (2, 0)], [.cust 1]⟩, [(0, [1]), (1, [2])])) :=
  ⟨periodicWorld_ok _ _ _, periodicWorld_schedule _ _ _, exSmall_capacitated _, Solve.eq_ok_of_toOption (by decide +kernel)⟩

/-- **C66**, counterexample for the schedule: with one vehicle and one day both customers must be on one route.  The run reports the
round trips, which are cheaper, and no schedule, because there is none for them: column generation does not know the fleet. -/
theorem C66_schedule_counterexample :
    let P := exWeekly 1 1 100
    let w := periodicWorld [choosing [1, 2]] (fun _ _ => 0) [onDays [(1, 0)] 1 1]
    let S : Solution := ⟨[(1, routeOf [.cust 1]), (2, routeOf [.cust 2])], [(1, 0), (2, 0)], []⟩
    let S' : Solution := ⟨[(1, routeOf [.cust 1, .cust 2])], [(1, 0)], []⟩
    WorldOk w ∧ ScheduleOk w ∧ CapacitatedData P ∧ periodicOf w {} 5 P = .ok (some (S, [])) ∧
    (¬ ∃ sch, PeriodicSchedule P S sch) ∧
    PeriodicPlanFor P 1 (CapacitatedRoute P) S' ∧ PeriodicSchedule P S' [(0, [1])] ∧ (userCosts P S).sum < (userCosts P S').sum := by
  refine ⟨periodicWorld_ok _ _ _, periodicWorld_schedule _ _ _, exWeekly_capacitated _ _ _, Solve.eq_ok_of_toOption (by decide +kernel),
    ?_, ⟨?_, ?_, ?_, ?_⟩, ⟨by decide, by decide, by decide, ?_, ?_⟩, by decide +kernel⟩
  · rintro ⟨sch, h⟩
    obtain ⟨h1, h2, h3, _, h5⟩ := h
    have hday : ∀ e ∈ sch, e.1 = 0 := by
      intro e he
      have := h2 e he
      simpa [exWeekly] using this
    have hp : (sch.flatMap Prod.snd).Perm [1, 2] := h3
    match sch, h1, hday, hp, h5 with
    | [], _, _, hp, _ =>
      have := hp.length_eq
      simp at this
    | [e], _, _, hp, h5 =>
      have hle := h5 e (by simp) 0 1 rfl
      simp only [List.flatMap_cons, List.flatMap_nil, List.append_nil] at hp
      have : typeCount [(1, 0), (2, 0)] 0 e.2 = typeCount [(1, 0), (2, 0)] 0 [1, 2] :=
        (hp.filter _).length_eq
      rw [this] at hle
      exact absurd hle (by decide)
    | e :: e' :: l, h1, hday, _, _ =>
      have a1 := hday e (by simp)
      have a2 := hday e' (by simp)
      simp [a1, a2] at h1
  · intro i r hir
    simp only [List.mem_cons, Prod.mk.injEq, List.not_mem_nil, or_false] at hir
    obtain ⟨rfl, rfl⟩ := hir
    exact planRoute [.cust 1, .cust 2] rfl (by decide) (by decide +kernel) (by decide +kernel) rfl (by decide +kernel) rfl rfl
  · intro n hn
    have : n = 1 ∨ n = 2 := by simpa [exWeekly] using hn
    rcases this with rfl | rfl <;> decide +kernel
  · intro v hv
    cases hv
  · intro _
    rfl
  · have : ∀ e ∈ [(0, [1])], (visitsOf [(1, routeOf [.cust 1, .cust 2])] (e : Nat × List Nat).2).Nodup := by decide
    exact fun e he v _ => List.nodup_iff_count_le_one.1 (this e he) v
  · intro e he k n hk
    have hn : k = 0 ∧ n = 1 := by
      rcases k with _ | k
      · simp [exWeekly, userFleet] at hk
        exact ⟨rfl, hk.symm⟩
      · simp [exWeekly, userFleet] at hk
    obtain ⟨rfl, rfl⟩ := hn
    revert e
    decide

end Vrpy
