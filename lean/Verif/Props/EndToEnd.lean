import Verif.Proofs.EndToEnd
import Verif.Props.BestValue
import Verif.Props.SolveCases
import Verif.Proofs.PricingVariants

/-!
# C55: what a first `solve()` returns is a plan for the user's problem

Everything is stated in terms of the problem `P0` handed to the constructor.
-/

namespace Vrpy

open Spec

/-- What is assumed of the world outside: Clarke & Wright's orders are orders, cspy returns paths within the limits it was
given, the LP and MIP solver returns feasible points, the paths from networkx are simplest and shortest ones. -/
structure Spec.WorldOk (w : World) : Prop where
  cw : ∀ x, (w.cw x).Valid
  cspy : ∀ t q, CspySound q (w.cspy t q)
  master : ∀ t, MasterSolverSound (w.master t)
  paths : ∀ t, PathsOk (w.paths t)
  path : ∀ (c : Column) (p : List Node), IsShortestPath c.edges p → IsShortestPath c.edges (w.path c)

/-- The problem is a capacitated one, possibly with a limit on the stops, a mixed fleet, fleet bounds, fixed costs, drop
penalty, periodic visits; demands are not negative, the depots have no service time, and arcs have costs as documented. -/
structure Spec.CapacitatedData (P : Vrp) : Prop where
  wf : P.G.WF
  customer : ∃ n, Node.cust n ∈ P.G.nodes
  costs : CostsAsDocumented P
  demand : ∀ v ∈ P.G.nodes, 0 ≤ userDemand P.G v
  service : (P.G.nd .source).serviceTime.getD 0 = 0 ∧ (P.G.nd .sink).serviceTime.getD 0 = 0
  timeWindows : P.timeWindows = false
  pickupDelivery : P.pickupDelivery = false
  distributionCollection : P.distributionCollection = false
  oneCapacity : P.mixedFleet = false → (userCapacities P.loadCapacity).length ≤ 1

/-- The same without periodic visits. -/
structure Spec.Capacitated (P : Vrp) : Prop extends CapacitatedData P where
  periodic : P.periodic.getD 0 = 0

/-- The routes solve the problem `P`, for `K` vehicle types: every route starts at Source, visits different customers, ends
at Sink, drives along arcs of the user's graph (completed with depot arcs), has at most `num_stops` stops, and its
vehicle can carry its load; every customer is on exactly one route or dropped; nothing is dropped without a penalty; at
most (exactly, with `use_all_vehicles`) `num_vehicles[k]` vehicles of type `k` are used. -/
structure Spec.SolvesProblem (P : Vrp) (K : Nat) (S : Solution) : Prop where
  routes : ∀ i r, (i, r) ∈ S.routes → ∃ mid, r = routeOf mid ∧ mid.Nodup ∧
    (∀ v ∈ mid, (∃ n, v = .cust n) ∧ v ∈ P.G.nodes) ∧ Along (UserArc P.G) r ∧
    WithinStops P.numStops.stops mid.length ∧
    ∃ k < K, dget S.types i = some k ∧ WithinCapacity (userCapacities P.loadCapacity) k (mid.map (userDemand P.G)).sum
  once : ∀ n, Node.cust n ∈ P.G.nodes → Node.cust n ∉ S.dropped →
    (S.routes.map (fun p => p.2.count (.cust n))).sum = 1
  dropped : ∀ v ∈ S.dropped, (∃ n, v = .cust n) ∧ v ∈ P.G.nodes ∧ ∀ i r, (i, r) ∈ S.routes → v ∉ r
  penalty : P.dropPenalty = 0 → S.dropped = []
  fleet : ∀ k n, (userFleet P.numVehicles)[k]? = some n →
    (S.routes.filter (fun p => dget S.types p.1 = some k)).length ≤ n ∧
    (P.useAllVehicles = true → (S.routes.filter (fun p => dget S.types p.1 = some k)).length = n)

/-- What the reported routes cost the user, for the vehicles given. -/
def Spec.userCosts (P : Vrp) (S : Solution) : List ℚ :=
  S.routes.map (fun p => legSum (userArcCost P ((dget S.types p.1).getD 0)) p.2)

/-- The initial columns are good. -/
theorem initial_good {P0 P' P'' : Vrp} {K : Nat} {N N3 : Net} {cw : ℚ → CWOracle} {fuel : Nat} {cols : List Column}
    (hP : CapacitatedData P0) (S : Searched P0 P' K N N3) (hcw : ∀ x, (cw x).Valid)
    (hinit : ∀ r ∈ P'.initialRoutes, r.Nodup ∧ WithinStops P0.numStops.stops (stops r).length)
    (h : P'.initialize P'.G.toNet cw fuel = .ok (some (P'', cols))) :
    Solve.Numbered cols ∧ (∀ c ∈ cols, RouteColumn N3 K (userCapacities P0.loadCapacity) P0.numStops.stops c) ∧
      ∃ rs, P'' = { P' with initialRoutes := rs } := by
  have hN3 : P'.G.toNet = N3 := by rw [S.graph]; rfl
  rw [hN3] at h
  unfold Vrp.initialize at h
  cases hch : P'.chooseInitial N3 cw fuel with
  | error e => simp [hch] at h
  | ok x =>
    cases x with
    | none => simp [hch] at h
    | some rs =>
      simp only [hch] at h
      cases hcv : convertRoutes N3 (capacities P'.loadCapacity.toList) rs with
      | error e => simp [hcv] at h
      | ok cols' =>
        simp only [hcv, Except.ok.injEq, Option.some.injEq, Prod.mk.injEq] at h
        obtain ⟨rfl, rfl⟩ := h
        refine ⟨Solve.C33_initial hcv, ?_, rs, rfl⟩
        rw [S.caps] at hcv
        obtain ⟨hconn, hdirect⟩ := S.depots hP.timeWindows
        obtain ⟨f1, f2, f3, f4, f5, f6, f7, f8, f9, f10, f11⟩ := S.fields
        have hrs : ∀ r ∈ rs, IsSimpleRoute N3 r ∧ WithinStops P0.numStops.stops (stops r).length := by
          by_cases hno : P'.initialRoutes = []
          · have hcostN3 : CostsFor N3 1 := by
              intro u v hv
              rw [S.same.costLength, S.costs u v (S.same.succ u v hv)]
              exact S.typesPos
            obtain ⟨_, _, h3⟩ := initial_facts P' N3 cw S.wfSearch hconn hcostN3 hdirect hcw
              (by rw [S.same.demand]; exact S.demandDepots)
              (by rw [S.same.service]; exact S.serviceDepots hP.service.1 hP.service.2) hno
              (by rw [f3]; exact hP.pickupDelivery) (by rw [S.caps]; exact S.capsPos)
              (by
                intro hpl
                rw [S.caps]
                apply hP.oneCapacity
                simp only [Vrp.plain, f6, Bool.and_eq_true, Bool.not_eq_true'] at hpl
                exact hpl.1.2)
              (by
                intro v hv
                rw [S.caps, S.same.demand]
                apply S.fit
                rw [mem_customers] at hv ⊢
                rw [← S.nodes]
                exact hv) hch
            intro r hr
            obtain ⟨a, b, _⟩ := h3 r hr
            exact ⟨a, S.stops hP.distributionCollection _ b⟩
          · unfold Vrp.chooseInitial at hch
            rw [if_pos hno] at hch
            split at hch
            · cases hch
            · rename_i hck
              simp only [Except.ok.injEq, Option.some.injEq] at hch
              subst hch
              obtain ⟨hgood, _⟩ := (C38_accepts_exactly _ _).1 hck
              intro r hr
              obtain ⟨h1, h2, h3⟩ := hgood r hr
              exact ⟨⟨route_of_walk S.wfSearch h1 h2 h3, (hinit r hr).1⟩, (hinit r hr).2⟩
        intro c hc
        have hall := py_mapM_ok.1 hcv
        obtain ⟨p, hp, hcp⟩ : ∃ p ∈ rs.zipIdx 1, convertRoute N3 (userCapacities P0.loadCapacity) p.2 p.1 = .ok c := by
          obtain ⟨i, hi, rfl⟩ := List.getElem_of_mem hc
          have hri : i < (rs.zipIdx 1).length := by rw [hall.length_eq]; exact hi
          exact ⟨_, List.getElem_mem hri, (List.forall₂_iff_get.1 hall).2 i hri hi⟩
        obtain ⟨hr, hst⟩ := hrs p.1 (List.fst_mem_of_mem_zipIdx hp)
        obtain ⟨_, k, hk, rfl⟩ := convertRoute_ok.1 hcp
        obtain ⟨⟨mid, hmid, _, _⟩, hnd⟩ := id hr
        refine ⟨?_, p.1, hr, ⟨?_, ?_, by simp⟩, hst, ?_⟩
        · rcases firstType_some.1 hk with ⟨_, rfl⟩ | ⟨hlt, _⟩
          · exact S.typesPos
          · cases hm : P0.mixedFleet with
            | false => exact lt_of_lt_of_le hlt ((hP.oneCapacity hm).trans S.typesPos)
            | true =>
              rw [S.typesCaps hm (by intro h0; rw [h0] at hlt; simp at hlt)] at hlt
              exact hlt
        · refine (List.perm_ext_iff_of_nodup (nodup_graphNodes _) hnd).2 (fun v => ?_)
          exact mem_graphNodes_consecutive (by rw [hmid]; simp [routeOf]) v
        · exact graphEdges_perm (consecutive_nodup hnd)
        · intro hne
          rcases firstType_some.1 hk with ⟨h0, _⟩ | ⟨hlt, hle, _⟩
          · exact absurd h0 hne
          · exact ⟨_, List.getElem?_eq_getElem hlt, by simpa [List.getD_eq_getElem?_getD, hlt] using hle⟩

/-- Routes and vehicle types, both numbered from 1, read together. -/
theorem numbered_map {β : Type} (F : List Node → Option Nat → β) (path : Column → List Node) (graphs : List Column) :
    (numbered (graphs.map path)).map (fun p => F p.2 (dget (numbered (graphs.map Column.vehicleType)) p.1)) =
      graphs.map (fun c => F (path c) (some c.vehicleType)) := by
  apply List.ext_getElem?
  intro i
  simp only [numbered, List.getElem?_map, List.getElem?_zipIdx]
  cases hi : graphs[i]? with
  | none => simp
  | some c =>
    have : dget (numbered (graphs.map Column.vehicleType)) (1 + i) = some c.vehicleType := by
      rw [dget_numbered, if_pos (by omega)]
      simp [hi]
    rw [numbered] at this
    simp [this]

theorem mem_numbered_map {path : Column → List Node} {graphs : List Column} {i : Nat} {r : List Node}
    (h : (i, r) ∈ numbered (graphs.map path)) :
    ∃ c ∈ graphs, r = path c ∧ dget (numbered (graphs.map Column.vehicleType)) i = some c.vehicleType := by
  have : (r, dget (numbered (graphs.map Column.vehicleType)) i) ∈ (numbered (graphs.map path)).map
      (fun p => (p.2, dget (numbered (graphs.map Column.vehicleType)) p.1)) := List.mem_map.2 ⟨_, h, rfl⟩
  rw [numbered_map (fun r k => (r, k))] at this
  obtain ⟨c, hc, he⟩ := List.mem_map.1 this
  simp only [Prod.mk.injEq] at he
  exact ⟨c, hc, he.1.symm, he.2.symm⟩

/-- A column stands for a simple route of `G` with the property `F` (which may depend on the vehicle type), or is marked as one
that repeats customers. -/
def Spec.ColumnFor (G : Net) (K : Nat) (F : Nat → List Node → Prop) (c : Column) : Prop :=
  c.vehicleType < K ∧ ((∃ n, c.name = .nonElem n) ∨ ∃ r, IsSimpleRoute G r ∧ Draws c r ∧ F c.vehicleType r)

/-- The routes form a plan for the problem `P` with `K` vehicle types: every route starts at Source, visits different
customers, ends at Sink, drives along arcs of the user's graph (completed with depot arcs), and has the property `F`
for its vehicle type; every customer is on exactly one route or dropped; nothing is dropped without a penalty; at most
(exactly, with `use_all_vehicles`) `num_vehicles[k]` vehicles of type `k` are used. -/
structure Spec.PlanFor (P : Vrp) (K : Nat) (F : Nat → List Node → Prop) (S : Solution) : Prop where
  routes : ∀ i r, (i, r) ∈ S.routes → ∃ mid, r = routeOf mid ∧ mid.Nodup ∧
    (∀ v ∈ mid, (∃ n, v = .cust n) ∧ v ∈ P.G.nodes) ∧ Along (UserArc P.G) r ∧
    ∃ k < K, dget S.types i = some k ∧ F k r
  once : ∀ n, Node.cust n ∈ P.G.nodes → Node.cust n ∉ S.dropped →
    (S.routes.map (fun p => p.2.count (.cust n))).sum = 1
  dropped : ∀ v ∈ S.dropped, (∃ n, v = .cust n) ∧ v ∈ P.G.nodes ∧ ∀ i r, (i, r) ∈ S.routes → v ∉ r
  penalty : P.dropPenalty = 0 → S.dropped = []
  fleet : ∀ k n, (userFleet P.numVehicles)[k]? = some n →
    (S.routes.filter (fun p => dget S.types p.1 = some k)).length ≤ n ∧
    (P.useAllVehicles = true → (S.routes.filter (fun p => dget S.types p.1 = some k)).length = n)

/-- The plan made of the columns that column generation selects, if the first columns and those found by pricing stand for
routes with the property `F`. -/
theorem plan_of_columns {w : World} {a : SolveArgs} {fuel : Nat} {P0 P' : Vrp} {o o' : Obj} {K : Nat} {N N3 : Net}
    {F : Nat → List Node → Prop}
    (hcustomer : ∃ n, Node.cust n ∈ P0.G.nodes) (hperiodic : P0.periodic.getD 0 = 0) (S : Searched P0 P' K N N3)
    (hmaster : ∀ t, MasterSolverSound (w.master t))
    (hpath : ∀ (c : Column) (p : List Node), IsShortestPath c.edges p → IsShortestPath c.edges (w.path c))
    (hinit : ∀ P'' cols, P'.initialize P'.G.toNet w.cw fuel = .ok (some (P'', cols)) → Solve.Numbered cols ∧
      (∀ c ∈ cols, ColumnFor N3 K F c) ∧ ∃ rs, P'' = { P' with initialRoutes := rs })
    (hdive : a.dive = false) (hold : P0.dropPenalty = 0 → o.solution.dropped = [])
    (hprice : ∀ rs stm d cost st1, Solve.Inv stm → (∀ c ∈ stm.cols, ColumnFor N3 K F c) →
      Solve.solveMaster (({ P' with initialRoutes := rs } : Vrp).solveCfg a w.falsy) w.toEnv false stm = .ok (d, cost, st1) →
      Solve.PriceOk (({ P' with initialRoutes := rs } : Vrp).solveCfg a w.falsy) w.toEnv d (ColumnFor N3 K F))
    (h : Obj.columnGeneration w a fuel P' o = .ok (some o')) :
    o'.P.H = some N ∧ PlanFor P0 K F o'.solution ∧
      (P0.minimizeGlobalSpan = false → bestValue N false P0.dropPenalty o'.solution =
        .ok ((userCosts P0 o'.solution).sum + P0.dropPenalty * o'.solution.dropped.length)) ∧
      (P0.minimizeGlobalSpan = true → o'.solution.routes ≠ [] → ∃ m, IsLargest m (userCosts P0 o'.solution) ∧
        bestValue N true P0.dropPenalty o'.solution = .ok (m + P0.dropPenalty * o'.solution.dropped.length)) := by
  unfold Obj.columnGeneration at h
  cases h1 : P'.initialize P'.G.toNet w.cw fuel with
  | error e => simp [h1] at h
  | ok x =>
  cases x with
  | none => simp [h1] at h
  | some x =>
  obtain ⟨P'', cols⟩ := x
  simp only [h1] at h
  obtain ⟨hnum, hgood, rs, rfl⟩ := hinit _ _ h1
  split at h
  · cases h
  rw [hdive] at h
  split at h
  · cases h
  · cases h
  rename_i st f hrun
  have hN3 : P'.G.toNet = N3 := by rw [S.graph]; rfl
  obtain ⟨f1, f2, f3, f4, f5, f6, f7, f8, f9, f10, f11⟩ := S.fields
  have hsize : 2 < N3.nodes.length := by
    obtain ⟨n, hn⟩ := hcustomer
    rw [← S.userNodes, ← S.nodes] at hn
    have hsub : [Node.source, .sink, .cust n].Subperm N3.nodes :=
      List.subperm_of_subset (by simp) (by
        intro v hv
        simp only [List.mem_cons, List.not_mem_nil, or_false] at hv
        rcases hv with rfl | rfl | rfl
        · exact S.wfSearch.source_mem
        · exact S.wfSearch.sink_mem
        · exact hn)
    exact hsub.length_le
  obtain ⟨p, hf, hgr, hdr, hinv, _, hall⟩ := Solve.run_selected
    (Q := ColumnFor N3 K F) (by exact hnum) rfl hgood
    (hprice rs) hmaster (by simpa [Vrp.solveCfg, Vrp.master, hN3] using hsize) hrun
  set M := (({ P' with initialRoutes := rs } : Vrp).solveCfg a w.falsy).M with hM
  have hMG : M.G = N3 := hN3
  have hMper : M.periodic = false := by
    show decide (P'.periodic.getD 0 ≠ 0) = false
    rw [f7, hperiodic]
    rfl
  have hMpen : M.dropPenalty = P0.dropPenalty := f5
  have hpool : PoolOk M.G st.cols := by
    intro c hc
    rw [hMG]
    rcases (hall c hc).2 with hn | ⟨r, hr, hd, _⟩
    · exact Or.inl hn
    · exact Or.inr ⟨r, hr, hd⟩
  have hsel : ∀ c ∈ Master.selected st.cols p, ∃ r, IsSimpleRoute N3 r ∧ Draws c r ∧
      F c.vehicleType r ∧
      c.vehicleType < K ∧ IsShortestPath c.edges (w.path c) ∧ w.path c = r := by
    intro c hc
    have hcol := (Master.mem_selected.1 hc).1
    obtain ⟨hk, hn | ⟨r, hr, hd, hF⟩⟩ := hall c hcol
    · obtain ⟨n, hn⟩ := hn
      have := Master.selected_not_non hf hc
      rw [hn] at this
      exact absurd this (by simp [Master.isNon])
    · obtain ⟨mid, hmid, _, _⟩ := id hr.1
      have hsp : IsShortestPath c.edges r := by
        rw [hmid]
        rw [hmid] at hr hd
        exact (shortest_iff hr.2 (fun e => hd.edges.mem_iff) _).2 rfl
      have hsp' := hpath c r hsp
      exact ⟨r, hr, hd, hF, hk, hsp', Master.path_eq hr hd hsp'⟩
  have hshort : ∀ c ∈ Master.selected st.cols p, IsShortestPath c.edges (w.path c) := by
    intro c hc
    obtain ⟨_, _, _, _, _, h, _⟩ := hsel c hc
    exact h
  obtain ⟨c1, c2, c3, _⟩ := Master.C23_each_customer_once hpool hMper hf hshort
  have hfleet : ∀ k n, M.numVehicles[k]? = some n → _ := fun k n hk => Master.C24_fleet hMper hf hk
  -- the report
  split at h
  · cases h
  rename_i o1 hpost
  simp only [Except.ok.injEq, Option.some.injEq] at h
  subst h
  unfold Obj.postProcess at hpost
  simp only [py_bind_ok] at hpost
  obtain ⟨dropped, hdrop, rt, hrt, sch, _, hpost⟩ := hpost
  simp only [pure, Except.pure, Except.ok.injEq] at hpost
  have hpre : ({ P' with initialRoutes := rs } : Vrp).preassignments = [] := f1
  rw [hpre, hgr] at hrt
  obtain ⟨hr1, hr2⟩ := Master.report_unlocked hrt
  have hdropped : dropped = M.dropped p := by
    unfold Obj.droppedNodes at hdrop
    by_cases h0 : P0.dropPenalty = 0
    · rw [if_neg (by simpa [f5] using h0)] at hdrop
      rw [c3 (by rw [hMpen]; exact h0)]
      simp only [Except.ok.injEq] at hdrop
      rw [← hdrop]
      exact hold h0
    · rw [if_pos (by simpa [f5] using h0), hdr, if_neg (by rw [hMpen]; exact h0)] at hdrop
      simp only [Except.ok.injEq] at hdrop
      exact hdrop.symm
  have hsol : o1.solution = ⟨numbered ((Master.selected st.cols p).map w.path),
      numbered ((Master.selected st.cols p).map Column.vehicleType), M.dropped p⟩ := by
    rw [← hpost, ← hdropped]
    simp only [hr1, hr2]
  have hH : o1.P.H = some N := by
    rw [← hpost]
    exact S.reports
  rw [hsol]
  generalize Master.selected st.cols p = sel at *
  have hmono : ∀ r, IsSimpleRoute N3 r → IsSimpleRoute N r := fun r =>
    isSimpleRoute_mono (fun v hv => by rw [← S.nodes]; exact hv) S.same.succ
  have hcost : ∀ c ∈ sel, Along (fun u v => v ∈ N.succ u ∧ c.vehicleType < (N.cost u v).length) (w.path c) ∧
      Spec.cost N c.vehicleType (w.path c) = legSum (userArcCost P0 c.vehicleType) (w.path c) := by
    intro c hc
    obtain ⟨r, hr, _, _, hk, _, rfl⟩ := hsel c hc
    obtain ⟨⟨mid, _, _, hal⟩, _⟩ := hmono _ hr
    rw [along_iff] at hal
    refine ⟨(along_iff _ _).2 (fun u v huv => ⟨hal u v huv, by rw [S.costs u v (hal u v huv)]; exact hk⟩), ?_⟩
    exact legSum_congr (fun u v huv => S.arcCost u v (hal u v huv) _ hk)
  have hcosts : userCosts P0 ⟨numbered (sel.map w.path), numbered (sel.map Column.vehicleType), M.dropped p⟩ =
      routeCosts N ⟨numbered (sel.map w.path), numbered (sel.map Column.vehicleType), M.dropped p⟩ := by
    rw [Master.routeCosts_numbered]
    unfold userCosts
    refine (numbered_map (fun r k => legSum (userArcCost P0 (k.getD 0)) r) w.path sel).trans ?_
    exact List.map_congr_left (fun c hc => ((hcost c hc).2).symm)
  have hval : ∀ span, (span = true → sel ≠ []) → ∃ v, bestValue N span P0.dropPenalty
      ⟨numbered (sel.map w.path), numbered (sel.map Column.vehicleType), M.dropped p⟩ = .ok v := by
    intro span hne
    refine C26_value_defined ?_ ?_
    · intro i r hir
      obtain ⟨c, hc, rfl, hk⟩ := mem_numbered_map hir
      exact ⟨_, hk, (hcost c hc).1⟩
    · intro hs h0
      refine hne hs ?_
      simpa [numbered] using h0
  refine ⟨hH, ⟨?_, ?_, ?_, ?_, ?_⟩, ?_, ?_⟩
  · intro i r hir
    obtain ⟨c, hc, rfl, hk⟩ := mem_numbered_map hir
    obtain ⟨r, hr, _, hF, hlt, _, hrr⟩ := hsel c hc
    rw [hrr]
    obtain ⟨⟨mid, rfl, hmid, hal⟩, hnd⟩ := hr
    refine ⟨mid, rfl, ?_, ?_, ?_, c.vehicleType, hlt, hk, hF⟩
    · exact (List.nodup_append.1 (List.nodup_cons.1 hnd).2).1
    · intro v hv
      refine ⟨(hmid v hv).1, ?_⟩
      rw [← S.userNodes, ← S.nodes]
      exact (hmid v hv).2
    · rw [along_iff] at hal ⊢
      exact fun u v huv => S.userArcs u v (S.same.succ u v (hal u v huv))
  · intro n hn hnd
    have hc : Node.cust n ∈ M.G.customers.filter (fun v => v ∉ M.dropped p) := by
      rw [List.mem_filter, mem_customers, hMG, S.nodes, S.userNodes]
      exact ⟨⟨hn, by simp, by simp⟩, by simpa using hnd⟩
    have h1 := c1 _ hc
    have h2 := numbered_map (fun r _ => r.count (.cust n)) w.path sel
    simp only at h2 ⊢
    rw [h2, ← h1]
    have : ∀ l : List Column, (l.map (fun c => (w.path c).count (.cust n))).sum =
        ((l.map w.path).flatten.filter (fun x => x = .cust n)).length := by
      intro l
      induction l with
      | nil => rfl
      | cons c l ih =>
        simp only [List.map_cons, List.sum_cons, List.flatten_cons, List.filter_append, List.length_append, ih]
        congr 1
        rw [List.count, List.countP_eq_length_filter]
        congr 2
    exact this sel
  · intro v hv
    have hd : v ∈ M.drops := (Master.mem_dropped.1 hv).1
    have hcu : v ∈ N3.customers := by
      unfold Master.drops at hd
      split at hd
      · simp at hd
      · rw [hMG] at hd
        exact hd
    obtain ⟨e1, e2, e3⟩ := mem_customers.1 hcu
    refine ⟨?_, by rw [← S.userNodes, ← S.nodes]; exact e1, ?_⟩
    · cases v with
      | source => exact absurd rfl e2
      | sink => exact absurd rfl e3
      | cust n => exact ⟨n, rfl⟩
    · intro i r hir
      obtain ⟨c, hc, rfl, _⟩ := mem_numbered_map hir
      exact c2 v hv _ (List.mem_map_of_mem hc)
  · intro h0
    exact c3 (by rw [hMpen]; exact h0)
  · intro k n hkn
    have hMv : M.numVehicles[k]? = some n := by
      rw [← hkn, ← S.fleet hperiodic]
      rfl
    have hlen : ((numbered (sel.map w.path)).filter (fun q => dget (numbered (sel.map Column.vehicleType)) q.1 = some k)).length =
        (sel.filter (fun c => c.vehicleType = k)).length := by
      rw [← List.countP_eq_length_filter, ← List.countP_eq_length_filter]
      have h2 := congrArg (List.countP id) (numbered_map (fun _ t => decide (t = some k)) w.path sel)
      rw [List.countP_map, List.countP_map] at h2
      refine h2.trans ?_
      congr 1
      funext c
      simp
    simp only [hlen]
    obtain ⟨x, y⟩ := hfleet k n hMv
    exact ⟨x, fun h => y (f8.trans h)⟩
  · intro _
    obtain ⟨v, hv⟩ := hval false (fun h => (by cases h))
    rw [hv, (C26_best_value hv).1 rfl, hcosts]
  · intro _ hne
    obtain ⟨v, hv⟩ := hval true (fun _ h0 => hne (by simp [numbered, h0]))
    obtain ⟨m, hm, rfl⟩ := (C26_best_value hv).2 rfl
    exact ⟨m, by rw [hcosts]; exact hm, hv⟩

/-- The load of a route, in the user's terms. -/
theorem load_user {P0 P' : Vrp} {K : Nat} {N N3 : Net} (S : Searched P0 P' K N N3) {mid : List Node}
    (hmid : ∀ v ∈ mid, (∃ n, v = .cust n) ∧ v ∈ P0.G.nodes) :
    load N3 (routeOf mid) = (mid.map (userDemand P0.G)).sum ∧ (stops (routeOf mid)).length = mid.length := by
  have hmidc : ∀ v ∈ mid, v ∈ N.customers := by
    intro v hv
    obtain ⟨⟨n, rfl⟩, hn⟩ := hmid v hv
    exact mem_customers.2 ⟨by rw [S.userNodes]; exact hn, by simp, by simp⟩
  refine ⟨?_, by rw [stops_routeOf hmidc]⟩
  unfold load routeOf
  rw [S.same.demand]
  have : mid.map N.demand = mid.map (userDemand P0.G) := List.map_congr_left (fun v hv => S.demand v (hmidc v hv))
  simp [S.demandDepots, this]

/-- The plan made of the columns that column generation selects, if pricing yields good columns. -/
theorem plan_of_good {w : World} {a : SolveArgs} {fuel : Nat} {P0 P' : Vrp} {o o' : Obj} {K : Nat} {N N3 : Net}
    (hP : Capacitated P0) (S : Searched P0 P' K N N3) (hcw : ∀ x, (w.cw x).Valid)
    (hmaster : ∀ t, MasterSolverSound (w.master t))
    (hpath : ∀ (c : Column) (p : List Node), IsShortestPath c.edges p → IsShortestPath c.edges (w.path c))
    (hinit : ∀ r ∈ P'.initialRoutes, r.Nodup ∧ WithinStops P0.numStops.stops (stops r).length)
    (hdive : a.dive = false) (hold : P0.dropPenalty = 0 → o.solution.dropped = [])
    (hprice : ∀ rs stm d cost st1, Solve.Inv stm →
      (∀ c ∈ stm.cols, GoodColumn N3 K (userCapacities P0.loadCapacity) P0.numStops.stops c) →
      Solve.solveMaster (({ P' with initialRoutes := rs } : Vrp).solveCfg a w.falsy) w.toEnv false stm = .ok (d, cost, st1) →
      Solve.PriceOk (({ P' with initialRoutes := rs } : Vrp).solveCfg a w.falsy) w.toEnv d
        (GoodColumn N3 K (userCapacities P0.loadCapacity) P0.numStops.stops))
    (h : Obj.columnGeneration w a fuel P' o = .ok (some o')) :
    o'.P.H = some N ∧ SolvesProblem P0 K o'.solution ∧
      (P0.minimizeGlobalSpan = false → bestValue N false P0.dropPenalty o'.solution =
        .ok ((userCosts P0 o'.solution).sum + P0.dropPenalty * o'.solution.dropped.length)) ∧
      (P0.minimizeGlobalSpan = true → o'.solution.routes ≠ [] → ∃ m, IsLargest m (userCosts P0 o'.solution) ∧
        bestValue N true P0.dropPenalty o'.solution = .ok (m + P0.dropPenalty * o'.solution.dropped.length)) := by
  obtain ⟨r1, r2, r3⟩ := plan_of_columns (F := fun k r => WithinStops P0.numStops.stops (stops r).length ∧
      WithinCapacity (userCapacities P0.loadCapacity) k (load N3 r)) hP.customer hP.periodic S hmaster hpath
    (fun P'' cols h1 => by
      obtain ⟨b1, b2, b3⟩ := initial_good hP.toCapacitatedData S hcw hinit h1
      exact ⟨b1, fun c hc => (b2 c hc).good, b3⟩) hdive hold hprice h
  refine ⟨r1, ⟨?_, r2.once, r2.dropped, r2.penalty, r2.fleet⟩, r3⟩
  intro i r hir
  obtain ⟨mid, rfl, h1, h2, h3, k, h4, h5, h6, h7⟩ := r2.routes i r hir
  obtain ⟨e1, e2⟩ := load_user S h2
  rw [e1] at h7
  rw [e2] at h6
  exact ⟨mid, rfl, h1, h2, h3, h6, k, h4, h5, h7⟩

theorem GoodColumn.mono {G : Net} {K : Nat} {caps : List ℚ} {l1 l2 : Option Nat} (h : ∀ n, WithinStops l1 n → WithinStops l2 n)
    {c : Column} (hc : GoodColumn G K caps l1 c) : GoodColumn G K caps l2 c := by
  obtain ⟨h1, h2⟩ := hc
  refine ⟨h1, h2.imp_right ?_⟩
  rintro ⟨r, a, b, c, d⟩
  exact ⟨r, a, b, h _ c, d⟩

theorem Solve.PriceOk.mono {cfg : SolveCfg} {env : Env} {d : Duals} {Q Q' : Column → Prop} (hQ : ∀ c, Q c → Q' c)
    (h : PriceOk cfg env d Q) : PriceOk cfg env d Q' :=
  ⟨fun k hk t route cols s cols' hs hp c hc => (h.1 k hk t route cols s cols' hs hp c hc).imp_right (hQ c),
    fun k hk st st' hp c hc => (h.2 k hk st st' hp c hc).imp_right (hQ c)⟩

/-- With pricing by cspy, pricing yields good columns. -/
theorem price_searched {w : World} {a : SolveArgs} {P0 P' : Vrp} {K : Nat} {N N3 : Net}
    (hw : WorldOk w) (hP : CapacitatedData P0) (S : Searched P0 P' K N N3) (hcspy : a.cspy = true) (rs : List (List Node)) (d : Duals) :
    Solve.PriceOk (({ P' with initialRoutes := rs } : Vrp).solveCfg a w.falsy) w.toEnv d
      (GoodColumn N3 K (userCapacities P0.loadCapacity) P0.numStops.stops) := by
  have hN3 : P'.G.toNet = N3 := by rw [S.graph]; rfl
  have hg := Solve.price_good (cfg := ({ P' with initialRoutes := rs } : Vrp).solveCfg a w.falsy) (env := w.toEnv)
    (d := d) hcspy (by show WellFormed P'.G.toNet; rw [hN3]; exact S.wfSearch)
    (by
      show P'.G.toNet.demand .source = 0 ∧ P'.G.toNet.demand .sink = 0
      rw [hN3, S.same.demand]
      exact S.demandDepots)
    (by
      show P'.G.toNet.service .sink = 0
      rw [hN3, S.same.service]
      exact (S.serviceDepots hP.service.1 hP.service.2).2)
    (by
      show ∀ c ∈ capacities P'.loadCapacity.toList, 0 < c
      rw [S.caps]
      exact S.capsPos) hw.cspy hw.paths
  refine hg.mono ?_
  intro c hcg
  have hK : (({ P' with initialRoutes := rs } : Vrp).solveCfg a w.falsy).K = K := by
    show P'.vehicleTypes.getD 0 = K
    rw [S.types]
    rfl
  rw [hK] at hcg
  have hcaps : (({ P' with initialRoutes := rs } : Vrp).solveCfg a w.falsy).caps = userCapacities P0.loadCapacity := S.caps
  have hMG : (({ P' with initialRoutes := rs } : Vrp).solveCfg a w.falsy).M.G = N3 := hN3
  rw [hcaps, hMG] at hcg
  exact GoodColumn.mono (S.stops hP.distributionCollection) hcg

/-- With pricing by cspy, column generation on the network searched returns a plan. -/
theorem plan_of_searched {w : World} {a : SolveArgs} {fuel : Nat} {P0 P' : Vrp} {o o' : Obj} {K : Nat} {N N3 : Net}
    (hw : WorldOk w) (hP : Capacitated P0) (S : Searched P0 P' K N N3) (hdive : a.dive = false) (hcspy : a.cspy = true)
    (hinit : ∀ r ∈ P'.initialRoutes, r.Nodup ∧ WithinStops P0.numStops.stops (stops r).length)
    (hold : P0.dropPenalty = 0 → o.solution.dropped = [])
    (h : Obj.columnGeneration w a fuel P' o = .ok (some o')) :
    o'.P.H = some N ∧ SolvesProblem P0 K o'.solution ∧
      (P0.minimizeGlobalSpan = false → bestValue N false P0.dropPenalty o'.solution =
        .ok ((userCosts P0 o'.solution).sum + P0.dropPenalty * o'.solution.dropped.length)) ∧
      (P0.minimizeGlobalSpan = true → o'.solution.routes ≠ [] → ∃ m, IsLargest m (userCosts P0 o'.solution) ∧
        bestValue N true P0.dropPenalty o'.solution = .ok (m + P0.dropPenalty * o'.solution.dropped.length)) := by
  exact plan_of_good hP S hw.cw hw.master hw.path hinit hdive hold
    (fun rs _ d _ _ _ _ _ => price_searched hw hP.toCapacitatedData S hcspy rs d) h

/-- **C55 (partial).** Let a capacitated problem be handed to the constructor and `solve()` be called with cspy, any pricing
strategy, greedy pricing or not, any limits on iterations and time, possibly with initial routes (without repeated nodes
and within the number of stops), and let it return, however the solvers behave within their contracts.  Then the reported
routes solve the user's problem, and `best_value` is what they cost (their largest cost, with `minimize_global_span`) plus
the penalties for the dropped customers.  What is missing: pricing by LP (`cspy=False`), for which it is false in general
(`C55_lp_counterexample`), see `C55_lp_partial`; and diving. -/
theorem C55_plan_partial {w : World} {a : SolveArgs} {fuel : Nat} {P0 : Vrp} {o o' : Obj} (hw : WorldOk w)
    (hP : Capacitated P0) (hpre : a.preassignments = []) (hdive : a.dive = false) (hheur : a.heuristicOnly = false)
    (hcspy : a.cspy = true)
    (hinit : ∀ r ∈ a.initialRoutes, r.Nodup ∧ WithinStops P0.numStops.stops (stops r).length)
    (hc : Obj.create P0 = .ok o) (h : o.solve w a fuel = .ok (some o')) :
    ∃ K N, (P0.mixedFleet = false → K = 1) ∧ o'.P.H = some N ∧ SolvesProblem P0 K o'.solution ∧
      (P0.minimizeGlobalSpan = false → bestValue N false P0.dropPenalty o'.solution =
        .ok ((userCosts P0 o'.solution).sum + P0.dropPenalty * o'.solution.dropped.length)) ∧
      (P0.minimizeGlobalSpan = true → o'.solution.routes ≠ [] → ∃ m, IsLargest m (userCosts P0 o'.solution) ∧
        bestValue N true P0.dropPenalty o'.solution = .ok (m + P0.dropPenalty * o'.solution.dropped.length)) := by
  unfold Obj.solve at h
  split at h
  · cases h
  rename_i P' hstart
  rw [hheur] at h
  simp only [Bool.false_eq_true, if_false] at h
  obtain ⟨K, N, N3, S⟩ := searched (w := w) hP.wf hP.customer hP.costs hP.demand hpre hc hstart
  have hold : o.solution.dropped = [] := by
    obtain ⟨G, _, rfl⟩ := create_ok hc
    rfl
  refine ⟨K, N, S.typesOne, plan_of_searched hw hP S hdive hcspy ?_ (fun _ => hold) h⟩
  rw [startSolve_initial hc hstart]
  exact hinit

/-! ## An example -/

/-- Two customers with demand 2; driving between them is cheap. -/
def exPlan : Vrp where
  G := {
    nodes := [.source, .cust 1, .cust 2, .sink]
    nd := fun v => if v.isDepot then {} else { demand := some 2 }
    succ := fun u => match u with
      | .source => [.cust 1, .cust 2]
      | .cust 1 => [.cust 2, .sink]
      | .cust 2 => [.sink]
      | _ => []
    ed := fun u v => { cost := some (.scalar (if u = .source ∨ v = .sink then 10 else 1)) } }
  loadCapacity := .one (.int 5)
  fixedCost := .one 3
  numStops := .int 2
  numVehicles := .one 2

theorem exPlan_capacitated : Capacitated exPlan where
  wf := by
    refine ⟨by decide, ?_, ?_⟩
    · intro u; simp only [exPlan]; split <;> decide
    · intro u v hv
      simp only [exPlan] at hv ⊢
      split at hv <;> simp at hv <;> (try rcases hv with rfl | rfl) <;> (try subst hv) <;> decide
  customer := ⟨1, by decide⟩
  costs := fun _ u v _ => ⟨_, Or.inl rfl⟩
  demand := by decide +kernel
  service := by decide +kernel
  timeWindows := rfl
  pickupDelivery := rfl
  distributionCollection := rfl
  periodic := rfl
  oneCapacity := by decide +kernel

open Classical in
/-- Paths as the contract asks for. -/
noncomputable def exPathsOracle : PathsOracle := fun G w beta =>
  if h : WellFormed G then (C15_best_paths_exist h w beta).choose else []

theorem exPathsOracle_ok : PathsOk exPathsOracle := by
  intro G w beta h
  unfold exPathsOracle
  rw [dif_pos h]
  exact (C15_best_paths_exist h w beta).choose_spec

open Classical in
/-- Some shortest path. -/
noncomputable def exSomePath (es : List (Node × Node)) : List Node :=
  if h : ∃ p, IsShortestPath es p then h.choose else []

/-- A path in a column. -/
noncomputable def exPath (c : Column) : List Node :=
  if c.edges = [(.source, .cust 1), (.cust 1, .cust 2), (.cust 2, .sink)] then routeOf [.cust 1, .cust 2]
  else if c.edges = [(.source, .cust 1), (.cust 1, .sink)] then routeOf [.cust 1]
  else if c.edges = [(.source, .cust 2), (.cust 2, .sink)] then routeOf [.cust 2]
  else exSomePath c.edges

theorem exPath_ok (c : Column) (p : List Node) (h : IsShortestPath c.edges p) : IsShortestPath c.edges (exPath c) := by
  unfold exPath
  split
  · rename_i he
    rw [he]
    exact (shortest_iff (L := [.cust 1, .cust 2]) (by decide) (fun e => Iff.rfl) _).2 rfl
  · split
    · rename_i he
      rw [he]
      exact (shortest_iff (L := [.cust 1]) (by decide) (fun e => Iff.rfl) _).2 rfl
    · split
      · rename_i he
        rw [he]
        exact (shortest_iff (L := [.cust 2]) (by decide) (fun e => Iff.rfl) _).2 rfl
      · unfold exSomePath
        rw [dif_pos ⟨p, h⟩]
        exact Exists.choose_spec ⟨p, h⟩

/-- A solver that tries one point: all columns after the first two if there are any, otherwise the first two. -/
def exSolver (prob : LP MVar) : Master.Answer :=
  let pt : MVar → ℚ :=
    if prob.vars.any (fun d => d.var = .y (.elem 3)) then fun x => if x = .y (.elem 3) then 1 else 0
    else fun x => if x = .y (.num 1) ∨ x = .y (.num 2) then 1 else 0
  { optimal := decide ((∀ d ∈ prob.vars, d.Holds pt) ∧ ∀ c ∈ prob.constrs, c.Holds pt), point := pt,
    visitDual := fun v => if v = .cust 1 ∨ v = .cust 2 then 23 else 0, fleetDual := fun _ => 0, spanDual := fun _ => 0 }

theorem exSolver_sound : MasterSolverSound exSolver := by
  intro prob h
  exact feasible_of _ _ (of_decide_eq_true h)

/-- A labelling algorithm that knows the route over both customers. -/
def exLabels (q : Cspy) : Cspy.Oracle :=
  if Node.cust 1 ∈ q.G.succ .source ∧ Node.cust 2 ∈ q.G.succ (.cust 1) ∧ Node.sink ∈ q.G.succ (.cust 2) then
    exOracle q (routeOf [.cust 1, .cust 2])
  else fun _ _ => none

theorem exLabels_sound (q : Cspy) : CspySound q (exLabels q) := by
  unfold exLabels
  split
  · rename_i h
    intro m e c path hp
    unfold exOracle at hp
    split at hp
    · rename_i hc
      simp only [Option.some.injEq, Prod.mk.injEq] at hp
      obtain ⟨rfl, rfl⟩ := hp
      refine ⟨rfl, rfl, ⟨h.1, h.2.1, h.2.2, trivial⟩, rfl, fun _ => by decide, ?_⟩
      simp only [WithinLimits, hc.1, Bool.false_eq_true, if_false]
      exact hc.2
    · cases hp
  · intro m e c path hp
    cases hp

noncomputable def exWorld : World where
  master := fun _ => exSolver
  pricing := fun _ _ => { objective := none, infeasible := true, point := fun _ => 0 }
  cspy := fun _ => exLabels
  paths := fun _ => exPathsOracle
  rand := fun _ _ _ => 0
  negCycle := fun _ _ => true
  timeUp := fun _ => false
  clock := fun _ => { runtime := 0, root := fun _ _ => 1 }
  pick := fun _ => 0
  solvable := fun _ _ => true
  dist := fun _ _ _ => 0
  cw := fun _ => CWOracle.exists_valid.choose
  path := exPath
  schedule := fun _ => (false, fun _ => 0)

theorem exWorld_ok : WorldOk exWorld :=
  ⟨fun _ => CWOracle.exists_valid.choose_spec, fun _ => exLabels_sound, fun _ => exSolver_sound, fun _ => exPathsOracle_ok,
    exPath_ok⟩

/-- The round trips as initial routes. -/
def exArgs : SolveArgs := { initialRoutes := [routeOf [.cust 1], routeOf [.cust 2]] }

/-- Constructor and `solve()`, and what there is to see. -/
def planOf (w : World) (a : SolveArgs) (fuel : Nat) (P : Vrp) : Py (Option Solution) :=
  match Obj.create P with
  | .error e => .error e
  | .ok o =>
    match o.solve w a fuel with
    | .error e => .error e
    | .ok none => .ok none
    | .ok (some o') => .ok (some o'.solution)

/-- All hypotheses of `C55_plan_partial` hold for the example, and column generation finds the better route. -/
example : WorldOk exWorld ∧ Capacitated exPlan ∧
    (∀ r ∈ exArgs.initialRoutes, r.Nodup ∧ WithinStops exPlan.numStops.stops (stops r).length) ∧
    planOf exWorld exArgs 5 exPlan = .ok (some ⟨[(1, routeOf [.cust 1, .cust 2])], [(1, 0)], []⟩) ∧
    userCosts exPlan ⟨[(1, routeOf [.cust 1, .cust 2])], [(1, 0)], []⟩ = [24] := by
  refine ⟨exWorld_ok, exPlan_capacitated, ?_, Solve.eq_ok_of_toOption (by decide +kernel), by decide +kernel⟩
  intro r hr
  have : ∀ r ∈ exArgs.initialRoutes, r.Nodup ∧ (stops r).length ≤ 2 := by decide +kernel
  refine ⟨(this r hr).1, ?_⟩
  intro m hm _
  have hm' : (2 : Nat) = m := by simpa [exPlan, PyVal.stops] using hm
  rw [← hm']
  exact (this r hr).2

end Vrpy
