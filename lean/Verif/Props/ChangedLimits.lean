import Verif.Props.Resolve

/-!
# C37: changing limits between calls to `solve()`
-/

namespace Vrpy

open Spec

/-- Any number of calls that return (without preassignments), and between them assignments to `num_stops`, `load_capacity`
and `duration`. -/
inductive Spec.Changes : Obj → Obj → Prop
  | refl (o : Obj) : Changes o o
  | call {o o1 o2 : Obj} (w : World) (a : SolveArgs) (fuel : Nat) : Changes o o1 → a.preassignments = [] →
      o1.solve w a fuel = .ok (some o2) → Changes o o2
  | set {o o1 : Obj} (numStops : PyVal) (loadCapacity : Arg PyVal) (duration : PyVal) : Changes o o1 →
      (o1.P.mixedFleet = true → loadCapacity.toList ≠ []) →
      Changes o { o1 with P := { o1.P with
        numStops := numStops
        loadCapacity := loadCapacity
        duration := duration } }

/-- What the object keeps of the problem, whatever was called or set. -/
structure Kept (P0 X : Vrp) : Prop where
  wf : X.G.WF
  accepted : AcceptableInput X.G
  connected : ∀ n, Node.cust n ∈ X.G.nodes → Node.cust n ∈ X.G.succ .source ∧ Node.sink ∈ X.G.succ (.cust n)
  costs : CostsAsDocumented X
  nodes : X.G.nodes = P0.G.nodes
  demand : ∀ n, Node.cust n ∈ X.G.nodes → userDemand X.G (.cust n) = userDemand P0.G (.cust n)
  nonneg : ∀ v ∈ X.G.nodes, 0 ≤ userDemand X.G v
  arcs : ∀ u v, v ∈ X.G.succ u → UserArc P0.G u v
  service : (X.G.nd .source).serviceTime.getD 0 = 0 ∧ (X.G.nd .sink).serviceTime.getD 0 = 0
  fields : X.preassignments = [] ∧ X.timeWindows = P0.timeWindows ∧ X.pickupDelivery = P0.pickupDelivery ∧
    X.distributionCollection = P0.distributionCollection ∧ X.dropPenalty = P0.dropPenalty ∧
    X.mixedFleet = P0.mixedFleet ∧ X.periodic = P0.periodic ∧ X.useAllVehicles = P0.useAllVehicles
  fleet : userFleet X.numVehicles = userFleet P0.numVehicles
  types : X.mixedFleet = true → X.loadCapacity.toList ≠ []

/-- Nothing is added to a graph whose customers are joined to both depots. -/
theorem checkVrp_again {G : DiGraph} (hG : G.WF) (hacc : AcceptableInput G)
    (hcon : ∀ n, Node.cust n ∈ G.nodes → Node.cust n ∈ G.succ .source ∧ Node.sink ∈ G.succ (.cust n)) :
    checkVrp G = .ok G := by
  obtain ⟨G', hG'⟩ := (C02_constructor_rejects_exactly G hG).1.2 hacc
  have hsame : ∀ l : List Node, (∀ v ∈ l, v ∈ G.nodes) → l.foldl completeNode G = G := by
    intro l
    induction l with
    | nil => intro _; rfl
    | cons v l ih =>
      intro hl
      have hv : completeNode G v = G := by
        unfold completeNode
        cases v with
        | source => rfl
        | sink => rfl
        | cust n =>
          obtain ⟨h1, h2⟩ := hcon n (hl _ (by simp))
          have h3 : Node.cust n ∈ G.preds .sink := by
            unfold DiGraph.preds
            exact List.mem_filter.2 ⟨hl _ (by simp), decide_eq_true h2⟩
          simp [Node.isDepot, h1, h3]
      rw [List.foldl_cons, hv]
      exact ih (fun x hx => hl x (by simp [hx]))
  have hfold := hsame G.nodes (fun _ h => h)
  have hGG : G' = G := by
    unfold checkVrp at hG'
    simp only [hfold, py_bind_ok] at hG'
    obtain ⟨_, _, _, _, h⟩ := hG'
    split at h
    · cases h
    · split at h
      · cases h
      · cases h
        rfl
  rw [hGG] at hG'
  exact hG'

/-- The call on the object is a first call on the problem the object now stands for. -/
theorem fresh_again {X P'' : Vrp} {dist : DistOracle} {strategy : String} {cspy : Bool} {R : List (List Node)}
    (hpre : X.preassignments = []) (htypes : X.mixedFleet = true → X.loadCapacity.toList ≠ [])
    (hcheck : checkVrp X.G = .ok X.G) (h : X.startSolve dist strategy cspy R [] = .ok P'') :
    ∃ ox, Obj.create X = .ok ox ∧
      ox.P.startSolve dist strategy cspy (if R ≠ [] then R else X.initialRoutes) [] = .ok P'' := by
  refine ⟨_, by unfold Obj.create; rw [hcheck], ?_⟩
  have key : ∀ (Y : Vrp) (k : Option Nat) (l : List Nat) (H : Option Net), (Y.mixedFleet = true → Y.loadCapacity.toList ≠ []) →
      ({ Y with vehicleTypes := k, numVehiclesSchedule := l, H := H } : Vrp).preSolve dist strategy cspy =
        Y.preSolve dist strategy cspy := by
    intro Y k l H hY
    have ht : ({ Y with vehicleTypes := k, numVehiclesSchedule := l, H := H } : Vrp).typesStep = Y.typesStep := by
      unfold Vrp.typesStep
      show (if Y.mixedFleet = true then _ else _) = _
      by_cases hm : Y.mixedFleet = true
      · rw [if_pos hm, if_pos hm]
        show (if Y.scalarInMixed = true then _ else _) = _
        split
        · rfl
        · have hl := hY hm
          unfold Vrp.defineVehicleTypes
          cases hc : Y.loadCapacity with
          | one x => rw [hc] at hl; exact absurd rfl hl
          | many xs =>
            cases xs with
            | nil => rw [hc] at hl; exact absurd rfl hl
            | cons x xs => rfl
      · rw [if_neg hm, if_neg hm]
    unfold Vrp.preSolve
    rw [ht]
    rfl
  have hr : (if (if R ≠ [] then R else X.initialRoutes) ≠ [] then (if R ≠ [] then R else X.initialRoutes) else []) =
      (if R ≠ [] then R else X.initialRoutes) := by
    generalize (if R ≠ [] then R else X.initialRoutes) = r
    by_cases h0 : r = [] <;> simp [h0]
  unfold Vrp.startSolve at h ⊢
  simp only [hr, hpre] at h ⊢
  cases hm : X.mixedFleet with
  | true =>
    simp only [hm, if_true] at h ⊢
    refine Eq.trans ?_ h
    exact key { X with
      mixedFleet := true
      initialRoutes := if R ≠ [] then R else X.initialRoutes
      preassignments := []
      moreRoutes := true } none [] none (fun _ => htypes hm)
  | false =>
    simp only [hm, Bool.false_eq_true, if_false] at h ⊢
    refine Eq.trans ?_ h
    exact key ({ X with
      mixedFleet := false
      initialRoutes := if R ≠ [] then R else X.initialRoutes
      preassignments := []
      moreRoutes := true } : Vrp).format none [] none (fun hf => (by cases hf))

theorem UserArc.kept {P0 X : Vrp} (h : Kept P0 X) {u v : Node} (huv : UserArc X.G u v) : UserArc P0.G u v := by
  rcases huv with h1 | h1
  · exact h.arcs u v h1
  · exact Or.inr h1

/-- The constructor keeps the problem. -/
theorem kept_create {P0 : Vrp} {o : Obj} (hP : Capacitated P0) (htypes : P0.mixedFleet = true → P0.loadCapacity.toList ≠ [])
    (hc : Obj.create P0 = .ok o) : Kept P0 o.P := by
  obtain ⟨G, hG, rfl⟩ := create_ok hc
  obtain ⟨g1, g2, g3, g4, g5, g6, g7, g8, g9, g10, g11, g12⟩ := C01_constructor_completes _ _ hP.wf hG
  have hud : ∀ v, userDemand G v = userDemand P0.G v := fun v => by unfold userDemand; rw [g9]
  exact
    { wf := g1
      accepted := ⟨g2, g3, g4, g5, by
        obtain ⟨n, hn⟩ := hP.customer
        exact Or.inl ⟨n, by show _ ∈ G.nodes; rw [g8]; exact hn⟩, g7⟩
      connected := g6
      costs := fun hm => documented_create hP.wf hG hP.costs hm
      nodes := g8
      demand := fun n _ => hud _
      nonneg := fun v hv => by
        have hv' : v ∈ P0.G.nodes := by rw [← g8]; exact hv
        show 0 ≤ userDemand G v
        rw [hud]
        exact hP.demand v hv'
      arcs := fun u v hv => by
        by_cases h0 : v ∈ P0.G.succ u
        · exact Or.inl h0
        · rcases (g12 u v hv h0).1 with h1 | h1
          · exact Or.inr (Or.inl h1)
          · exact Or.inr (Or.inr (Or.inl h1))
      service := by
        show (G.nd _).serviceTime.getD 0 = 0 ∧ (G.nd _).serviceTime.getD 0 = 0
        rw [g9]
        exact hP.service
      fields := ⟨rfl, rfl, rfl, rfl, rfl, rfl, rfl, rfl⟩
      fleet := rfl
      types := htypes }

/-- The problem the object stands for is capacitated. -/
theorem Kept.capacitated {P0 X : Vrp} (hP : Capacitated P0) (h : Kept P0 X)
    (hone : X.mixedFleet = false → (userCapacities X.loadCapacity).length ≤ 1) : Capacitated X where
  wf := h.wf
  customer := by
    obtain ⟨n, hn⟩ := hP.customer
    exact ⟨n, by rw [h.nodes]; exact hn⟩
  costs := h.costs
  demand := h.nonneg
  service := h.service
  timeWindows := h.fields.2.1.trans hP.timeWindows
  pickupDelivery := h.fields.2.2.1.trans hP.pickupDelivery
  distributionCollection := h.fields.2.2.2.1.trans hP.distributionCollection
  periodic := by rw [h.fields.2.2.2.2.2.2.1]; exact hP.periodic
  oneCapacity := hone

/-- The network searched by a call on the object. -/
theorem Kept.searched {P0 X P'' : Vrp} (hP : Capacitated P0) (h : Kept P0 X) {w : World} {a : SolveArgs}
    (ha : a.preassignments = [])
    (hs : X.startSolve w.dist a.strategy a.cspy a.initialRoutes a.preassignments = .ok P'') :
    ∃ K N N3, Searched X P'' K N N3 := by
  rw [ha] at hs
  obtain ⟨ox, hox, hs'⟩ := fresh_again h.fields.1 h.types (checkVrp_again h.wf h.accepted h.connected) hs
  have hcust : ∃ n, Node.cust n ∈ X.G.nodes := by
    obtain ⟨n, hn⟩ := hP.customer
    exact ⟨n, by rw [h.nodes]; exact hn⟩
  exact Vrpy.searched (w := w) (a := { a with
    initialRoutes := if a.initialRoutes ≠ [] then a.initialRoutes else X.initialRoutes
    preassignments := [] }) h.wf hcust h.costs h.nonneg rfl hox hs'

/-- A call keeps the problem. -/
theorem Kept.call {P0 X P'' : Vrp} (hP : Capacitated P0) (h : Kept P0 X) {w : World} {a : SolveArgs}
    (ha : a.preassignments = [])
    (hs : X.startSolve w.dist a.strategy a.cspy a.initialRoutes a.preassignments = .ok P'') (rs : List (List Node)) :
    Kept P0 { P'' with initialRoutes := rs } := by
  obtain ⟨K, N, N3, S⟩ := h.searched hP ha hs
  obtain ⟨f1, f2, f3, f4, f5, f6, f7, f8, f9, f10, f11⟩ := S.fields
  obtain ⟨k1, k2, k3, k4, k5, k6, k7, k8⟩ := h.fields
  obtain ⟨hcon, hdir⟩ := S.depots (k2.trans hP.timeWindows)
  have hper : X.periodic.getD 0 = 0 := by rw [k7]; exact hP.periodic
  have hG := S.graph
  have hnodes : N3.nodes = X.G.nodes := by rw [S.nodes, S.userNodes]
  obtain ⟨_, _, _, _, _, T⟩ := startSolve_prepared hs
  have hnv : P''.numVehicles = .many P''.numVehicles.toList := by rw [T.result]; rfl
  have hdem : ∀ n, Node.cust n ∈ N3.nodes → N3.demand (.cust n) = userDemand P0.G (.cust n) := by
    intro n hn
    rw [hnodes] at hn
    rw [← h.demand n hn, S.same.demand]
    refine S.demand _ (mem_customers.2 ⟨by rw [S.userNodes]; exact hn, by simp, by simp⟩)
  have hfleet := S.fleet hper
  have hcaps := S.caps
  generalize hPG : P''.G = PG at hG
  subst hG
  refine
    { wf := ?_, accepted := ?_, connected := ?_, costs := ?_, nodes := ?_, demand := ?_, nonneg := ?_, arcs := ?_,
      service := ?_, fields := ⟨f1, f2.trans k2, f3.trans k3, f4.trans k4, f5.trans k5, f6.trans k6, f7.trans k7, f8.trans k8⟩,
      fleet := ?_, types := ?_ }
  all_goals try simp only [hPG]
  · exact ⟨S.wfSearch.nodes_nodup, S.wfSearch.succ_nodup, S.wfSearch.edge_mem⟩
  · refine ⟨S.wfSearch.source_mem, S.wfSearch.sink_mem, S.wfSearch.no_into_source, ?_, Or.inr hdir, ?_⟩
    · intro v hv
      have hv' : v ∈ N3.succ .sink := hv
      rw [S.wfSearch.no_out_of_sink] at hv'
      cases hv'
    · intro u v _ hno
      cases hno
  · exact hcon
  · intro hm u v hv
    have hv' : v ∈ N3.succ u := hv
    have hK : K = 1 := S.typesOne (by rw [← f6]; exact hm)
    have hl := S.costs u v (S.same.succ u v hv')
    rw [← S.same.costLength, hK] at hl
    obtain ⟨c, hc⟩ := List.length_eq_one_iff.1 hl
    refine ⟨c, Or.inr ?_⟩
    show some (Cost.list (N3.cost u v)) = _
    rw [hc]
  · exact hnodes.trans h.nodes
  · exact hdem
  · intro v hv
    show 0 ≤ N3.demand v
    cases v with
    | source => rw [S.same.demand, S.demandDepots.1]
    | sink => rw [S.same.demand, S.demandDepots.2]
    | cust n =>
      have hn : Node.cust n ∈ N3.nodes := hv
      rw [hdem n hn]
      rw [hnodes, h.nodes] at hn
      exact hP.demand _ hn
  · intro u v hv
    exact UserArc.kept h (S.userArcs u v (S.same.succ u v hv))
  · show N3.service .source = 0 ∧ N3.service .sink = 0
    rw [S.same.service]
    exact S.serviceDepots h.service.1 h.service.2
  · rw [hnv]
    exact hfleet.trans h.fleet
  · intro hm h0
    have h0' : P''.loadCapacity.toList = [] := h0
    rw [h0'] at hcaps
    have hm' : X.mixedFleet = true := by rw [← f6]; exact hm
    have ht := h.types hm'
    cases hx : X.loadCapacity with
    | one x => rw [hx] at ht; exact ht rfl
    | many xs =>
      rw [hx] at ht hcaps
      cases xs with
      | nil => exact ht rfl
      | cons x xs => simp [capacities, userCapacities] at hcaps

/-- Without a drop penalty the list of dropped customers stays as it is. -/
theorem solve_dropped {w : World} {a : SolveArgs} {fuel : Nat} {o o' : Obj} (h : o.solve w a fuel = .ok (some o'))
    (hpen : o.P.dropPenalty = 0) : o'.solution.dropped = o.solution.dropped := by
  unfold Obj.solve at h
  cases hs : o.P.startSolve w.dist a.strategy a.cspy a.initialRoutes a.preassignments with
  | error e => simp only [hs] at h; cases h
  | ok P =>
    have hpen' : P.dropPenalty = 0 := by
      obtain ⟨_, _, _, _, _, T⟩ := startSolve_prepared hs
      rw [T.result]
      exact (prepared_fields).2.2.2.2.2.2.2.1.trans hpen
    simp only [hs] at h
    cases hh : a.heuristicOnly with
    | true =>
      simp only [hh, if_true] at h
      cases hc : Obj.clarkeWright w P o with
      | error e => simp only [hc] at h; cases h
      | ok o2 =>
        simp only [hc, Except.ok.injEq, Option.some.injEq] at h
        subst h
        unfold Obj.clarkeWright at hc
        simp only [py_bind_ok] at hc
        obtain ⟨_, _, r, _, hc⟩ := hc
        simp only [pure, Except.pure, Except.ok.injEq] at hc
        rw [← hc]
    | false =>
      simp only [hh, Bool.false_eq_true, if_false] at h
      unfold Obj.columnGeneration at h
      cases hi : P.initialize P.G.toNet w.cw fuel with
      | error e => simp only [hi] at h; cases h
      | ok x =>
        cases x with
        | none => simp only [hi] at h; cases h
        | some y =>
          obtain ⟨P', cols⟩ := y
          have hpen2 : P'.dropPenalty = 0 := by rw [(initialize_object hi).1]; exact hpen'
          simp only [hi] at h
          cases hc : P'.master.create cols with
          | error e => simp only [hc] at h; cases h
          | ok m =>
            simp only [hc] at h
            cases hr : Solve.run (P'.solveCfg a w.falsy) w.toEnv a.dive o.graphs fuel (o.start a P' cols) with
            | error e => simp only [hr] at h; cases h
            | ok z =>
              cases z with
              | none => simp only [hr] at h; cases h
              | some p =>
                obtain ⟨st, f⟩ := p
                simp only [hr] at h
                split at h
                · cases h
                · rename_i o2 hp
                  simp only [Except.ok.injEq, Option.some.injEq] at h
                  subst h
                  unfold Obj.postProcess at hp
                  simp only [py_bind_ok] at hp
                  obtain ⟨d, hd, _, _, _, _, hp⟩ := hp
                  simp only [pure, Except.pure, Except.ok.injEq] at hp
                  unfold Obj.droppedNodes at hd
                  rw [if_neg (by simpa using hpen2)] at hd
                  simp only [Except.ok.injEq] at hd
                  rw [← hp, ← hd]

/-- The problem is kept by all calls and assignments. -/
theorem kept_changes {P0 : Vrp} {o o' : Obj} (hP : Capacitated P0) (htypes : P0.mixedFleet = true → P0.loadCapacity.toList ≠ [])
    (hc : Obj.create P0 = .ok o) (h : Changes o o') : Kept P0 o'.P ∧ (P0.dropPenalty = 0 → o'.solution.dropped = []) := by
  induction h with
  | refl =>
    refine ⟨kept_create hP htypes hc, fun _ => ?_⟩
    obtain ⟨G, _, rfl⟩ := create_ok hc
    rfl
  | call w a fuel _ ha hs ih =>
    obtain ⟨P, hP1, hP2, _⟩ := solve_object hs
    refine ⟨?_, fun h0 => ?_⟩
    · rw [hP2]
      exact ih.1.call hP ha hP1 _
    · rw [solve_dropped hs (by rw [ih.1.fields.2.2.2.2.1]; exact h0)]
      exact ih.2 h0
  | set ns lc d _ hlc ih =>
    refine ⟨?_, ih.2⟩
    obtain ⟨k1, k2, k3, k4, k5, k6, k7, k8, k9, k10, k11, k12⟩ := ih.1
    exact ⟨k1, k2, k3, k4, k5, k6, k7, k8, k9, k10, k11, hlc⟩

/-- **C37 (partial).**  Full claim: after changing `num_stops`, `load_capacity` or `duration` and calling `solve()` again, the
routes respect the new limits.  That is false for `num_stops` and `duration`: routes found under the old limits are kept
as initial routes and used again, see `C37_num_stops_counterexample` and `C37_duration_counterexample`.  Proved: for
capacitated problems and pricing by cspy, after any history of calls and changes, what `solve()` returns solves the
problem of the constructor with the present values of `num_stops` and `load_capacity`, if the initial routes (those of
the call, else those kept in the object) are within the present `num_stops`.  LP pricing and `duration`:
`C37_lp_partial`, `C37_duration_partial`.  Missing: time windows, collection, pickup and delivery. -/
theorem C37_changed_limits_partial {w : World} {a : SolveArgs} {fuel : Nat} {P0 : Vrp} {o o1 o2 : Obj} (hw : WorldOk w)
    (hP : Capacitated P0) (htypes : P0.mixedFleet = true → P0.loadCapacity.toList ≠ [])
    (hc : Obj.create P0 = .ok o) (hist : Changes o o1)
    (hone : P0.mixedFleet = false → (userCapacities o1.P.loadCapacity).length ≤ 1)
    (hpre : a.preassignments = []) (hdive : a.dive = false) (hheur : a.heuristicOnly = false) (hcspy : a.cspy = true)
    (hinit : ∀ r ∈ if a.initialRoutes ≠ [] then a.initialRoutes else o1.P.initialRoutes,
      r.Nodup ∧ WithinStops o1.P.numStops.stops (stops r).length)
    (h : o1.solve w a fuel = .ok (some o2)) :
    ∃ K, (P0.mixedFleet = false → K = 1) ∧ SolvesProblem { P0 with
      numStops := o1.P.numStops
      loadCapacity := o1.P.loadCapacity } K o2.solution := by
  obtain ⟨hk, hold⟩ := kept_changes hP htypes hc hist
  obtain ⟨k1, k2, k3, k4, k5, k6, k7, k8⟩ := hk.fields
  unfold Obj.solve at h
  split at h
  · cases h
  rename_i P' hstart
  rw [hheur] at h
  simp only [Bool.false_eq_true, if_false] at h
  obtain ⟨K, N, N3, S⟩ := hk.searched hP hpre hstart
  have hinit' : P'.initialRoutes = if a.initialRoutes ≠ [] then a.initialRoutes else o1.P.initialRoutes := by
    obtain ⟨_, _, _, _, _, T⟩ := startSolve_prepared hstart
    rw [T.result]
    exact (prepared_fields).2.1
  obtain ⟨_, hsol, _⟩ := plan_of_searched hw (hk.capacitated hP (fun hm => hone (by rw [← k6]; exact hm))) S hdive hcspy
    (by rw [hinit']; exact hinit) (fun h0 => hold (by rw [← k5]; exact h0)) h
  refine ⟨K, fun hm => S.typesOne (k6.trans hm), ?_⟩
  have hsum : ∀ mid : List Node, (∀ v ∈ mid, (∃ n, v = .cust n) ∧ v ∈ o1.P.G.nodes) →
      mid.map (userDemand o1.P.G) = mid.map (userDemand P0.G) := by
    intro mid hmid
    refine List.map_congr_left (fun v hv => ?_)
    obtain ⟨⟨n, rfl⟩, hn⟩ := hmid v hv
    exact hk.demand n hn
  refine ⟨?_, ?_, ?_, ?_, ?_⟩
  · intro i r hr
    obtain ⟨mid, q1, q2, q3, q4, q5, k, q6, q7, q8⟩ := hsol.routes i r hr
    refine ⟨mid, q1, q2, fun v hv => ⟨(q3 v hv).1, ?_⟩, ?_, q5, k, q6, q7, ?_⟩
    · show v ∈ P0.G.nodes
      rw [← hk.nodes]
      exact (q3 v hv).2
    · exact (along_iff _ _).2 (fun x y he => UserArc.kept hk ((along_iff _ _).1 q4 x y he))
    · show WithinCapacity _ _ (mid.map (userDemand P0.G)).sum
      rw [← hsum mid q3]
      exact q8
  · intro n hn hd
    exact hsol.once n (by rw [hk.nodes]; exact hn) hd
  · intro v hv
    obtain ⟨q1, q2, q3⟩ := hsol.dropped v hv
    exact ⟨q1, by show v ∈ P0.G.nodes; rw [← hk.nodes]; exact q2, q3⟩
  · intro h0
    exact hsol.penalty (by rw [k5]; exact h0)
  · intro k n hkn
    have := hsol.fleet k n (by rw [hk.fleet]; exact hkn)
    refine ⟨this.1, fun hu => this.2 (by rw [k8]; exact hu)⟩

end Vrpy
