import Verif.Proofs.Object

/-!
# Pre-processing an object that has been pre-processed before
-/

namespace Vrpy

open Spec

theorem formatCosts_again (N : Net) : formatCosts N.toDiGraph = N.toDiGraph := by
  unfold formatCosts
  congr 1
  funext u v
  split <;> rfl

/-- Setting the defaults a second time changes nothing. -/
theorem updateDummy_again {K : Nat} {N N' : Net}
    (hd : N.demand .source ≤ 0 ∧ N.demand .sink ≤ 0) (hdir : Node.sink ∈ N.succ .source)
    (hup : N.upper .sink = 0 → (∀ u, Node.sink ∈ N.succ u → N.upper u + N.service u + N.time u .sink ≤ 0) ∧
      ∃ u ∈ N.nodes, Node.sink ∈ N.succ u ∧ 0 ≤ N.upper u + N.service u + N.time u .sink)
    (h : updateDummyAttributes K N.toDiGraph = .ok N') : N' = N := by
  have h0 : setZeroAttributes N.toDiGraph = N.toDiGraph := by
    unfold setZeroAttributes
    congr 1
    funext v
    split
    · have key : ¬ (v.isDepot = true ∧ ((N.toDiGraph.nd v).demand.getD 0) > 0) := by
        rintro ⟨k1, k2⟩
        have k2' : N.demand v > 0 := k2
        cases v with
        | source => exact absurd k2' (not_lt.2 hd.1)
        | sink => exact absurd k2' (not_lt.2 hd.2)
        | cust n => exact absurd k1 (by simp [Node.isDepot])
      simp only [zeroAttributes, if_neg key]
      rfl
    · rfl
  have h1 : addSourceSink K N.toDiGraph = N.toDiGraph := by
    unfold addSourceSink
    rw [if_pos (show N.toDiGraph.hasEdge .source .sink = true from decide_eq_true hdir)]
  have h2 : setTimeToZeroIfMissing N.toDiGraph = N.toDiGraph := by
    unfold setTimeToZeroIfMissing
    congr 1
    funext u v
    split <;> rfl
  unfold updateDummyAttributes at h
  rw [h0, h1, h2] at h
  cases hr : readjustSinkTimeWindows N.toDiGraph with
  | error e => rw [hr] at h; cases h
  | ok G' =>
    simp only [hr, Except.ok.injEq] at h
    subst h
    unfold readjustSinkTimeWindows at hr
    split at hr
    · rename_i hz
      have hz' : N.upper .sink = 0 := hz
      obtain ⟨k1, u0, hu0, hu0', k2⟩ := hup hz'
      split at hr
      · cases hr
      · rename_i x xs hl
        cases hr
        have hle : ∀ y ∈ x :: xs, y ≤ 0 := by
          intro y hy
          rw [← hl] at hy
          obtain ⟨u, hu, rfl⟩ := List.mem_map.1 hy
          exact k1 u (of_decide_eq_true (List.mem_filter.1 hu).2)
        have hge : 0 ≤ xs.foldl max x := by
          have hmem : N.upper u0 + N.service u0 + N.time u0 .sink ∈ x :: xs := by
            rw [← hl]
            exact List.mem_map.2 ⟨u0, List.mem_filter.2 ⟨hu0, decide_eq_true hu0'⟩, rfl⟩
          refine k2.trans ?_
          rcases List.mem_cons.1 hmem with h | h
          · rw [h]; exact (le_foldl_max x xs).1
          · exact (le_foldl_max x xs).2 _ h
        have hm : xs.foldl max x = 0 := le_antisymm (hle _ (foldl_max_mem x xs)) hge
        rw [hm]
        have hnd : (N.toDiGraph.setNode .sink { N.toDiGraph.nd .sink with upper := some 0 }) = N.toDiGraph := by
          unfold DiGraph.setNode
          have : (fun u => if u = Node.sink then { N.toDiGraph.nd .sink with upper := some 0 } else N.toDiGraph.nd u)
              = N.toDiGraph.nd := by
            funext u
            by_cases hu : u = .sink
            · subst hu
              rw [if_pos rfl, ← hz']
              rfl
            · rw [if_neg hu]
          rw [this]
        exact (congrArg DiGraph.toNet hnd).trans rfl
    · cases hr
      rfl

/-- If Sink closes at 0 after the defaults are set, then 0 is when the last vehicle can be back. -/
theorem dummy_sink {K : Nat} {G : DiGraph} {N : Net} (hend : ∀ v, v ∉ N.succ .sink)
    (h : updateDummyAttributes K G = .ok N) (h0 : N.upper .sink = 0) :
    ∃ u ∈ N.nodes, Node.sink ∈ N.succ u ∧ 0 ≤ N.upper u + N.service u + N.time u .sink := by
  unfold updateDummyAttributes at h
  generalize setTimeToZeroIfMissing (addSourceSink K (setZeroAttributes G)) = H at h
  cases hr : readjustSinkTimeWindows H with
  | error e => rw [hr] at h; cases h
  | ok G' =>
    simp only [hr, Except.ok.injEq] at h
    subst h
    unfold readjustSinkTimeWindows at hr
    split at hr
    · split at hr
      · cases hr
      · rename_i x xs hl
        cases hr
        have hm : xs.foldl max x = 0 := by
          have : ((H.setNode .sink { H.nd .sink with upper := some (xs.foldl max x) }).nd .sink).upper.getD 0 = 0 := h0
          simpa [DiGraph.setNode] using this
        have := foldl_max_mem x xs
        rw [hm, ← hl] at this
        obtain ⟨u, hu, hu0⟩ := List.mem_map.1 this
        obtain ⟨hu1, hu2⟩ := List.mem_filter.1 hu
        have hu2 : Node.sink ∈ H.succ u := of_decide_eq_true hu2
        have hne : u ≠ .sink := by
          rintro rfl
          exact hend _ hu2
        refine ⟨u, hu1, hu2, ?_⟩
        show 0 ≤ ((H.setNode .sink _).nd u).upper.getD 0 + ((H.setNode .sink _).nd u).serviceTime.getD 0 +
          (H.ed u .sink).time.getD 0
        simp only [DiGraph.setNode, if_neg hne]
        exact hu0.ge
    · rename_i hz
      cases hr
      exact absurd h0 hz

/-- Arcs too heavy for the fleet are gone already. -/
theorem prune_again {N N2 N3 : Net} {caps : List ℚ} (h : pruneGraph N caps false = .ok N2)
    (hs : N3.succ = N2.succ) (hd : N3.demand = N.demand) (hn : N3.nodes = N.nodes) : pruneGraph N3 caps false = .ok N3 := by
  cases caps with
  | nil => rfl
  | cons c cs =>
    simp only [pruneGraph, Bool.false_eq_true, if_false, Except.ok.injEq] at h ⊢
    unfold removeInfeasibleArcsCapacities at h ⊢
    have hnil : N3.edges.filter (fun e => N3.demand e.1 + N3.demand e.2 > maxOf c cs) = [] := by
      rw [List.filter_eq_nil_iff]
      rintro ⟨u, v⟩ he hgt
      have hgt : N3.demand u + N3.demand v > maxOf c cs := of_decide_eq_true hgt
      unfold Net.edges at he
      simp only [List.mem_flatMap, List.mem_map, Prod.mk.injEq] at he
      obtain ⟨u', hu', v', hv', rfl, rfl⟩ := he
      rw [hs, ← h] at hv'
      obtain ⟨h1, h2⟩ := mem_removeEdges.1 hv'
      refine h2 (List.mem_filter.2 ⟨?_, decide_eq_true ?_⟩)
      · unfold Net.edges
        simp only [List.mem_flatMap, List.mem_map, Prod.mk.injEq]
        exact ⟨u', by rw [← hn]; exact hu', v', h1, rfl, rfl⟩
      · rw [← hd]; exact hgt
    rw [hnil]
    unfold Net.removeEdges
    simp

/-- The empty route has its price already. -/
theorem emptyRoute_again {b : Bool} {N2 N3 : Net} (h : emptyRouteStep b N2 = .ok N3) : emptyRouteStep b N3 = .ok N3 := by
  unfold emptyRouteStep at h ⊢
  split at h
  · rename_i hb
    rw [if_pos hb]
    unfold emptyRouteCost at h
    split at h
    · rename_i hh
      cases h
      unfold emptyRouteCost
      rw [if_pos (by exact hh)]
      congr 2
      funext u v
      by_cases huv : u = .source ∧ v = .sink
      · simp [huv]
      · simp [huv]
    · cases h
  · rename_i hb
    rw [if_neg hb]

/-- The bound on the number of stops is not improved any more. -/
theorem stops_again {P P1 : Vrp} {N2 N3 : Net} {s s' : PyVal} (h : stopsStep P N2 = .ok s)
    (h1 : P1.loadCapacity.toList = P.loadCapacity.toList) (h2 : P1.pickupDelivery = P.pickupDelivery)
    (h3 : P1.distributionCollection = P.distributionCollection) (h4 : P1.numStops = s) (hn : N3.nodes = N2.nodes)
    (hd : N3.demand = N2.demand) (hc : N3.collect = N2.collect) (h' : stopsStep P1 N3 = .ok s') : s' = s := by
  unfold stopsStep at h h'
  rw [h1, h2, h3, h4] at h'
  split at h
  · rename_i hcond
    rw [if_pos hcond] at h'
    generalize ((capacities P.loadCapacity.toList).foldl max 0).floor.toNat = q at h h'
    unfold getNumStopsUpperBound at h h'
    have hm : maxNumStops N3 q P.distributionCollection = maxNumStops N2 q P.distributionCollection := by
      unfold maxNumStops
      rw [hn, hd, hc]
    rw [hm] at h'
    cases hmx : maxNumStops N2 q P.distributionCollection with
    | error e => rw [hmx] at h; cases h
    | ok m =>
      rw [hmx] at h h'
      simp only at h h'
      cases hu : P.numStops.stops with
      | none =>
        rw [hu] at h
        simp only [Except.ok.injEq] at h
        subst h
        by_cases h0 : m = 0
        · simpa [PyVal.stops, h0] using h'.symm
        · simpa [PyVal.stops, h0, Nat.pos_of_ne_zero h0] using h'.symm
      | some t =>
        rw [hu] at h
        by_cases ht : t = 0
        · simp only [ht, ne_eq, not_true_eq_false, if_false, Except.ok.injEq] at h
          subst h
          by_cases h0 : m = 0
          · simpa [PyVal.stops, h0] using h'.symm
          · simpa [PyVal.stops, h0, Nat.pos_of_ne_zero h0] using h'.symm
        · simp only [ne_eq, ht, not_false_eq_true, if_true, Except.ok.injEq] at h
          subst h
          by_cases h0 : min m t = 0
          · have : m = 0 := by omega
            simpa [PyVal.stops, this] using h'.symm
          · have h00 : 0 < min m t := Nat.pos_of_ne_zero h0
            have hst : PyVal.stops (.int ((min m t : Nat) : ℤ)) = some (min m t) := by
              have hpos : ((min m t : Nat) : ℤ) > 0 := by exact_mod_cast h00
              simp only [PyVal.stops, if_pos hpos, Int.toNat_natCast]
            rw [hst] at h'
            simp only [ne_eq, h0, not_false_eq_true, if_true, Except.ok.injEq] at h'
            rw [← h', ← min_assoc, min_self]
  · rename_i hcond
    rw [if_neg hcond] at h'
    cases h
    simpa using h'.symm

theorem wrap_again {α : Type} (t : α → Bool) (x : Arg α) : (x.wrap t).wrap t = x.wrap t := by
  cases x with
  | one y => by_cases h : t y = true <;> simp [Arg.wrap, h]
  | many xs => rfl

/-- The fields that the first call leaves behind. -/
theorem formatted_again {dist : DistOracle} {strategy : String} {cspy : Bool} {R Q : List (List Node)} {P P' : Vrp} {G1 : DiGraph}
    {N N1 N2 N3 : Net} (S : PreSolved dist strategy cspy (P.prepared R Q) P' G1 N N1 N2 N3) (R' rs : List (List Node))
    (H : Option Net) (hpre : P'.preassignments = []) (hmore : P'.moreRoutes = true) :
    ({ P' with initialRoutes := rs, H := H } : Vrp).prepared R' [] =
      { P' with initialRoutes := if R' ≠ [] then R' else rs, H := H } := by
  have hres := S.result
  have hmix := (prepared_fields (P := P) (R := R) (Q := Q)).2.2.2.2.2.2.2.2.1
  have h1 : P'.mixedFleet = P.mixedFleet := by rw [hres]; exact hmix
  have h2 : P'.G = N3.toDiGraph := by rw [hres]
  have h3 : P'.numVehicles = .many P'.numVehicles.toList := by rw [hres]; rfl
  unfold Vrp.prepared
  cases hm : P.mixedFleet with
  | true =>
    simp only [ne_eq, not_true_eq_false, if_false, h1, hm, if_true, hpre, hmore]
  | false =>
    have h4 : P'.fixedCost = P.fixedCost.wrap (fun q => q ≠ 0) := by
      rw [hres]
      simp [Vrp.prepared, hm, Vrp.format]
    have h5 : P'.loadCapacity = P.loadCapacity.wrap PyVal.truthy := by
      rw [hres]
      simp [Vrp.prepared, hm, Vrp.format]
    have h6 : P'.fixedCost.wrap (fun q => q ≠ 0) = P'.fixedCost := by rw [h4, wrap_again]
    have h7 : P'.loadCapacity.wrap PyVal.truthy = P'.loadCapacity := by rw [h5, wrap_again]
    have h8 : P'.numVehicles.wrap (fun n => n ≠ 0) = P'.numVehicles := by rw [h3]; rfl
    have h9 : formatCosts P'.G = P'.G := by rw [h2, formatCosts_again]
    simp only [ne_eq, not_true_eq_false, if_false, h1, hm, hpre, Vrp.format, Bool.false_eq_true, h9]
    simp only [ne_eq] at h6 h8
    rw [h6, h7, h8]
    simp only [hmore, hpre, h1, hm]

/-- The vehicle types are the same again. -/
theorem types_again {P P1 : Vrp} {K : Nat} {vt : Option Nat} (h : P.typesStep = .ok (some K))
    (h1 : P1.mixedFleet = P.mixedFleet) (h2 : P1.loadCapacity = P.loadCapacity) (h3 : P1.fixedCost = P.fixedCost)
    (h4 : P1.numVehicles = .many P.numVehicles.toList ∨ P1.numVehicles = .many []) (h5 : P1.vehicleTypes = some K)
    (h' : P1.typesStep = .ok vt) : vt = some K := by
  unfold Vrp.typesStep at h h'
  rw [h1] at h'
  split at h
  · rename_i hm
    rw [if_pos hm] at h'
    split at h
    · cases h
    · split at h'
      · cases h'
      · have hv : Vrp.defineVehicleTypes.vehicles P = .ok (some K) → Vrp.defineVehicleTypes.vehicles P1 = .ok vt → vt = some K := by
          intro k k'
          unfold Vrp.defineVehicleTypes.vehicles at k k'
          rcases h4 with h4 | h4
          · rw [h4, h5] at k'
            cases hn : P.numVehicles with
            | one n =>
              rw [hn] at k'
              simpa [Arg.toList] using k'.symm
            | many xs =>
              rw [hn] at k k'
              cases xs with
              | nil => simpa [Arg.toList] using k'.symm
              | cons x xs =>
                simp only [Arg.toList, Except.ok.injEq] at k k'
                rw [← k, ← k']
          · rw [h4, h5] at k'
            simpa using k'.symm
        have hf : Vrp.defineVehicleTypes.fixed P = .ok (some K) → Vrp.defineVehicleTypes.fixed P1 = .ok vt → vt = some K := by
          intro k k'
          unfold Vrp.defineVehicleTypes.fixed at k k'
          rw [h3] at k'
          cases hn : P.fixedCost with
          | one n =>
            rw [hn] at k k'
            by_cases h0 : n = 0
            · simp only [h0, ne_eq, not_true_eq_false, if_false] at k k'
              exact hv k k'
            · simp [h0] at k
          | many xs =>
            rw [hn] at k k'
            cases xs with
            | nil => exact hv k k'
            | cons x xs =>
              simp only [Except.ok.injEq] at k k'
              rw [← k, ← k']
        unfold Vrp.defineVehicleTypes at h h'
        rw [h2] at h'
        cases hn : P.loadCapacity with
        | one n =>
          rw [hn] at h h'
          by_cases h0 : n.truthy = true
          · simp [h0] at h
          · simp only [h0, Bool.false_eq_true, if_false] at h h'
            exact hf h h'
        | many xs =>
          rw [hn] at h h'
          cases xs with
          | nil => exact hf h h'
          | cons x xs =>
            simp only [Except.ok.injEq] at h h'
            rw [← h, ← h']
  · rename_i hm
    rw [if_neg hm] at h'
    exact (Except.ok.inj h').symm.trans (Except.ok.inj h)

/-- The pre-processing of a second call: nothing changes, apart from the routes given, and that the reports now use the
pruned graph. -/
theorem startSolve_again {w : World} {dist : DistOracle} {a : SolveArgs} {P0 P' P'' : Vrp} {o : Obj} {strategy : String}
    {cspy : Bool} {R rs : List (List Node)} {H : Option Net}
    (hwf : P0.G.WF) (hcust : ∃ n, Node.cust n ∈ P0.G.nodes)
    (hdoc : CostsAsDocumented P0) (hdem : ∀ v ∈ P0.G.nodes, 0 ≤ userDemand P0.G v) (hpre : a.preassignments = [])
    (htw : P0.timeWindows = false) (hfc : P0.fixedCost = .one 0 ∨ P0.fixedCost = .many [])
    (hper : P0.periodic.getD 0 = 0 ∨ userFleet P0.numVehicles = [])
    (hc : Obj.create P0 = .ok o)
    (h : o.P.startSolve w.dist a.strategy a.cspy a.initialRoutes a.preassignments = .ok P')
    (h' : ({ P' with initialRoutes := rs, H := H } : Vrp).startSolve dist strategy cspy R [] = .ok P'') :
    P'' = { P' with initialRoutes := if R ≠ [] then R else rs, H := some P'.G.toNet } := by
  obtain ⟨K, N, N3, S⟩ := searched hwf hcust hdoc hdem hpre hc h
  obtain ⟨hcon3, hdir3⟩ := S.depots htw
  obtain ⟨G, hG, rfl⟩ := create_ok hc
  obtain ⟨G1, N', N1, N2, N3', T⟩ := startSolve_prepared h
  obtain ⟨H1, M, M1, M2, M3, U⟩ := startSolve_prepared h'
  rw [formatted_again T R rs H S.fields.1 S.fields.2.2.2.2.2.2.2.2.2.1] at U
  have hres := T.result
  have hN' : N' = N := by
    have : P'.H = some N' := by rw [hres]
    rw [S.reports] at this
    exact (Option.some.inj this).symm
  subst hN'
  have hN3' : N3' = N3 := by
    have : P'.G = N3'.toDiGraph := by rw [hres]
    rw [S.graph] at this
    have := congrArg DiGraph.toNet this
    exact this.symm
  subst hN3'
  obtain ⟨f1, f2, f3, f4, f5, f6, f7, f8, f9, f10, f11, f12, f13, f14⟩ :=
    prepared_fields (P := { P0 with
      G := G
      numVehiclesSchedule := []
      vehicleTypes := none
      initialRoutes := []
      preassignments := []
      moreRoutes := false
      H := none }) (R := a.initialRoutes) (Q := a.preassignments)
  have hfleet := prepared_fleet T.vt
  have hcaps := (prepared_capacities T).1
  generalize hPP : Vrp.prepared _ a.initialRoutes a.preassignments = PP at *
  -- the fields of the first result
  have e1 : P'.fixedCost = PP.fixedCost := by rw [hres]
  have e2 : P'.loadCapacity = PP.loadCapacity := by rw [hres]
  have e3 : P'.mixedFleet = PP.mixedFleet := by rw [hres]
  have e4 : P'.periodic = PP.periodic := by rw [hres]
  have e5 : P'.numVehicles = .many PP.numVehicles.toList ∧ P'.numVehiclesSchedule = [] := by
    have hno : ¬ (PP.periodic.getD 0 ≠ 0 ∧ PP.numVehicles.toList ≠ []) := by
      rw [f10, hfleet]
      rintro ⟨k1, k2⟩
      rcases hper with hp | hp
      · exact k1 hp
      · exact k2 hp
    rw [hres]
    simp only [checkPeriodicNumVehicles, if_neg hno, and_self]
  have e6 : PP.fixedCost.toList = [] := by
    rw [← hPP]
    unfold Vrp.prepared
    cases hm : P0.mixedFleet with
    | true => rcases hfc with hf | hf <;> simp [hf, Arg.toList]
    | false => rcases hfc with hf | hf <;> simp [hf, Arg.toList, Vrp.format, Arg.wrap]
  have hno' : ¬ (P'.periodic.getD 0 ≠ 0 ∧ P'.numVehicles.toList ≠ []) := by
    rw [e4, f10, e5.1]
    show ¬ (_ ∧ PP.numVehicles.toList ≠ [])
    rw [hfleet]
    rintro ⟨k1, k2⟩
    rcases hper with hp | hp
    · exact k1 hp
    · exact k2 hp
  -- the vehicle types
  have hvt1 := T.vt
  rw [S.types] at hvt1
  have ht : P''.vehicleTypes = P'.vehicleTypes := by
    rw [S.types]
    exact types_again hvt1 e3 e2 e1 (Or.inl e5.1) S.types U.vt
  -- the graph with its attributes
  have hfix := U.fixed
  simp only [e1, e6, fixedStep, ne_eq, not_true_eq_false, if_false, Except.ok.injEq] at hfix
  subst hfix
  have hdum := U.dummy
  rw [show ({ P' with initialRoutes := if R ≠ [] then R else rs, H := H } : Vrp).G = N3'.toDiGraph from S.graph] at hdum
  obtain ⟨c0x, N2x, _, hprx, hemx⟩ := S.pruned
  rw [htw] at hprx
  have hupper : N3'.upper = N'.upper := by
    have u1 : N2x.upper = N'.upper := by
      cases hcs : userCapacities P0.loadCapacity with
      | nil =>
        rw [hcs] at hprx
        simp only [pruneGraph, Bool.false_eq_true, if_false, Except.ok.injEq] at hprx
        rw [← hprx]
      | cons c cs =>
        rw [hcs] at hprx
        simp only [pruneGraph, Bool.false_eq_true, if_false, Except.ok.injEq] at hprx
        rw [← hprx]
        rfl
    have u2 : N3'.upper = N2x.upper := by
      unfold emptyRouteStep at hemx
      split at hemx
      · unfold emptyRouteCost at hemx
        split at hemx
        · cases hemx; rfl
        · cases hemx
      · cases hemx; rfl
    rw [u2, u1]
  have hM : M = N3' := by
    refine updateDummy_again ?_ hdir3 ?_ hdum
    · rw [S.same.demand]
      exact ⟨S.demandDepots.1.le, S.demandDepots.2.le⟩
    · intro hz
      rw [hupper] at hz ⊢
      rw [S.same.service, S.same.time]
      refine ⟨fun u hu => S.sinkUpper hz u (S.same.succ u _ hu), ?_⟩
      obtain ⟨u, hu, hu', hu0⟩ := dummy_sink (fun v => by rw [S.wf.no_out_of_sink]; simp) T.dummy hz
      refine ⟨u, by rw [S.nodes]; exact hu, ?_, hu0⟩
      cases u with
      | source => exact hdir3
      | sink => rw [S.wf.no_out_of_sink] at hu'; simp at hu'
      | cust n => exact (hcon3 n (by rw [S.nodes]; exact hu)).2
  subst hM
  have hlock := U.locked
  simp only [S.fields.1, lockStep, ne_eq, not_true_eq_false, if_false, Except.ok.injEq] at hlock
  subst hlock
  have hprune := U.pruned
  have hcap' : capacities P'.loadCapacity.toList = userCapacities P0.loadCapacity := S.caps
  have hM2 : M2 = M := by
    have hlc : ¬ PP.loadCapacity = .many [] := by
      intro hl
      have := T.pruned
      simp [pruneStep, hl] at this
    unfold pruneStep at hprune
    simp only [e2, if_neg hlc] at hprune
    rw [← e2, hcap', S.fields.2.1, htw] at hprune
    obtain ⟨s1, s2, s3, s4⟩ := emptyRouteStep_same hemx
    have := prune_again (N3 := M) hprx s3 S.same.demand S.nodes
    rw [this] at hprune
    exact (Except.ok.inj hprune).symm
  subst hM2
  have hM3 : M3 = M2 := by
    have := emptyRoute_again hemx
    have hu := U.emptyRoute
    simp only [S.fields.2.2.2.2.2.2.2.1] at hu
    rw [this] at hu
    exact (Except.ok.inj hu).symm
  subst hM3
  have hstops : P''.numStops = P'.numStops := by
    obtain ⟨s1, s2, _⟩ := emptyRouteStep_same T.emptyRoute
    refine stops_again (P := PP) T.stops ?_ ?_ ?_ rfl s2 s1.demand s1.collect U.stops
    · rw [hres]
    · rw [hres]
    · rw [hres]
  rw [U.result, ht, hstops]
  simp only [checkPeriodicNumVehicles, if_neg hno', e5.2, S.fields.1, S.fields.2.2.2.2.2.2.2.2.2.1]
  have hG : P'.G = M3.toDiGraph := S.graph
  have hG2 : P'.G.toNet = M3 := by rw [hG]; rfl
  rw [hG2, ← hG]
  have hnv : Arg.many P'.numVehicles.toList = P'.numVehicles := by rw [e5.1]; rfl
  rw [hnv]
  simp

/-- The result of the pre-processing does not depend on the routes given, nor on the checks. -/
theorem startSolve_det {d1 d2 : DistOracle} {s1 s2 : String} {c1 c2 : Bool} {R1 R2 Q : List (List Node)} {P P1 P2 : Vrp}
    (h1 : P.startSolve d1 s1 c1 R1 Q = .ok P1) (h2 : P.startSolve d2 s2 c2 R2 Q = .ok P2) :
    P2 = { P1 with initialRoutes := P2.initialRoutes } := by
  obtain ⟨G1, N, N1, N2, N3, S⟩ := startSolve_prepared h1
  obtain ⟨G1', N', N1', N2', N3', T⟩ := startSolve_prepared h2
  have hp : P.prepared R2 Q = { P.prepared R1 Q with initialRoutes := (P.prepared R2 Q).initialRoutes } := by
    unfold Vrp.prepared
    simp only
    split <;> rfl
  generalize P.prepared R1 Q = X at *
  generalize P.prepared R2 Q = Y at *
  have hvt : P2.vehicleTypes = P1.vehicleTypes := by
    have h := T.vt
    rw [hp] at h
    have h' : X.typesStep = .ok P2.vehicleTypes := h
    rw [S.vt] at h'
    exact (Except.ok.inj h').symm
  have hG : G1' = G1 := by
    have h := T.fixed
    rw [hp, hvt] at h
    exact (Except.ok.inj (S.fixed.symm.trans h)).symm
  subst hG
  have hN : N' = N := by
    have h := T.dummy
    rw [hvt] at h
    exact (Except.ok.inj (S.dummy.symm.trans h)).symm
  subst hN
  have hN1 : N1' = N1 := by
    have h := T.locked
    rw [hp, hvt] at h
    exact (Except.ok.inj (S.locked.symm.trans h)).symm
  subst hN1
  have hN2 : N2' = N2 := by
    have h := T.pruned
    rw [hp] at h
    exact (Except.ok.inj (S.pruned.symm.trans h)).symm
  subst hN2
  have hN3 : N3' = N3 := by
    have h := T.emptyRoute
    rw [hp] at h
    exact (Except.ok.inj (S.emptyRoute.symm.trans h)).symm
  subst hN3
  have hst : P2.numStops = P1.numStops := by
    have h := T.stops
    rw [hp] at h
    exact (Except.ok.inj (S.stops.symm.trans h)).symm
  have e := T.result
  have e' := S.result
  have ei : P2.initialRoutes = Y.initialRoutes := by rw [e]
  rw [ei]
  rw [hvt, hst, hp] at e
  generalize P1.vehicleTypes = k at *
  generalize P1.numStops = n at *
  rw [e, e']

end Vrpy
