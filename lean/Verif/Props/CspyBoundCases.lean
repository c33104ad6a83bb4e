import Verif.Props.EndToEndBoundCspy
import Verif.Props.EndToEndBoundCases
import Verif.Proofs.ExactCspy
import Verif.Proofs.ExampleWorld

/-!
# Cases for C72, C73, and C70 with cspy
-/

namespace Vrpy

open Spec

/-! ## Two searches -/

/-- Two customers, arcs in both directions between them; at most three stops. -/
def exSearch (fromSource : ℚ) : Cspy where
  G := {
    nodes := [.source, .cust 1, .cust 2, .sink]
    succ := fun u => match u with
      | .source => [.cust 1]
      | .cust 1 => [.cust 2, .sink]
      | .cust 2 => [.cust 1, .sink]
      | _ => []
    cost := fun _ _ => [1] }
  weight := fun u v => if u = .source then fromSource else if v = .sink then 1 else -2
  numStops := some 3

/-- The column of a path. -/
def columnOf (n : ColName) (p : List Node) : Column where
  name := n
  path := some p
  nodes := graphNodes (consecutive p)
  edges := graphEdges (consecutive p)
  cost := 0
  vehicleType := 0

/-- A path that visits the first customer twice. -/
def exTwice : Column := columnOf (.nonElem 1) [.source, .cust 1, .cust 2, .cust 1, .sink]

/-- The outcome without the columns. -/
def foundNames (r : Py (List Column × Bool)) : Option (List ColName × Bool) :=
  match r with
  | .ok (cols, more) => some (cols.map Column.name, more)
  | .error _ => none

/-- The hypotheses of `C72_two_searches` hold in all three cases: the first search finds a new path with a customer twice;
that path is in the pool and the second search finds a route; the second search finds nothing. -/
example : foundNames ((exSearch (-2)).solve true [.cust 1, .cust 2] (exSearch (-2)).exactLabels []) = some ([.nonElem 1], true) ∧
    foundNames ((exSearch (-2)).solve true [.cust 1, .cust 2] (exSearch (-2)).exactLabels [exTwice]) =
      some ([.nonElem 1, .elem 2], true) ∧
    foundNames ((exSearch 2).solve true [.cust 1, .cust 2] (exSearch 2).exactLabels [exTwice]) = some ([.nonElem 1], false) := by
  decide +kernel

theorem exSearch_wf (x : ℚ) : WellFormed (exSearch x).G where
  nodes_nodup := by simp [exSearch]
  succ_nodup := by intro u; simp only [exSearch]; split <;> decide
  edge_mem := by
    intro u v hv
    simp only [exSearch] at hv ⊢
    split at hv <;> simp at hv <;> (try rcases hv with rfl | rfl) <;> (try subst hv) <;> decide
  source_mem := by simp [exSearch]
  sink_mem := by simp [exSearch]
  no_into_source := by
    intro u hv
    simp only [exSearch] at hv
    split at hv <;> simp at hv
  no_out_of_sink := rfl

theorem foundNames_nothing {r : Py (List Column × Bool)} {cols : List Column} {names : List ColName}
    (h : foundNames r = some (names, false)) (hr : ∀ cols', r = .ok (cols', false) → cols' = cols) : r = .ok (cols, false) := by
  unfold foundNames at h
  split at h
  · rename_i cols' more
    simp only [Option.some.injEq, Prod.mk.injEq] at h
    obtain ⟨_, rfl⟩ := h
    rw [hr cols' rfl]
  · cases h

/-- All hypotheses of `C73_no_route_left_partial` hold for the third case: no simple route has a negative weight there, although
the path in the pool does. -/
example {r : List Node} (hr : IsSimpleRoute (exSearch 2).G r) (m : Res) (hm : (exSearch 2).formulate = .ok m)
    (hlim : WithinLimits (exSearch 2) m r) : -(1 / 1000) ≤ legSum (exSearch 2).weight r := by
  refine C73_no_route_left_partial (cols' := [exTwice]) (cols := [exTwice]) (keys := [.cust 1, .cust 2])
    (oracle := (exSearch 2).exactLabels) (exSearch_wf 2) (Cspy.exactLabels_sound _) (Cspy.exactLabels_finds _) hm ?_ ?_ hr hlim
  · intro c hc p hp he
    rw [List.mem_singleton] at hc
    subst hc
    have hmem := Net.mem_routes (exSearch_wf 2) hp
    have : ∀ p ∈ (exSearch 2).G.routes, exTwice.edges ≠ graphEdges (consecutive p) := by decide +kernel
    exact absurd he (this p hmem)
  · refine foundNames_nothing (names := [.nonElem 1]) (by decide +kernel) ?_
    intro cols' h
    exact ((C72_two_searches hm h).2 rfl).1

/-! ## C70 with cspy -/

/-- A test for `ColumnsPriced`. -/
def columnsPriced (M : Master) (cols : List Column) (a : Master.Answer) : Bool :=
  cols.all (fun c => decide (((c.nodes.filter (fun v => v ≠ .source ∧ v ≠ .sink)).map a.visitDual).sum +
    (if c.vehicleType < M.numVehicles.length then a.fleetDual c.vehicleType else 0) ≤ c.cost))

theorem sum_stops {c : Column} {r : List Node} (h : Draws c r) (f : Node → ℚ) :
    ((stops r).map f).sum = ((c.nodes.filter (fun v => v ≠ .source ∧ v ≠ .sink)).map f).sum :=
  ((h.nodes.filter _).map f).sum_eq.symm

theorem columnsPriced_ok {M : Master} {cols : List Column} {a : Master.Answer} (h : columnsPriced M cols a = true) :
    ColumnsPriced M cols a := by
  intro c hc r hr
  have := List.all_eq_true.1 h c hc
  rw [sum_stops hr]
  exact of_decide_eq_true this

/-- The test holds for the answers of the solver in all states on the way. -/
def onTheWay (w : World) (a : SolveArgs) (n : Nat) (P : Vrp) (p : Master → List Column → Master.Answer → Bool) : Bool :=
  match Obj.create P with
  | .error _ => false
  | .ok o =>
    match o.P.startSolve w.dist a.strategy a.cspy a.initialRoutes a.preassignments with
    | .error _ => false
    | .ok P' =>
      decide (P'.initialRoutes ≠ []) && match P'.initialize P'.G.toNet w.cw 0 with
      | .ok (some (P'', cols)) => Solve.allStates (P''.solveCfg a w.falsy) w.toEnv
          (fun st => p P''.master st.mcols (w.master st.tick (P''.master.lp st.mcols true))) n (o.start a P'' cols)
      | _ => false

theorem onTheWay_ok {w : World} {a : SolveArgs} {n : Nat} {P : Vrp} {p : Master → List Column → Master.Answer → Bool}
    (hok : onTheWay w a n P p = true) {o : Obj} (ho : Obj.create P = .ok o) {P' P'' : Vrp} {fuel m : Nat} {cols : List Column}
    {stm : SolveState} (h1 : o.P.startSolve w.dist a.strategy a.cspy a.initialRoutes a.preassignments = .ok P')
    (h2 : P'.initialize P'.G.toNet w.cw fuel = .ok (some (P'', cols)))
    (ht : Solve.Trace (P''.solveCfg a w.falsy) w.toEnv false (o.start a P'' cols) m stm) :
    p P''.master stm.mcols (w.master stm.tick (P''.master.lp stm.mcols true)) = true := by
  unfold onTheWay at hok
  rw [ho] at hok
  simp only [h1, Bool.and_eq_true, decide_eq_true_eq] at hok
  have h2' : P'.initialize P'.G.toNet w.cw 0 = .ok (some (P'', cols)) := by
    rw [← h2]
    unfold Vrp.initialize Vrp.chooseInitial
    simp only [hok.1, ne_eq, not_false_eq_true, if_true]
  rw [h2'] at hok
  exact Solve.Trace.allStates hok.2 ht

/-- The world with an exact labelling algorithm and a solver that knows some points and dual values. -/
noncomputable def cspyWorld (pts : List (MVar → ℚ)) (dual : LP MVar → Node → ℚ) : World :=
  { lpWorld pts dual [] with cspy := fun _ q => q.exactLabels }

theorem cspyWorld_ok (pts : List (MVar → ℚ)) (dual : LP MVar → Node → ℚ) :
    WorldOk (cspyWorld pts dual) ∧ ∀ t q, CspyFinds q ((cspyWorld pts dual).cspy t q) :=
  ⟨⟨exWorld_ok.cw, fun _ => Cspy.exactLabels_sound, fun _ => masterOf_sound _ _, exWorld_ok.paths, routePath_ok⟩,
    fun _ => Cspy.exactLabels_finds⟩

/-- The point that selects the given columns. -/
def picking (names : List ColName) : MVar → ℚ := fun x => if ∃ n ∈ names, x = .y n then 1 else 0

/-- Is there such a column? -/
def hasColumn (n : ColName) (prob : LP MVar) : Bool := prob.vars.any (fun d => d.var = .y n)

/-- First the round trips, with dual values 23 each; then the third column, with dual values 12 each. -/
noncomputable def exBoundWorld : World :=
  cspyWorld [picking [.elem 3], picking [.num 1, .num 2]] (fun prob _ => if hasColumn (.elem 3) prob then 12 else 23)

def exBoundArgs : SolveArgs := { exArgs with strategy := "Exact" }

theorem Spec.Capacitated.cspyData {P : Vrp} (h : Capacitated P) : CspyData P :=
  ⟨fun hf => absurd (h.timeWindows.symm.trans hf) (by simp), fun hf => absurd (h.distributionCollection.symm.trans hf) (by simp),
    fun hf => absurd (h.distributionCollection.symm.trans hf) (by simp),
    fun hf => absurd (h.distributionCollection.symm.trans hf) (by simp)⟩

/-- All hypotheses of `C70_cspy_partial` hold for the example; the first lower bound is 46, the last one 24. -/
example : ∃ K, ∀ S, SolvesWithin exPlan K S → 24 ≤ (userCosts exPlan S).sum + 1 / 1000 * S.routes.length := by
  have hok : onTheWay exBoundWorld exBoundArgs 5 exPlan (fun M cols a => dualsProve M cols a && columnsPriced M cols a) = true := by
    decide +kernel
  have hleft : leftBehind exBoundWorld exBoundArgs 5 exPlan = some ([46, 24], 0, 2) := by decide +kernel
  unfold leftBehind at hleft
  split at hleft
  · cases hleft
  rename_i o ho
  split at hleft
  · rename_i o' hsolve
    simp only [Option.some.injEq, Prod.mk.injEq] at hleft
    obtain ⟨K, bound, _, hb, hS⟩ := C70_cspy_partial (a := exBoundArgs) (cspyWorld_ok _ _).1 (cspyWorld_ok _ _).2
      exPlan_capacitated.deliveries exPlan_nonnegative (exPlan_capacitated.cspyData) (by simp [exPlan]) rfl (by decide +kernel)
      (Or.inl (by decide +kernel)) rfl rfl rfl rfl rfl
      (by decide) ho (by
        intro P' P'' fuel cols m stm h1 h2 ht _
        have := onTheWay_ok hok ho h1 h2 ht
        simp only [Bool.and_eq_true] at this
        exact ⟨dualsProve_ok this.1, columnsPriced_ok this.2⟩) hsolve (Or.inl ⟨rfl, by rw [hleft.2.1]; decide⟩) (Or.inl rfl) (fun _ => rfl)
    rw [hleft.1] at hb
    simp only [List.getLast?_cons_cons, List.getLast?_singleton, Option.some.injEq] at hb
    subst hb
    refine ⟨K, fun S hSol => ?_⟩
    have := hS S hSol (fun hf => (by cases hf))
    have hp : exPlan.dropPenalty = 0 := rfl
    rw [hp] at this
    linarith
  · cases hleft

/-- The same with time windows and, possibly, goods to be collected; the second customer must be visited after the first one. -/
def exTimedBound (dc : Bool) : Vrp where
  G := { exPlan.G with
    nd := fun v => match v with
      | .source => { lower := some 0, upper := some 10 }
      | .sink => { lower := some 0, upper := some 20 }
      | .cust 1 => { demand := some 2, collect := some 3, lower := some 1, upper := some 4, serviceTime := some 1 }
      | .cust _ => { demand := some 2, collect := some 2, lower := some 5, upper := some 8, serviceTime := some 1 }
    ed := fun u v => { cost := some (.scalar (if u = .source ∨ v = .sink then 10 else 1)), time := some 1 } }
  loadCapacity := .one (.int 5)
  fixedCost := .one 3
  numStops := .int 2
  numVehicles := .one 2
  timeWindows := true
  distributionCollection := dc

theorem exTimedBound_deliveries (dc : Bool) : Deliveries (exTimedBound dc) where
  wf := ⟨exPlan_capacitated.wf.1, exPlan_capacitated.wf.2, exPlan_capacitated.wf.3⟩
  customer := ⟨1, by cases dc <;> decide⟩
  costs := fun _ u v _ => ⟨_, Or.inl rfl⟩
  demand := by cases dc <;> decide +kernel
  service := by cases dc <;> decide +kernel
  collect := by
    intro _
    cases dc <;> decide +kernel
  times := by
    intro _
    refine ⟨by cases dc <;> decide +kernel, ?_, ?_, by cases dc <;> decide +kernel, ?_⟩
    · intro m n h
      simp only [exTimedBound, exPlan] at h
      split at h <;> simp_all <;> cases dc <;> decide +kernel
    · intro m n h
      simp only [exTimedBound, exPlan] at h
      split at h <;> simp_all <;> cases dc <;> decide +kernel
    · intro h
      exact absurd h (by cases dc <;> decide +kernel)
  pickupDelivery := rfl
  periodic := rfl

theorem exTimedBound_nonnegative (dc : Bool) : NonnegativeData (exTimedBound dc) where
  service := by cases dc <;> decide +kernel
  time := fun _ _ _ => by simp [exTimedBound]
  cost := exPlan_nonnegative.cost

theorem exTimedBound_cspy : CspyData (exTimedBound true) where
  windows := fun _ => by decide +kernel
  capacity := fun _ => by decide +kernel
  opening := fun _ h => (by cases h)
  service := fun _ h => (by cases h)

/-- The conditions on the data of `C70_lower_bound_partial` hold for the example with time windows. -/
example : Deliveries (exTimedBound false) ∧ (exTimedBound false).G.nodes.head? = some .source ∧ WindowsWide (exTimedBound false) := by
  refine ⟨exTimedBound_deliveries false, rfl, by decide +kernel, ?_, by decide +kernel, by decide +kernel, ?_, ?_⟩
  · intro n hn
    have : n = 1 ∨ n = 2 := by simpa [exTimedBound, exPlan] using hn
    rcases this with rfl | rfl
    · show ∀ p ∈ userArrivals (exTimedBound false).G (userLower (exTimedBound false).G .source) .source [.cust 1, .sink], _
      decide +kernel
    · show ∀ p ∈ userArrivals (exTimedBound false).G (userLower (exTimedBound false).G .source) .source [.cust 2, .sink], _
      decide +kernel
  · intro n hn _
    right
    have : n = 1 ∨ n = 2 := by simpa [exTimedBound, exPlan] using hn
    rcases this with rfl | rfl <;> decide +kernel
  · intro m n h
    simp only [exTimedBound, exPlan] at h
    split at h <;> simp_all <;> decide +kernel

/-- All hypotheses of `C70_cspy_partial` hold for the example with time windows and collection. -/
example : ∃ K, ∀ S, SolvesWithin (exTimedBound true) K S → 24 ≤ (userCosts (exTimedBound true) S).sum + 1 / 1000 * S.routes.length := by
  have hok : onTheWay exBoundWorld exBoundArgs 5 (exTimedBound true)
      (fun M cols a => dualsProve M cols a && columnsPriced M cols a) = true := by decide +kernel
  have hleft : leftBehind exBoundWorld exBoundArgs 5 (exTimedBound true) = some ([46, 24], 0, 2) := by decide +kernel
  unfold leftBehind at hleft
  split at hleft
  · cases hleft
  rename_i o ho
  split at hleft
  · rename_i o' hsolve
    simp only [Option.some.injEq, Prod.mk.injEq] at hleft
    obtain ⟨K, bound, _, hb, hS⟩ := C70_cspy_partial (a := exBoundArgs) (cspyWorld_ok _ _).1 (cspyWorld_ok _ _).2
      (exTimedBound_deliveries true) (exTimedBound_nonnegative true) exTimedBound_cspy (le_refl _) rfl (by decide +kernel)
      (Or.inl (by decide +kernel)) rfl rfl rfl rfl rfl
      (by decide) ho (by
        intro P' P'' fuel cols m stm h1 h2 ht _
        have := onTheWay_ok hok ho h1 h2 ht
        simp only [Bool.and_eq_true] at this
        exact ⟨dualsProve_ok this.1, columnsPriced_ok this.2⟩) hsolve (Or.inl ⟨rfl, by rw [hleft.2.1]; decide⟩) (Or.inl rfl) (fun _ => rfl)
    rw [hleft.1] at hb
    simp only [List.getLast?_cons_cons, List.getLast?_singleton, Option.some.injEq] at hb
    subst hb
    refine ⟨K, fun S hSol => ?_⟩
    have := hS S hSol (fun hf => (by cases hf))
    have hp : (exTimedBound true).dropPenalty = 0 := rfl
    rw [hp] at this
    linarith
  · cases hleft

/-! ## Counterexamples -/

/-- A test for `WithinLimitsOf`. -/
def limitsTest (P : Vrp) (k : Nat) (mid : List Node) : Bool :=
  (match P.numStops.stops with
    | none => true
    | some m => decide (mid.length ≤ m)) &&
  (match userCapacities P.loadCapacity with
    | [] => true
    | cs => match cs[k]? with
      | none => false
      | some c => decide ((mid.map (userDemand P.G)).sum ≤ c)) &&
  (match P.duration.limit with
    | none => true
    | some d => decide (userDuration P.G (routeOf mid) ≤ d)) && !P.timeWindows && !P.distributionCollection

theorem limitsTest_ok {P : Vrp} {k : Nat} {mid : List Node} (h : limitsTest P k mid = true) : WithinLimitsOf P k mid := by
  unfold limitsTest at h
  simp only [Bool.and_eq_true, Bool.not_eq_true'] at h
  obtain ⟨⟨⟨⟨h1, h2⟩, h3⟩, h4⟩, h5⟩ := h
  refine ⟨?_, ?_, ?_, fun hf => absurd (h4.symm.trans hf) (by simp), fun hf => absurd (h5.symm.trans hf) (by simp)⟩
  · intro m hm _
    rw [hm] at h1
    exact of_decide_eq_true h1
  · intro hne
    split at h2
    · rename_i h0
      exact absurd h0 hne
    · split at h2
      · cases h2
      · rename_i c hc
        exact ⟨c, hc, of_decide_eq_true h2⟩
  · intro d hd _
    rw [hd] at h3
    exact of_decide_eq_true h3

/-- A test for `SolvesWithin`. -/
def solvesTest (P : Vrp) (K : Nat) (S : Solution) : Bool :=
  S.routes.all (fun p => decide (p.2 = routeOf p.2.tail.dropLast ∧ p.2.tail.dropLast.Nodup ∧
      (∀ v ∈ p.2.tail.dropLast, v.isDepot = false ∧ v ∈ P.G.nodes) ∧ ∀ e ∈ consecutive p.2, e.2 ∈ P.G.succ e.1) &&
    match dget S.types p.1 with
    | none => false
    | some k => decide (k < K) && limitsTest P k p.2.tail.dropLast) &&
  P.G.nodes.all (fun v => v.isDepot || decide ((S.routes.map (fun p => p.2.count v)).sum = 1)) &&
  decide (S.dropped = []) && !P.useAllVehicles &&
  (userFleet P.numVehicles).zipIdx.all (fun x => decide ((S.routes.filter (fun p => dget S.types p.1 = some x.2)).length ≤ x.1))

theorem solvesTest_ok {P : Vrp} {K : Nat} {S : Solution} (h : solvesTest P K S = true) : SolvesWithin P K S := by
  unfold solvesTest at h
  simp only [Bool.and_eq_true, List.all_eq_true, decide_eq_true_eq, Bool.or_eq_true, Bool.not_eq_true'] at h
  obtain ⟨⟨⟨⟨h1, h2⟩, h3⟩, h4⟩, h5⟩ := h
  refine ⟨?_, ?_, ?_, fun _ => h3, ?_⟩
  · intro i r hir
    obtain ⟨⟨a1, a2, a3, a4⟩, a5⟩ := h1 (i, r) hir
    refine ⟨_, a1, a2, ?_, (along_iff _ _).2 (fun u v huv => Or.inl (a4 (u, v) huv)), ?_⟩
    · intro v hv
      refine ⟨?_, (a3 v hv).2⟩
      have := (a3 v hv).1
      cases v with
      | cust n => exact ⟨n, rfl⟩
      | source => cases this
      | sink => cases this
    · split at a5
      · cases a5
      · rename_i k hk
        simp only [Bool.and_eq_true, decide_eq_true_eq] at a5
        exact ⟨k, a5.1, hk, _, a1, limitsTest_ok a5.2⟩
  · intro n hn _
    exact (h2 _ hn).resolve_left (by simp [Node.isDepot])
  · intro v hv
    rw [h3] at hv
    cases hv
  · intro k n hk
    refine ⟨h5 (n, k) (List.mem_zipIdx_iff_getElem?.2 hk), fun h => ?_⟩
    rw [h4] at h
    cases h

/-- Optimal dual values of the relaxed master problem, with the dual values `μ` of the bounds `y ≤ 1`, which
`get_duals` (`vrpy/master_solve_pulp.py:78-122`) does not read. -/
structure Spec.OptimalDuals (M : Master) (cols : List Column) (a : Master.Answer) (μ : ColName → ℚ) : Prop where
  visit : ∀ v ∈ M.G.customers, 0 ≤ a.visitDual v
  fleet : ∀ k < M.numVehicles.length, a.fleetDual k ≤ 0
  bound : ∀ c ∈ cols, μ c.name ≤ 0
  columns : ∀ c ∈ cols, ∀ r, Draws c r → ((stops r).map a.visitDual).sum +
    (if c.vehicleType < M.numVehicles.length then a.fleetDual c.vehicleType else 0) + μ c.name ≤ c.cost
  value : (M.objective cols).eval a.point = (M.G.customers.map a.visitDual).sum +
    ((List.range M.numVehicles.length).map (fun k => a.fleetDual k * (M.numVehicles.getD k 0 : ℚ))).sum +
    (cols.map (fun c => μ c.name)).sum

/-- A test for `OptimalDuals`. -/
def dualsTest (μ : ColName → ℚ) (M : Master) (cols : List Column) (a : Master.Answer) : Bool :=
  decide (∀ v ∈ M.G.customers, 0 ≤ a.visitDual v) && decide (∀ k < M.numVehicles.length, a.fleetDual k ≤ 0) &&
  decide (∀ c ∈ cols, μ c.name ≤ 0) &&
  cols.all (fun c => decide (((c.nodes.filter (fun v => v ≠ .source ∧ v ≠ .sink)).map a.visitDual).sum +
    (if c.vehicleType < M.numVehicles.length then a.fleetDual c.vehicleType else 0) + μ c.name ≤ c.cost)) &&
  decide ((M.objective cols).eval a.point = (M.G.customers.map a.visitDual).sum +
    ((List.range M.numVehicles.length).map (fun k => a.fleetDual k * (M.numVehicles.getD k 0 : ℚ))).sum +
    (cols.map (fun c => μ c.name)).sum)

theorem dualsTest_ok {μ : ColName → ℚ} {M : Master} {cols : List Column} {a : Master.Answer}
    (h : dualsTest μ M cols a = true) : OptimalDuals M cols a μ := by
  simp only [dualsTest, Bool.and_eq_true, decide_eq_true_eq, List.all_eq_true] at h
  obtain ⟨⟨⟨⟨h1, h2⟩, h3⟩, h4⟩, h5⟩ := h
  refine ⟨h1, h2, h3, ?_, h5⟩
  intro c hc r hr
  rw [sum_stops hr]
  exact h4 c hc

/-- A run to which everything in `C70_cspy_partial` applies, but for the number of vehicle types, greedy pricing and what is
asked of the dual values; it ends with the lower bounds `bounds` for `K` vehicle types. -/
structure Spec.CspyRun (w : World) (a : SolveArgs) (P : Vrp) (K : Nat) (bounds : List ℚ) : Prop where
  world : WorldOk w
  finds : ∀ t q, CspyFinds q (w.cspy t q)
  data : Capacitated P
  nonneg : NonnegativeData P
  penalty : P.dropPenalty = 0
  limited : P.numStops.stops ≠ none ∨ userCapacities P.loadCapacity ≠ []
  useAll : P.useAllVehicles = false
  span : P.minimizeGlobalSpan = false
  options : a.preassignments = [] ∧ a.dive = false ∧ a.heuristicOnly = false ∧ a.cspy = true ∧ a.strategy ≠ "Hyper"
  unlimited : a.maxIter = 0 ∧ ∀ t, w.timeUp t = false
  run : ∃ o o' fuel, Obj.create P = .ok o ∧ o.solve w a fuel = .ok (some o') ∧ o'.noImprovement ≤ 1000 ∧
    o'.P.vehicleTypes = some K ∧ o'.bounds = bounds

/-- In all states on the way, what the solver answers satisfies `D`. -/
def Spec.OnTheWay (w : World) (a : SolveArgs) (P : Vrp) (D : Master → List Column → Master.Answer → Prop) : Prop :=
  ∀ o, Obj.create P = .ok o → ∀ P' P'' fuel cols m stm,
    o.P.startSolve w.dist a.strategy a.cspy a.initialRoutes a.preassignments = .ok P' →
    P'.initialize P'.G.toNet w.cw fuel = .ok (some (P'', cols)) →
    Solve.Trace (P''.solveCfg a w.falsy) w.toEnv false (o.start a P'' cols) m stm →
    D P''.master stm.mcols (w.master stm.tick (P''.master.lp stm.mcols true))

/-- The number of vehicle types, the lower bounds and the number of rounds without improvement that a run leaves behind. -/
def typesAndBounds (w : World) (a : SolveArgs) (fuel : Nat) (P : Vrp) : Option (Option Nat × List ℚ × Nat) :=
  match Obj.create P with
  | .error _ => none
  | .ok o => match o.solve w a fuel with
    | .ok (some o') => some (o'.P.vehicleTypes, o'.bounds, o'.noImprovement)
    | _ => none

theorem typesAndBounds_run {w : World} {a : SolveArgs} {fuel K : Nat} {P : Vrp} {bounds : List ℚ}
    (h : typesAndBounds w a fuel P = some (some K, bounds, 0)) :
    ∃ o o' fuel, Obj.create P = .ok o ∧ o.solve w a fuel = .ok (some o') ∧ o'.noImprovement ≤ 1000 ∧
      o'.P.vehicleTypes = some K ∧ o'.bounds = bounds := by
  unfold typesAndBounds at h
  split at h
  · cases h
  rename_i o ho
  split at h
  · rename_i o' hs
    simp only [Option.some.injEq, Prod.mk.injEq] at h
    exact ⟨o, o', fuel, ho, hs, by rw [h.2.2]; omega, h.1, h.2.1⟩
  · cases h

/-- Three customers; it is dear to go from the first to the second. -/
def exDear : Vrp where
  G := {
    nodes := [.source, .cust 1, .cust 2, .cust 3, .sink]
    nd := fun _ => {}
    succ := fun u => match u with
      | .source => [.cust 1, .cust 2, .cust 3]
      | .cust 1 => [.cust 2, .sink]
      | .cust 2 => [.cust 3, .sink]
      | .cust 3 => [.sink]
      | _ => []
    ed := fun u v => { cost := some (.scalar (if u = .cust 1 ∧ v = .cust 2 then 8 else 1)) } }
  numStops := .int 2

/-- The master problem always has the solution with the round trips; its dual values are 8, 2 and 2. -/
noncomputable def exDearWorld : World :=
  cspyWorld [picking [.num 1, .num 3, .num 4]] (fun _ v => if v = .cust 1 then 8 else 2)

def exDearArgs : SolveArgs where
  initialRoutes := [routeOf [.cust 1], routeOf [.cust 1, .cust 2], routeOf [.cust 2], routeOf [.cust 3]]
  strategy := "Exact"

theorem exDear_capacitated : Capacitated exDear where
  wf := by
    refine ⟨by decide, ?_, ?_⟩
    · intro u; simp only [exDear]; split <;> decide
    · intro u v hv
      simp only [exDear] at hv ⊢
      split at hv <;> simp at hv <;> (try rcases hv with rfl | rfl | rfl) <;> (try rcases hv with rfl | rfl) <;>
        (try subst hv) <;> decide
  customer := ⟨1, by decide⟩
  costs := fun _ u v _ => ⟨_, Or.inl rfl⟩
  demand := by decide +kernel
  service := by decide +kernel
  timeWindows := rfl
  pickupDelivery := rfl
  distributionCollection := rfl
  periodic := rfl
  oneCapacity := by decide +kernel

theorem exDear_nonnegative : NonnegativeData exDear where
  service := by decide +kernel
  time := fun u v _ => le_refl _
  cost := by
    intro k u v _
    simp only [userArcCost, exDear, userCost, userFixedCost]
    have h : ∀ x : ℚ, (x = 1 ∨ x = 8 ∨ x = 0) → 0 ≤ x := by rintro x (rfl | rfl | rfl) <;> norm_num
    refine ite_nonneg' (add_nonneg (h _ ?_) (h _ ?_)) (ite_nonneg' (le_refl _) (add_nonneg (by norm_num) (h _ ?_)))
    all_goals split <;> simp

/-- **C73, where it fails.** The dual values of the bounds `y ≤ 1` are not read (`vrpy/master_solve_pulp.py:78-122`).  They make
the reduced cost of a column that is already there negative, cspy returns its route, it is turned down as a duplicate
(`vrpy/subproblem_cspy.py:272-274`), and column generation ends: with a fixed strategy and optimal dual values, the lower bound
is 6, and so is the cost of the routes reported, but a solution costs 5. -/
theorem C73_bound_counterexample : ∃ w a P μ S, CspyRun w a P 1 [6] ∧ P.mixedFleet = false ∧ a.greedy = false ∧
    OnTheWay w a P (fun M cols an => OptimalDuals M cols an μ) ∧
    (∃ fuel R, planOf w a fuel P = .ok (some R) ∧ (userCosts P R).sum = 6) ∧
    SolvesWithin P 1 S ∧ (userCosts P S).sum = 5 :=
  ⟨exDearWorld, exDearArgs, exDear, fun n => if n = .num 1 then -6 else 0,
    ⟨[(1, routeOf [.cust 1]), (2, routeOf [.cust 2, .cust 3])], [(1, 0), (2, 0)], []⟩,
    ⟨(cspyWorld_ok _ _).1, (cspyWorld_ok _ _).2, exDear_capacitated, exDear_nonnegative, rfl, Or.inl (by decide), rfl, rfl,
      ⟨rfl, rfl, rfl, rfl, by decide⟩, ⟨rfl, fun _ => rfl⟩, typesAndBounds_run (fuel := 5) (by decide +kernel)⟩, rfl, rfl,
    fun _ ho _ _ _ _ _ _ h1 h2 ht => dualsTest_ok (onTheWay_ok (n := 5)
      (p := dualsTest (fun n => if n = .num 1 then -6 else 0)) (by decide +kernel) ho h1 h2 ht),
    ⟨5, ⟨[(1, routeOf [.cust 1]), (2, routeOf [.cust 2]), (3, routeOf [.cust 3])], [(1, 0), (2, 0), (3, 0)], []⟩,
      Solve.eq_ok_of_toOption (by decide +kernel), by decide +kernel⟩,
    solvesTest_ok (by decide +kernel), by decide +kernel⟩

/-- One customer, two vehicle types. -/
def exTypes : Vrp where
  G := {
    nodes := [.source, .cust 1, .sink]
    nd := fun v => if v.isDepot then {} else { demand := some 1 }
    succ := fun u => match u with
      | .source => [.cust 1]
      | .cust 1 => [.sink]
      | _ => []
    ed := fun _ _ => { cost := some (.list [5, 1]) } }
  loadCapacity := .many [.int 10, .int 10]
  mixedFleet := true

noncomputable def exTypesWorld : World := cspyWorld [picking [.num 1]] (fun _ _ => 10)

def exTypesArgs : SolveArgs where
  initialRoutes := [routeOf [.cust 1]]
  strategy := "Exact"

theorem exTypes_capacitated : Capacitated exTypes where
  wf := by
    refine ⟨by decide, ?_, ?_⟩
    · intro u; simp only [exTypes]; split <;> decide
    · intro u v hv
      simp only [exTypes] at hv ⊢
      split at hv <;> simp at hv <;> subst hv <;> decide
  customer := ⟨1, by decide⟩
  costs := fun h => (by cases h)
  demand := by decide +kernel
  service := by decide +kernel
  timeWindows := rfl
  pickupDelivery := rfl
  distributionCollection := rfl
  periodic := rfl
  oneCapacity := by decide +kernel

theorem exTypes_nonnegative : NonnegativeData exTypes where
  service := by decide +kernel
  time := fun u v _ => le_refl _
  cost := by
    intro k u v _
    simp only [userArcCost, exTypes, userCost, userFixedCost]
    have h : ∀ x : ℚ, (x = 1 ∨ x = 5 ∨ x = 0) → 0 ≤ x := by rintro x (rfl | rfl | rfl) <;> norm_num
    have h2 : ∀ k, 0 ≤ ([5, 1] : List ℚ).getD k 0
      | 0 => by decide
      | 1 => by decide
      | n + 2 => by simp
    refine ite_nonneg' (add_nonneg (h2 _) (h _ ?_)) (ite_nonneg' (le_refl _) (add_nonneg (by norm_num) (h _ ?_)))
    all_goals split <;> simp

/-- **C73, where it fails: several vehicle types.** Whether a route is new is decided without looking at the vehicle type
(`vrpy/subproblem_cspy.py:272-274`), so that a route of the first type keeps out the same route for the second one: the lower
bound is 10, and so is the cost of the routes reported, but a solution costs 2. -/
theorem C73_mixed_fleet_counterexample : ∃ w a P S, CspyRun w a P 2 [10] ∧ a.greedy = false ∧
    OnTheWay w a P (fun M cols an => DualsOk M cols an ∧ ColumnsPriced M cols an) ∧
    (∃ fuel R, planOf w a fuel P = .ok (some R) ∧ (userCosts P R).sum = 10) ∧
    SolvesWithin P 2 S ∧ (userCosts P S).sum = 2 :=
  ⟨exTypesWorld, exTypesArgs, exTypes, ⟨[(1, routeOf [.cust 1])], [(1, 1)], []⟩,
    ⟨(cspyWorld_ok _ _).1, (cspyWorld_ok _ _).2, exTypes_capacitated, exTypes_nonnegative, rfl, Or.inr (by decide), rfl, rfl,
      ⟨rfl, rfl, rfl, rfl, by decide⟩, ⟨rfl, fun _ => rfl⟩, typesAndBounds_run (fuel := 5) (by decide +kernel)⟩, rfl,
    fun _ ho _ _ _ _ _ _ h1 h2 ht => by
      have := onTheWay_ok (n := 5) (p := fun M cols a => dualsProve M cols a && columnsPriced M cols a) (by decide +kernel)
        ho h1 h2 ht
      simp only [Bool.and_eq_true] at this
      exact ⟨dualsProve_ok this.1, columnsPriced_ok this.2⟩,
    ⟨5, ⟨[(1, routeOf [.cust 1])], [(1, 0)], []⟩, Solve.eq_ok_of_toOption (by decide +kernel), by decide +kernel⟩,
    solvesTest_ok (by decide +kernel), by decide +kernel⟩

/-- First the round trips, with dual values 23 each; then the third column, with dual values 12 each. -/
noncomputable def exGreedyWorld : World :=
  cspyWorld [picking [.num 3], picking [.num 1, .num 2]] (fun prob _ => if hasColumn (.num 3) prob then 12 else 23)

/-- The example of `C70_cspy_partial` with greedy pricing. -/
def exGreedyArgs : SolveArgs := { exBoundArgs with greedy := true }

/-- **C73, where it fails: greedy pricing.** A route that greedy pricing has added in the same round, before cspy is asked
(`vrpy/vrp.py:566-607`), is what cspy finds with the same dual values; it is turned down as a duplicate and column generation
ends: the lower bound is 46, but the routes reported cost 24. -/
theorem C73_greedy_counterexample : ∃ w a P S, CspyRun w a P 1 [46] ∧ P.mixedFleet = false ∧ a.greedy = true ∧
    OnTheWay w a P (fun M cols an => DualsOk M cols an ∧ ColumnsPriced M cols an) ∧
    (∃ fuel, planOf w a fuel P = .ok (some S)) ∧ SolvesWithin P 1 S ∧ (userCosts P S).sum = 24 :=
  ⟨exGreedyWorld, exGreedyArgs, exPlan, ⟨[(1, routeOf [.cust 1, .cust 2])], [(1, 0)], []⟩,
    ⟨(cspyWorld_ok _ _).1, (cspyWorld_ok _ _).2, exPlan_capacitated, exPlan_nonnegative, rfl, Or.inl (by decide), rfl, rfl,
      ⟨rfl, rfl, rfl, rfl, by decide⟩, ⟨rfl, fun _ => rfl⟩, typesAndBounds_run (fuel := 5) (by decide +kernel)⟩, rfl, rfl,
    fun _ ho _ _ _ _ _ _ h1 h2 ht => by
      have := onTheWay_ok (n := 5) (p := fun M cols a => dualsProve M cols a && columnsPriced M cols a) (by decide +kernel)
        ho h1 h2 ht
      simp only [Bool.and_eq_true] at this
      exact ⟨dualsProve_ok this.1, columnsPriced_ok this.2⟩,
    ⟨5, Solve.eq_ok_of_toOption (by decide +kernel)⟩, solvesTest_ok (by decide +kernel), by decide +kernel⟩

end Vrpy
