import Verif.Props.EndToEndCases
import Verif.Props.TerminationSpan

/-!
# C55 and C59 with LP pricing if all vehicles are to be used: an example

Both vehicles have to be used, so one more vehicle is worth something (the dual value of its constraint is 22), and LP pricing
finds the route for both customers, but it is not used.
-/

namespace Vrpy

open Spec

/-- `exPlan`, both vehicles are to be used. -/
def allPlan : Vrp := { exPlan with useAllVehicles := true }

theorem allPlan_capacitated : Capacitated allPlan :=
  { exPlan_capacitated with }

theorem allPlan_nonnegative : NonnegativeData allPlan :=
  ⟨exPlan_nonnegative.service, exPlan_nonnegative.time, exPlan_nonnegative.cost⟩

/-- The graph searched for `allPlan`. -/
def allNet : Net where
  nodes := lpNet.nodes
  succ := lpNet.succ
  demand := lpNet.demand
  cost := fun u v => if u = .source ∧ v = .sink then [10000000000] else lpNet.cost u v

theorem allNet_wf : WellFormed allNet where
  nodes_nodup := lpNet_wf.nodes_nodup
  succ_nodup := lpNet_wf.succ_nodup
  edge_mem := lpNet_wf.edge_mem
  source_mem := lpNet_wf.source_mem
  sink_mem := lpNet_wf.sink_mem
  no_into_source := lpNet_wf.no_into_source
  no_out_of_sink := lpNet_wf.no_out_of_sink

/-- Dual values of the customers, and of the vehicles, before and after the route for both is found. -/
def allDual (second : Bool) (v : Node) : ℚ := if v = .cust 1 ∨ v = .cust 2 then (if second then 1 else 18) else 0

def allFleetDual (second : Bool) : ℚ := if second then 22 else 5

/-- The two pricing problems. -/
def allPricing (second : Bool) : PricingLP where
  G := allNet
  weight := fun u v => if u = .source then (allNet.cost u v).getD 0 0 - allFleetDual second
    else (allNet.cost u v).getD 0 0 - allDual second u
  caps := [5]
  numStops := some 2
  negCycle := false

theorem allPoint_optimal (b : Bool) : ((allPricing b).lp 5).Optimal lpPoint := by
  refine optimal_of_routes (q := allPricing b) allNet_wf rfl rfl ?_ rfl rfl ?_ ?_ rfl ?_ ?_ ?_
  · refine ⟨?_, fun _ _ _ => by simp [allPricing, allNet], fun h => (by cases h)⟩
    show ∀ v ∈ allNet.nodes, 0 ≤ allNet.demand v
    decide +kernel
  · refine noNegativeCycle_brute allNet_wf ?_
    revert b
    decide +kernel
  · intro _
    revert b
    decide +kernel
  · refine feasible_of _ _ ?_
    revert b
    decide +kernel
  · revert b
    decide +kernel
  · revert b
    decide +kernel

/-- The master problem's solver of the example. -/
def allSolver (prob : LP MVar) : Master.Answer :=
  let second := prob.vars.any (fun d => d.var = .y (.num 3))
  let pt : MVar → ℚ := fun x => if x = .y (.num 1) ∨ x = .y (.num 2) then 1 else 0
  { optimal := decide ((∀ d ∈ prob.vars, d.Holds pt) ∧ ∀ c ∈ prob.constrs, c.Holds pt), point := pt,
    visitDual := allDual second
    fleetDual := fun _ => if prob.constrs.any (fun c => c.sense = .eq) then allFleetDual second else 0
    spanDual := fun _ => 0 }

theorem allSolver_sound : MasterSolverSound allSolver := by
  intro prob h
  exact feasible_of _ _ (of_decide_eq_true h)

noncomputable def allWorld : World :=
  { exLpWorld with
    master := fun _ => allSolver
    pricing := fun _ => knownSolver [((allPricing false).lp 5, lpPoint), ((allPricing true).lp 5, lpPoint)] }

theorem allWorld_ok : LpWorldOk PositiveCycles allWorld :=
  have hk := knownSolver_ok (known := [((allPricing false).lp 5, lpPoint), ((allPricing true).lp 5, lpPoint)])
    (by
      intro k hk
      simp only [List.mem_cons, List.not_mem_nil, or_false] at hk
      rcases hk with rfl | rfl
      · exact allPoint_optimal false
      · exact allPoint_optimal true)
  { cw := exLpWorld_ok.cw
    master := fun _ => allSolver_sound
    fleet := by
      intro t M cols hu _ k _
      show (if _ then _ else (0 : ℚ)) ≤ 0
      rw [if_neg]
      simp only [Master.lp, List.any_eq_true, List.mem_append, decide_eq_true_eq, not_exists, not_and]
      rintro c ((hc | hc) | hc) he
      · obtain ⟨v, _, rfl⟩ := List.mem_map.1 hc
        simp [Master.visitConstr] at he
      · split at hc
        · cases hc
        · obtain ⟨i, hi, rfl⟩ := List.mem_mapIdx.1 hc
          simp [Master.fleetConstr, hu] at he
      · split at hc
        · obtain ⟨i, _, rfl⟩ := List.mem_map.1 hc
          simp [Master.spanConstr] at he
        · cases hc
    sound := fun _ => hk.2
    exact := fun _ => hk.1
    cycles := exLpWorld_ok.cycles
    paths := exLpWorld_ok.paths
    path := exLpWorld_ok.path }

theorem allWorld_duals : OptionDuals allWorld.toEnv allPlan where
  span := fun _ _ _ _ _ => le_refl _
  fleet := by
    intro _ t prob _ k
    refine ⟨?_, fun h => (by cases h)⟩
    show (if _ then allFleetDual _ else (0 : ℚ)) ≤ _
    split
    · unfold allFleetDual
      split <;> norm_num
    · norm_num

/-- All hypotheses of `C55_lp_partial` hold although all vehicles are to be used; both round trips are reported. -/
example : LpWorldOk PositiveCycles allWorld ∧ Capacitated allPlan ∧ NonnegativeData allPlan ∧ OptionDuals allWorld.toEnv allPlan ∧
    (∀ r ∈ exLpArgs.initialRoutes, r.Nodup ∧ WithinStops allPlan.numStops.stops (stops r).length) ∧
    planOf allWorld exLpArgs 5 allPlan = .ok (some ⟨[(1, routeOf [.cust 1]), (2, routeOf [.cust 2])], [(1, 0), (2, 0)], []⟩) :=
  ⟨allWorld_ok, allPlan_capacitated, allPlan_nonnegative, allWorld_duals, exLpArgs_initial,
    Solve.eq_ok_of_toOption (by decide +kernel)⟩

/-- A test for `Complementary` if all vehicles are to be used. -/
def complementaryAll (M : Master) (cols : List Column) (a : Master.Answer) : Bool :=
  decide ((∀ d ∈ (M.lp cols true).vars, d.Holds a.point) ∧ (∀ c ∈ (M.lp cols true).constrs, c.Holds a.point)) &&
  decide (∀ c ∈ cols, reducedCost M a c < 0 → a.point (.y c.name) = 1) &&
  decide (∀ v ∈ M.G.customers, (M.visitConstr cols true v).rhs < (M.visitConstr cols true v).lhs.eval a.point →
    a.visitDual v = 0) && M.useAllVehicles &&
  decide (∀ k < M.numVehicles.length, 0 < a.point (.bound k) → a.fleetDual k = -Master.big)

theorem complementaryAll_ok {M : Master} {cols : List Column} {a : Master.Answer} (h : complementaryAll M cols a = true) :
    Complementary M cols a := by
  simp only [complementaryAll, Bool.and_eq_true, decide_eq_true_eq] at h
  obtain ⟨⟨⟨⟨h1, h2⟩, h3⟩, h4⟩, h5⟩ := h
  exact ⟨feasible_of _ _ h1, h2, h3, fun hu => (by rw [h4] at hu; cases hu), fun _ _ => h5⟩

/-- The test for all states on the way. -/
def dualsOkAll (w : World) (a : SolveArgs) (n : Nat) (P : Vrp) : Bool :=
  match Obj.create P with
  | .error _ => false
  | .ok o =>
    match o.P.startSolve w.dist a.strategy a.cspy a.initialRoutes a.preassignments with
    | .error _ => false
    | .ok P' =>
      decide (P'.initialRoutes ≠ []) && match P'.initialize P'.G.toNet w.cw 0 with
      | .ok (some (P'', cols)) => Solve.allStates (P''.solveCfg a w.falsy) w.toEnv
          (fun st => complementaryAll P''.master st.cols (w.master st.tick (P''.master.lp st.cols true))) n (o.start a P'' cols)
      | _ => false

/-- All hypotheses of `C59_terminates_lp_partial` hold, too. -/
example : ∃ o, Obj.create allPlan = .ok o ∧
    ∃ n outcome, (∀ fuel, n ≤ fuel → o.solve allWorld exLpArgs fuel = outcome) ∧ outcome ≠ .ok none := by
  have hok : dualsOkAll allWorld exLpArgs 5 allPlan = true := by decide +kernel
  unfold dualsOkAll at hok
  split at hok
  · cases hok
  rename_i o ho
  refine ⟨o, ho, C59_terminates_lp_partial allWorld_ok allPlan_capacitated allPlan_nonnegative allWorld_duals rfl rfl rfl rfl
    exLpArgs_initial ho ?_⟩
  intro P' P'' fuel cols m stm h1 h2 ht _
  rw [h1] at hok
  simp only [Bool.and_eq_true, decide_eq_true_eq] at hok
  have h2' : P'.initialize P'.G.toNet allWorld.cw 0 = .ok (some (P'', cols)) := by
    rw [← h2]
    unfold Vrp.initialize Vrp.chooseInitial
    simp only [hok.1, ne_eq, not_false_eq_true, if_true]
  rw [h2'] at hok
  exact complementaryAll_ok (Solve.Trace.allStates hok.2 ht)

/-- The hypotheses of `C59_terminates_span` hold for the same network, whatever the solvers (here those of another problem). -/
example : ∃ o, Obj.create { exPlan with minimizeGlobalSpan := true } = .ok o ∧
    ∃ n outcome, (∀ fuel, n ≤ fuel → o.solve allWorld exLpArgs fuel = outcome) ∧ outcome ≠ .ok none := by
  have hok : (Obj.create { exPlan with minimizeGlobalSpan := true }).toOption.isSome = true := by decide +kernel
  cases ho : Obj.create { exPlan with minimizeGlobalSpan := true } with
  | error e => rw [ho] at hok; cases hok
  | ok o => exact ⟨o, rfl, C59_terminates_span (P0 := { exPlan with minimizeGlobalSpan := true }) exPlan_capacitated.wf exPlan_capacitated.customer
    exPlan_capacitated.costs (fun v hv _ => exPlan_capacitated.demand v hv) rfl ho⟩

end Vrpy
