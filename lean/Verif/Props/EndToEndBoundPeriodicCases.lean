import Verif.Props.EndToEndBoundCases
import Verif.Props.EndToEndBoundPeriodic

/-!
# A case for C70 with a periodic problem
-/

namespace Vrpy

open Spec

/-- The example with customer 1 to be visited twice in two days, by one vehicle. -/
def weeklyPlan : Vrp := { exPlan with
  G := { exPlan.G with
    nd := fun v => if v.isDepot then {} else { demand := some 2, frequency := if v = .cust 1 then some 2 else none } }
  numVehicles := .one 1
  periodic := some 2 }

theorem weeklyPlan_deliveries : DeliveryData weeklyPlan where
  wf := ⟨exPlan_capacitated.wf.1, exPlan_capacitated.wf.2, exPlan_capacitated.wf.3⟩
  customer := ⟨1, by decide⟩
  costs := fun _ u v _ => ⟨_, Or.inl rfl⟩
  demand := by
    intro v _
    simp only [userDemand, weeklyPlan]
    split <;> simp
  service := by simp [weeklyPlan, Node.isDepot]
  collect := fun h => (by cases h)
  times := fun h => (by cases h)
  pickupDelivery := rfl

/-- Two visits of customer 1, one of customer 2. -/
def weeklyArgs : SolveArgs :=
  { initialRoutes := [routeOf [.cust 1], routeOf [.cust 1, .cust 2]], strategy := "Exact", cspy := false }

/-- The dual values. -/
def weeklyDual (v : Node) : ℚ := if v = .cust 1 then 23 else if v = .cust 2 then 1 else 0

/-- The pricing problem. -/
def weeklyPricing : PricingLP where
  G := { lpNet with freq := fun v => if v = .cust 1 then 2 else 1 }
  weight := fun u v => (lpNet.cost u v).getD 0 0 - weeklyDual u
  caps := [5]
  numStops := some 2
  negCycle := false

theorem weeklyNet_wf : WellFormed weeklyPricing.G :=
  ⟨lpNet_wf.nodes_nodup, lpNet_wf.succ_nodup, lpNet_wf.edge_mem, lpNet_wf.source_mem, lpNet_wf.sink_mem,
    lpNet_wf.no_into_source, lpNet_wf.no_out_of_sink⟩

theorem weeklyPoint_optimal : (weeklyPricing.lp 5).Optimal lpPoint := by
  refine optimal_of_routes (q := weeklyPricing) weeklyNet_wf rfl rfl ?_ rfl rfl ?_ ?_ rfl ?_ ?_ ?_
  · refine ⟨?_, fun _ _ _ => by simp [weeklyPricing, lpNet], fun h => (by cases h)⟩
    show ∀ v ∈ lpNet.nodes, 0 ≤ lpNet.demand v
    decide +kernel
  · refine noNegativeCycle_brute weeklyNet_wf ?_
    decide +kernel
  · intro _
    decide +kernel
  · refine feasible_of _ _ ?_
    decide +kernel
  · decide +kernel
  · decide +kernel

/-- The master problem's solver. -/
def weeklySolver (prob : LP MVar) : Master.Answer :=
  let pt : MVar → ℚ := fun x => if x = .y (.num 1) ∨ x = .y (.num 2) then 1 else 0
  { optimal := decide ((∀ d ∈ prob.vars, d.Holds pt) ∧ ∀ c ∈ prob.constrs, c.Holds pt), point := pt,
    visitDual := weeklyDual, fleetDual := fun _ => 0, spanDual := fun _ => 0 }

noncomputable def weeklyWorld : World := { exLpWorld with
  master := fun _ => weeklySolver
  pricing := fun _ => knownSolver [(weeklyPricing.lp 5, lpPoint)] }

theorem weeklyWorld_exact : ∀ t, SolverExact (weeklyWorld.pricing t) := fun _ =>
  (knownSolver_ok (known := [(weeklyPricing.lp 5, lpPoint)]) (by
    intro k hk
    simp only [List.mem_cons, List.not_mem_nil, or_false] at hk
    subst hk
    exact weeklyPoint_optimal)).1

/-- A test for `HorizonDualsOk` for all states on the way. -/
def horizonProved (w : World) (a : SolveArgs) (n : Nat) (P : Vrp) : Bool :=
  match Obj.create P with
  | .error _ => false
  | .ok o =>
    match o.P.startSolve w.dist a.strategy a.cspy a.initialRoutes a.preassignments with
    | .error _ => false
    | .ok P' =>
      decide (P'.initialRoutes ≠ []) && match P'.initialize P'.G.toNet w.cw 0 with
      | .ok (some (P'', cols)) => Solve.allStates (P''.solveCfg a w.falsy) w.toEnv
          (fun st => let b := w.master st.tick (P''.master.lp st.mcols true)
            decide (∀ v ∈ P''.master.drops, b.visitDual v ≤ P''.master.dropPenalty) &&
            decide ((P''.master.objective st.mcols).eval b.point ≤
              (P''.master.G.customers.map (fun v => b.visitDual v * P''.master.G.freq v)).sum)) n (o.start a P'' cols)
      | _ => false

/-- All hypotheses of `C70_periodic_partial` hold for the example: the last lower bound is 47, and no plan with two visits of
customer 1 and one of customer 2 is cheaper by more than 1/1000 per route. -/
example : ∃ K, ∀ S, ServesHorizon weeklyPlan K S → 47 ≤ (userCosts weeklyPlan S).sum + 1 / 1000 * S.routes.length := by
  have hok : horizonProved weeklyWorld weeklyArgs 5 weeklyPlan = true := by decide +kernel
  have hleft : leftBehind weeklyWorld weeklyArgs 5 weeklyPlan = some ([47], 0, 1) := by decide +kernel
  unfold horizonProved at hok
  split at hok
  · cases hok
  rename_i o ho
  unfold leftBehind at hleft
  rw [ho] at hleft
  simp only at hleft
  split at hleft
  · rename_i o' hsolve
    simp only [Option.some.injEq, Prod.mk.injEq] at hleft
    obtain ⟨K, bound, _, hb, hS⟩ := C70_periodic_partial (a := weeklyArgs) weeklyWorld_exact weeklyPlan_deliveries
      (by decide) (fun h => (by cases h)) exPlan_nonnegative.stay (by decide +kernel) rfl rfl rfl rfl (by decide) ho (by
        intro P' P'' fuel cols m stm h1 h2 ht _
        rw [h1] at hok
        simp only [Bool.and_eq_true, decide_eq_true_eq] at hok
        have h2' : P'.initialize P'.G.toNet weeklyWorld.cw 0 = .ok (some (P'', cols)) := by
          rw [← h2]
          unfold Vrp.initialize Vrp.chooseInitial
          simp only [hok.1, ne_eq, not_false_eq_true, if_true]
        rw [h2'] at hok
        have := Solve.Trace.allStates hok.2 ht
        simp only [Bool.and_eq_true, decide_eq_true_eq] at this
        exact ⟨this.1, this.2⟩) hsolve (Or.inl ⟨rfl, by rw [hleft.2.1]; decide⟩) (Or.inl rfl) (fun _ => rfl)
    rw [hleft.1] at hb
    simp only [List.getLast?_singleton, Option.some.injEq] at hb
    subst hb
    refine ⟨K, fun S hSol => ?_⟩
    have := hS S hSol
    have hp : weeklyPlan.dropPenalty = 0 := rfl
    rw [hp] at this
    linarith
  · cases hleft

/-- Such a plan: customer 1 alone, customer 1 before customer 2. -/
example : ServesHorizon weeklyPlan 1 ⟨[(1, routeOf [.cust 1]), (2, routeOf [.cust 1, .cust 2])], [(1, 0), (2, 0)], []⟩ := by
  have hroute : ∀ mid : List Node, mid = [.cust 1] ∨ mid = [.cust 1, .cust 2] →
      (∀ v ∈ mid, (∃ n, v = .cust n) ∧ v ∈ weeklyPlan.G.nodes) ∧ Along (UserArc weeklyPlan.G) (routeOf mid) ∧
        WithinLimitsOf weeklyPlan 0 mid := by
    have hal : ∀ r : List Node, (∀ e ∈ consecutive r, e.2 ∈ weeklyPlan.G.succ e.1) → Along (UserArc weeklyPlan.G) r := by
      intro r hr
      rw [along_iff]
      exact fun u v huv => Or.inl (hr (u, v) huv)
    have hnone : ∀ x, Within (weeklyPlan.duration.limit) x := fun x => by
      intro c hc
      simp [weeklyPlan, exPlan, PyVal.limit] at hc
    rintro mid (rfl | rfl)
    · refine ⟨by simp [weeklyPlan, exPlan], hal _ (by decide +kernel), ?_, ?_, hnone _, fun h => (by cases h), fun h => (by cases h)⟩
      · intro m hm
        have hm : (some 2 : Option Nat) = some m := hm
        cases hm
        decide
      · intro _
        exact ⟨5, by decide +kernel, by decide +kernel⟩
    · refine ⟨by simp [weeklyPlan, exPlan], hal _ (by decide +kernel), ?_, ?_, hnone _, fun h => (by cases h), fun h => (by cases h)⟩
      · intro m hm
        have hm : (some 2 : Option Nat) = some m := hm
        cases hm
        decide
      · intro _
        exact ⟨5, by decide +kernel, by decide +kernel⟩
  have hvis : ∀ n, Node.cust n ∈ weeklyPlan.G.nodes → n = 1 ∨ n = 2 := by
    intro n hn
    simpa [weeklyPlan, exPlan] using hn
  refine ⟨⟨?_, ?_, fun v hv => (by cases hv), fun _ => rfl⟩, ?_⟩
  · intro i r hir
    simp only [List.mem_cons, Prod.mk.injEq, List.not_mem_nil, or_false] at hir
    rcases hir with ⟨rfl, rfl⟩ | ⟨rfl, rfl⟩
    · obtain ⟨a, b, c⟩ := hroute _ (Or.inl rfl)
      exact ⟨_, rfl, by decide, a, b, 0, by decide, rfl, _, rfl, c⟩
    · obtain ⟨a, b, c⟩ := hroute _ (Or.inr rfl)
      exact ⟨_, rfl, by decide, a, b, 0, by decide, rfl, _, rfl, c⟩
  · intro n hn
    rcases hvis n hn with rfl | rfl <;> decide +kernel
  · intro n hn
    rcases hvis n hn with rfl | rfl <;> decide +kernel

end Vrpy
