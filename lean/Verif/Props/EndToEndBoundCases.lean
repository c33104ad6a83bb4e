import Verif.Props.EndToEndBound
import Verif.Props.EndToEndCases

/-!
# A case for C70
-/

namespace Vrpy

open Spec

/-- A test for `DualsOk`. -/
def dualsProve (M : Master) (cols : List Column) (a : Master.Answer) : Bool :=
  decide (∀ k < M.numVehicles.length, a.fleetDual k ≤ 0) &&
  decide (∀ v ∈ M.drops, a.visitDual v ≤ M.dropPenalty) &&
  decide ((M.objective cols).eval a.point ≤ (M.G.customers.map a.visitDual).sum +
    ((List.range M.numVehicles.length).map (fun k => a.fleetDual k * (M.numVehicles.getD k 0 : ℚ))).sum)

theorem dualsProve_ok {M : Master} {cols : List Column} {a : Master.Answer} (h : dualsProve M cols a = true) :
    DualsOk M cols a := by
  simp only [dualsProve, Bool.and_eq_true, decide_eq_true_eq] at h
  exact ⟨fun _ => h.1.1, h.1.2, h.2⟩

/-- The test for all states on the way. -/
def valuesProved (w : World) (a : SolveArgs) (n : Nat) (P : Vrp) : Bool :=
  match Obj.create P with
  | .error _ => false
  | .ok o =>
    match o.P.startSolve w.dist a.strategy a.cspy a.initialRoutes a.preassignments with
    | .error _ => false
    | .ok P' =>
      decide (P'.initialRoutes ≠ []) && match P'.initialize P'.G.toNet w.cw 0 with
      | .ok (some (P'', cols)) => Solve.allStates (P''.solveCfg a w.falsy) w.toEnv
          (fun st => dualsProve P''.master st.mcols (w.master st.tick (P''.master.lp st.mcols true))) n (o.start a P'' cols)
      | _ => false

/-- What the run of the example leaves behind: lower bounds, counters. -/
def leftBehind (w : World) (a : SolveArgs) (fuel : Nat) (P : Vrp) : Option (List ℚ × Nat × Nat) :=
  match Obj.create P with
  | .error _ => none
  | .ok o =>
    match o.solve w a fuel with
    | .ok (some o') => some (o'.bounds, o'.noImprovement, o'.iteration)
    | _ => none

/-- All hypotheses of `C70_gap_partial` (and of `C70_lower_bound_partial`) hold for the example; the first lower bound is 46, the
last one 24, and the reported solution costs 24: no solution is cheaper by more than 1/1000 per vehicle. -/
example : ∃ K, ∀ S, SolvesWithin exPlan K S → 24 ≤ (userCosts exPlan S).sum + 1 / 1000 * S.routes.length := by
  have hok : valuesProved exLpWorld exLpArgs 5 exPlan = true := by decide +kernel
  have hleft : leftBehind exLpWorld exLpArgs 5 exPlan = some ([46, 24], 0, 2) := by decide +kernel
  unfold valuesProved at hok
  split at hok
  · cases hok
  rename_i o ho
  unfold leftBehind at hleft
  rw [ho] at hleft
  simp only at hleft
  split at hleft
  · rename_i o' hsolve
    simp only [Option.some.injEq, Prod.mk.injEq] at hleft
    obtain ⟨K, N, bound, v, _, _, hb, _, hS⟩ := C70_gap_partial (a := exLpArgs) exLpWorld_ok exPlan_capacitated
      exPlan_nonnegative (by simp [exPlan]) (.plain rfl rfl) rfl rfl rfl rfl rfl (by decide) exLpArgs_initial ho (by
        intro P' P'' fuel cols m stm h1 h2 ht _
        rw [h1] at hok
        simp only [Bool.and_eq_true, decide_eq_true_eq] at hok
        have h2' : P'.initialize P'.G.toNet exLpWorld.cw 0 = .ok (some (P'', cols)) := by
          rw [← h2]
          unfold Vrp.initialize Vrp.chooseInitial
          simp only [hok.1, ne_eq, not_false_eq_true, if_true]
        rw [h2'] at hok
        exact dualsProve_ok (Solve.Trace.allStates hok.2 ht)) hsolve (by rw [hleft.2.1]; decide) (Or.inl rfl) (fun _ => rfl)
    rw [hleft.1] at hb
    simp only [List.getLast?_cons_cons, List.getLast?_singleton, Option.some.injEq] at hb
    subst hb
    refine ⟨K, fun S hSol => ?_⟩
    have := hS S hSol (fun hf => (by cases hf))
    have hp : exPlan.dropPenalty = 0 := rfl
    rw [hp] at this
    linarith
  · cases hleft

end Vrpy
