import Verif.Props.TimeLimit
import Verif.Props.SolveCases
import Verif.Props.EndToEndCases

/-!
# C69: examples
-/

namespace Vrpy

open Spec TimeLimit

namespace Solve

/-- The world of the examples for C33 to C35, in which every external call takes a second, and a time limit of `l`. -/
def exTimed (l : ℚ) : Env := { exEnv with timeUp := fun t => up (some l) 100 (100 + t) (100 + t) }

theorem exTimed_timed (l : ℚ) : Timed (exTimed l) (some l) (fun t => 100 + t) := by
  intro t
  refine ⟨100 + t, ?_⟩
  simp only [exTimed, Nat.cast_zero, add_zero]

theorem exTimed_ticks : Ticks 1 (fun t => 100 + t) := by
  refine ⟨by norm_num, fun t => ?_⟩
  push_cast
  linarith

/-- With two seconds the search stops after the first iteration, although it has found a column … -/
example : outcome (columnGeneration (exCfg (.fixed .exact)) (exTimed 2) false 5 exStart) =
    some (true, 1, 0, exRoundTrips ++ [exColumn], [19]) := by decide +kernel

/-- … with three it goes on. -/
example : outcome (columnGeneration (exCfg (.fixed .exact)) (exTimed 3) false 5 exStart) =
    some (false, 2, 0, exRoundTrips ++ [exColumn], [19, 12]) := by decide +kernel

end Solve

/-- The world of the examples for C55, with a time limit. -/
def exTimedWorld (w : World) (l : ℚ) : World := { w with timeUp := fun t => up (some l) 100 (100 + t) (100 + t) }

theorem exTimedWorld_timed (w : World) (l : ℚ) : Timed (exTimedWorld w l).toEnv (some l) (fun t => 100 + t) := by
  intro t
  refine ⟨100 + t, ?_⟩
  simp only [exTimedWorld, Nat.cast_zero, add_zero]

/-- `C69_terminates` needs no promise of any solver. -/
example : ∃ o, Obj.create exPlan = .ok o ∧ ∃ n outcome,
    (∀ fuel, n ≤ fuel → o.solve (exTimedWorld exWorld 7)
      { exArgs with
        cspy := false
        dive := true } fuel = outcome) ∧ outcome ≠ .ok none := by
  have hok : (Obj.create exPlan).toOption.isSome = true := by decide +kernel
  cases ho : Obj.create exPlan with
  | error e => rw [ho] at hok; cases hok
  | ok o => exact ⟨o, rfl, C69_terminates exPlan_capacitated.wf exPlan_capacitated.customer exPlan_capacitated.costs
    (fun v hv _ => exPlan_capacitated.demand v hv) (by norm_num) (exTimedWorld_timed exWorld 7) Solve.exTimed_ticks ho⟩

end Vrpy
