import Verif.Props.EndToEndBoundLocked
import Verif.Props.CspyBoundCases
import Verif.Props.LockedLPCases

/-!
# Cases for C70 with a preassigned route
-/

namespace Vrpy

open Spec

/-- All hypotheses of `C70_locked_partial` hold for the example: customer 3 is on a preassigned route, and the customers 1 and 2 cannot
be served for less than 24 (the tour through both costs 24; the whole plan found costs more). -/
example : ∃ K, ∀ S, SolvesWithin (withoutNodes (lockedPlan false) [.cust 3]) K S →
    24 ≤ (userCosts (lockedPlan false) S).sum + 1 / 1000 * S.routes.length := by
  have hok : valuesProved exLpWorld lockedArgs 5 (lockedPlan false) = true := by decide +kernel
  have hleft : leftBehind exLpWorld lockedArgs 5 (lockedPlan false) = some ([46, 24], 0, 2) := by decide +kernel
  unfold valuesProved at hok
  split at hok
  · cases hok
  rename_i o ho
  unfold leftBehind at hleft
  rw [ho] at hleft
  simp only at hleft
  split at hleft
  · rename_i o' hsolve
    simp only [Option.some.injEq, Prod.mk.injEq] at hleft
    obtain ⟨K, bound, _, hb, hS⟩ := C70_locked_partial (a := lockedArgs) (L := [.cust 3]) exLpWorld_ok.exact
      (lockedPlan_capacitated.deliveries) (lockedPlan_nonnegative false)
      (by
        intro v
        simp only [lockedArgs, List.mem_cons, List.not_mem_nil, or_false, exists_eq_left]
        constructor
        · rintro rfl
          exact ⟨⟨3, rfl⟩, ⟨rfl, rfl⟩, by decide⟩
        · rintro ⟨⟨n, rfl⟩, _, hv⟩
          simpa [routeOf] using hv)
      ⟨1, by decide, by decide⟩ (fun h => (by cases h)) (by decide +kernel) rfl rfl rfl (by decide) ho (by
        intro P' P'' fuel cols m stm h1 h2 ht _
        rw [h1] at hok
        simp only [Bool.and_eq_true, decide_eq_true_eq] at hok
        have h2' : P'.initialize P'.G.toNet exLpWorld.cw 0 = .ok (some (P'', cols)) := by
          rw [← h2]
          unfold Vrp.initialize Vrp.chooseInitial
          simp only [hok.1, ne_eq, not_false_eq_true, if_true]
        rw [h2'] at hok
        exact dualsProve_ok (Solve.Trace.allStates hok.2 ht)) hsolve (Or.inl ⟨rfl, by rw [hleft.2.1]; decide⟩) (Or.inl rfl) (fun _ => rfl)
    rw [hleft.1] at hb
    simp only [List.getLast?_cons_cons, List.getLast?_singleton, Option.some.injEq] at hb
    subst hb
    refine ⟨K, fun S hSol => ?_⟩
    have := hS S hSol (fun hf => (by cases hf))
    have hp : (lockedPlan false).dropPenalty = 0 := rfl
    rw [hp] at this
    linarith
  · cases hleft

def lockedBoundArgs : SolveArgs := { exBoundArgs with preassignments := [routeOf [.cust 3]] }

/-- All hypotheses of `C70_locked_cspy_partial` hold for the example. -/
example : ∃ K, ∀ S, SolvesWithin (withoutNodes (lockedPlan false) [.cust 3]) K S →
    24 ≤ (userCosts (lockedPlan false) S).sum + 1 / 1000 * S.routes.length := by
  have hok : onTheWay exBoundWorld lockedBoundArgs 5 (lockedPlan false)
      (fun M cols a => dualsProve M cols a && columnsPriced M cols a) = true := by
    decide +kernel
  have hleft : leftBehind exBoundWorld lockedBoundArgs 5 (lockedPlan false) = some ([46, 24], 0, 2) := by decide +kernel
  unfold leftBehind at hleft
  split at hleft
  · cases hleft
  rename_i o ho
  split at hleft
  · rename_i o' hsolve
    simp only [Option.some.injEq, Prod.mk.injEq] at hleft
    obtain ⟨K, bound, _, hb, hS⟩ := C70_locked_cspy_partial (a := lockedBoundArgs) (L := [.cust 3]) (cspyWorld_ok _ _).1 (cspyWorld_ok _ _).2
      (lockedPlan_capacitated.deliveries) (lockedPlan_nonnegative false)
      (by
        intro v
        simp only [lockedBoundArgs, List.mem_cons, List.not_mem_nil, or_false, exists_eq_left]
        constructor
        · rintro rfl
          exact ⟨⟨3, rfl⟩, ⟨rfl, rfl⟩, by decide⟩
        · rintro ⟨⟨n, rfl⟩, _, hv⟩
          simpa [routeOf] using hv)
      ⟨1, by decide, by decide⟩ (fun h => (by cases h))
      ⟨fun h => (by cases h), fun h => (by cases h), fun h => (by cases h), fun h => (by cases h)⟩ (by decide +kernel) rfl (by decide +kernel)
      (Or.inl (by decide +kernel)) rfl rfl rfl rfl (by decide) ho (by
        intro P' P'' fuel cols m stm h1 h2 ht _
        have := onTheWay_ok hok ho h1 h2 ht
        simp only [Bool.and_eq_true] at this
        exact ⟨dualsProve_ok this.1, columnsPriced_ok this.2⟩) hsolve (Or.inl ⟨rfl, by rw [hleft.2.1]; decide⟩) (Or.inl rfl) (fun _ => rfl)
    rw [hleft.1] at hb
    simp only [List.getLast?_cons_cons, List.getLast?_singleton, Option.some.injEq] at hb
    subst hb
    refine ⟨K, fun S hSol => ?_⟩
    have := hS S hSol (fun hf => (by cases hf))
    have hp : (lockedPlan false).dropPenalty = 0 := rfl
    rw [hp] at this
    linarith
  · cases hleft

end Vrpy
