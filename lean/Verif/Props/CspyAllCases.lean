import Verif.Props.CspyBoundCases
import Verif.Props.EndToEndOptions

/-!
# C70 with cspy if all vehicles are to be used: an example

Both vehicles of `exPlan` have to be used.  cspy finds the route for both customers, but it is of no use: the lower bound
stays at 46 (it is 24 if one vehicle may stay at the depot, `CspyBoundCases`).
-/

namespace Vrpy

open Spec

/-- The master problem's solver: dual values 18 and 5 before, 1 and 22 after the route for both customers is found. -/
def allCspySolver (prob : LP MVar) : Master.Answer :=
  let second := hasColumn (.elem 3) prob
  let pt := picking [.num 1, .num 2]
  { optimal := decide ((∀ d ∈ prob.vars, d.Holds pt) ∧ ∀ c ∈ prob.constrs, c.Holds pt), point := pt,
    visitDual := allDual second
    fleetDual := fun _ => allFleetDual second
    spanDual := fun _ => 0 }

noncomputable def allCspyWorld : World :=
  { cspyWorld [] (fun _ _ => 0) with master := fun _ => allCspySolver }

theorem allCspyWorld_ok : WorldOk allCspyWorld ∧ ∀ t q, CspyFinds q (allCspyWorld.cspy t q) :=
  ⟨⟨exWorld_ok.cw, fun _ => Cspy.exactLabels_sound, fun _ _ h => feasible_of _ _ (of_decide_eq_true h), exWorld_ok.paths,
    routePath_ok⟩, fun _ => Cspy.exactLabels_finds⟩

/-- A test for `DualsOk` if all vehicles are to be used: the dual values of the vehicles may be positive. -/
def dualsProveAll (M : Master) (cols : List Column) (a : Master.Answer) : Bool :=
  M.useAllVehicles &&
  decide (∀ v ∈ M.drops, a.visitDual v ≤ M.dropPenalty) &&
  decide ((M.objective cols).eval a.point ≤ (M.G.customers.map a.visitDual).sum +
    ((List.range M.numVehicles.length).map (fun k => a.fleetDual k * (M.numVehicles.getD k 0 : ℚ))).sum)

theorem dualsProveAll_ok {M : Master} {cols : List Column} {a : Master.Answer} (h : dualsProveAll M cols a = true) :
    DualsOk M cols a := by
  simp only [dualsProveAll, Bool.and_eq_true, decide_eq_true_eq] at h
  exact ⟨fun hu => (by rw [h.1.1] at hu; cases hu), h.1.2, h.2⟩

/-- All hypotheses of `C70_cspy_partial` hold for `allPlan`; its solution is two round trips, 46 altogether. -/
example : ∃ K, ∀ S, SolvesWithin allPlan K S → (∀ p ∈ S.routes, stops p.2 ≠ []) →
    46 ≤ (userCosts allPlan S).sum + 1 / 1000 * S.routes.length := by
  have hok : onTheWay allCspyWorld exBoundArgs 5 allPlan
      (fun M cols a => dualsProveAll M cols a && columnsPriced M cols a) = true := by
    decide +kernel
  have hleft : leftBehind allCspyWorld exBoundArgs 5 allPlan = some ([46, 46], 1, 2) := by decide +kernel
  unfold leftBehind at hleft
  split at hleft
  · cases hleft
  rename_i o ho
  split at hleft
  · rename_i o' hsolve
    simp only [Option.some.injEq, Prod.mk.injEq] at hleft
    obtain ⟨K, bound, _, hb, hS⟩ := C70_cspy_partial (a := exBoundArgs) allCspyWorld_ok.1 allCspyWorld_ok.2
      allPlan_capacitated.deliveries allPlan_nonnegative (allPlan_capacitated.cspyData) (le_refl _) rfl (by decide +kernel)
      (Or.inl (by decide +kernel)) rfl rfl rfl rfl rfl
      (by decide) ho (by
        intro P' P'' fuel cols m stm h1 h2 ht _
        have := onTheWay_ok hok ho h1 h2 ht
        simp only [Bool.and_eq_true] at this
        exact ⟨dualsProveAll_ok this.1, columnsPriced_ok this.2⟩) hsolve (Or.inl ⟨rfl, by rw [hleft.2.1]; decide⟩) (Or.inl rfl) (fun _ => rfl)
    rw [hleft.1] at hb
    simp only [List.getLast?_cons_cons, List.getLast?_singleton, Option.some.injEq] at hb
    subst hb
    refine ⟨K, fun S hSol hused => ?_⟩
    have := hS S hSol (fun _ => hused)
    have hp : allPlan.dropPenalty = 0 := rfl
    rw [hp] at this
    linarith
  · cases hleft

end Vrpy
