import Verif.Props.BoundLockedCases
import Verif.Props.BoundLockedRequestsCases
import Verif.Props.EndToEndBoundLockedPeriodic
import Verif.Props.EndToEndBoundPeriodicCases

/-!
# Cases for C70 with preassigned routes in periodic problems
-/

namespace Vrpy

open Spec

/-- `weeklyPlan` with a third customer. -/
def lockedWeekly : Vrp :=
  { lockedPlan false with
    G := { (lockedPlan false).G with nd := weeklyPlan.G.nd }
    numVehicles := .one 1
    periodic := some 2 }

def lockedWeeklyArgs : SolveArgs := { weeklyArgs with preassignments := [routeOf [.cust 3]] }

def lockedWeeklyCspyArgs : SolveArgs := { weeklyCspyArgs with preassignments := [routeOf [.cust 3]] }

theorem lockedWeekly_deliveries : DeliveryData lockedWeekly where
  wf := ⟨(lockedPlan_wf false).1, (lockedPlan_wf false).2, (lockedPlan_wf false).3⟩
  customer := ⟨1, by decide⟩
  costs := fun _ u v _ => ⟨_, Or.inl rfl⟩
  demand := by
    intro v _
    simp only [userDemand, lockedWeekly, weeklyPlan]
    split <;> simp
  service := by simp [lockedWeekly, weeklyPlan, Node.isDepot]
  collect := fun h => (by cases h)
  times := fun h => (by cases h)
  pickupDelivery := rfl

theorem lockedWeekly_nonnegative : NonnegativeData lockedWeekly where
  service := by decide +kernel
  time := fun _ _ _ => by simp [lockedWeekly, lockedPlan, exPlan]
  cost := (lockedPlan_nonnegative false).cost

/-- All hypotheses of `C70_locked_periodic_partial` hold for the example: customer 3 is on a preassigned route, and two visits of customer 1 and
one of customer 2 cannot be had for less than 47. -/
example : ∃ K, ∀ S, ServesHorizon (withoutNodes lockedWeekly [.cust 3]) K S →
    47 ≤ (userCosts lockedWeekly S).sum + 1 / 1000 * S.routes.length := by
  have hok : onTheWay weeklyWorld lockedWeeklyArgs 5 lockedWeekly horizonDualsProve = true := by decide +kernel
  have hleft : leftBehind weeklyWorld lockedWeeklyArgs 5 lockedWeekly = some ([47], 0, 1) := by decide +kernel
  unfold leftBehind at hleft
  split at hleft
  · cases hleft
  rename_i o ho
  split at hleft
  · rename_i o' hsolve
    simp only [Option.some.injEq, Prod.mk.injEq] at hleft
    obtain ⟨K, bound, _, hb, hS⟩ := C70_locked_periodic_partial (a := lockedWeeklyArgs) (L := [.cust 3]) weeklyWorld_exact lockedWeekly_deliveries
      (by decide) lockedWeekly_nonnegative
      (by
        intro v
        simp only [lockedWeeklyArgs, List.mem_cons, List.not_mem_nil, or_false, exists_eq_left]
        constructor
        · rintro rfl
          exact ⟨⟨3, rfl⟩, ⟨rfl, rfl⟩, by decide⟩
        · rintro ⟨⟨n, rfl⟩, _, hv⟩
          simpa [routeOf] using hv)
      ⟨1, by decide, by decide⟩ (fun h => (by cases h)) (by decide +kernel) rfl rfl rfl (by decide) ho (by
        intro P' P'' fuel cols m stm h1 h2 ht _
        have := onTheWay_ok hok ho h1 h2 ht
        simp only [horizonDualsProve, Bool.and_eq_true, decide_eq_true_eq] at this
        exact ⟨this.1, this.2⟩) hsolve (Or.inl ⟨rfl, by rw [hleft.2.1]; decide⟩) (Or.inl rfl) (fun _ => rfl)
    rw [hleft.1] at hb
    simp only [List.getLast?_singleton, Option.some.injEq] at hb
    subst hb
    refine ⟨K, fun S hSol => ?_⟩
    have := hS S hSol
    have hp : lockedWeekly.dropPenalty = 0 := rfl
    rw [hp] at this
    linarith
  · cases hleft

/-- All hypotheses of `C70_locked_periodic_cspy_partial` hold for the example. -/
example : ∃ K, ∀ S, ServesHorizon (withoutNodes lockedWeekly [.cust 3]) K S →
    47 ≤ (userCosts lockedWeekly S).sum + 1 / 1000 * S.routes.length := by
  have hok : onTheWay weeklyCspyWorld lockedWeeklyCspyArgs 5 lockedWeekly horizonPriced = true := by decide +kernel
  have hleft : leftBehind weeklyCspyWorld lockedWeeklyCspyArgs 5 lockedWeekly = some ([47], 0, 1) := by decide +kernel
  unfold leftBehind at hleft
  split at hleft
  · cases hleft
  rename_i o ho
  split at hleft
  · rename_i o' hsolve
    simp only [Option.some.injEq, Prod.mk.injEq] at hleft
    obtain ⟨K, bound, _, hb, hS⟩ := C70_locked_periodic_cspy_partial (a := lockedWeeklyCspyArgs) (L := [.cust 3]) (cspyWorld_ok _ _).1 (cspyWorld_ok _ _).2
      lockedWeekly_deliveries (by decide) lockedWeekly_nonnegative
      (by
        intro v
        simp only [lockedWeeklyCspyArgs, List.mem_cons, List.not_mem_nil, or_false, exists_eq_left]
        constructor
        · rintro rfl
          exact ⟨⟨3, rfl⟩, ⟨rfl, rfl⟩, by decide⟩
        · rintro ⟨⟨n, rfl⟩, _, hv⟩
          simpa [routeOf] using hv)
      ⟨1, by decide, by decide⟩ (fun h => (by cases h))
      ⟨fun h => (by cases h), fun h => (by cases h), fun h => (by cases h), fun h => (by cases h)⟩ (by decide +kernel) rfl (by decide +kernel)
      (Or.inl (by decide +kernel)) rfl rfl rfl rfl (by decide) ho (by
        intro P' P'' fuel cols m stm h1 h2 ht _
        exact horizonPriced_ok (onTheWay_ok hok ho h1 h2 ht)) hsolve (Or.inl ⟨rfl, by rw [hleft.2.1]; decide⟩) (Or.inl rfl) (fun _ => rfl)
    rw [hleft.1] at hb
    simp only [List.getLast?_singleton, Option.some.injEq] at hb
    subst hb
    refine ⟨K, fun S hSol => ?_⟩
    have := hS S hSol
    have hp : lockedWeekly.dropPenalty = 0 := rfl
    rw [hp] at this
    linarith
  · cases hleft

abbrev lockedWeeklyRest : Vrp := withoutNodes lockedWeekly [.cust 3]

theorem lockedWeeklyRest_nodes : lockedWeeklyRest.G.nodes = [.source, .cust 1, .cust 2, .sink] := by decide

/-- There is such a plan. -/
example : ServesHorizon lockedWeeklyRest 1 ⟨[(1, routeOf [.cust 1]), (2, routeOf [.cust 1, .cust 2])], [(1, 0), (2, 0)], []⟩ := by
  have hroute : ∀ mid : List Node, mid = [.cust 1] ∨ mid = [.cust 1, .cust 2] →
      (∀ v ∈ mid, (∃ n, v = .cust n) ∧ v ∈ lockedWeeklyRest.G.nodes) ∧ Along (UserArc lockedWeeklyRest.G) (routeOf mid) ∧
        WithinLimitsOf lockedWeeklyRest 0 mid := by
    have hal : ∀ r : List Node, (∀ e ∈ consecutive r, e.2 ∈ lockedWeeklyRest.G.succ e.1) → Along (UserArc lockedWeeklyRest.G) r := by
      intro r hr
      rw [along_iff]
      exact fun u v huv => Or.inl (hr (u, v) huv)
    have hnone : ∀ x, Within (lockedWeeklyRest.duration.limit) x := fun x => by
      intro c hc
      simp [withoutNodes, lockedWeekly, lockedPlan, exPlan, PyVal.limit] at hc
    rintro mid (rfl | rfl)
    · refine ⟨by rw [lockedWeeklyRest_nodes]; simp, hal _ (by decide +kernel), ?_, ?_, hnone _, fun h => (by cases h), fun h => (by cases h)⟩
      · intro m hm
        have hm : (some 2 : Option Nat) = some m := hm
        cases hm
        decide
      · intro _
        exact ⟨5, by decide +kernel, by decide +kernel⟩
    · refine ⟨by rw [lockedWeeklyRest_nodes]; simp, hal _ (by decide +kernel), ?_, ?_, hnone _, fun h => (by cases h), fun h => (by cases h)⟩
      · intro m hm
        have hm : (some 2 : Option Nat) = some m := hm
        cases hm
        decide
      · intro _
        exact ⟨5, by decide +kernel, by decide +kernel⟩
  have hvis : ∀ n, Node.cust n ∈ lockedWeeklyRest.G.nodes → n = 1 ∨ n = 2 := by
    intro n hn
    rw [lockedWeeklyRest_nodes] at hn
    simpa using hn
  refine ⟨⟨?_, ?_, fun v hv => (by cases hv), fun _ => rfl⟩, ?_⟩
  · intro i r hir
    simp only [List.mem_cons, Prod.mk.injEq, List.not_mem_nil, or_false] at hir
    rcases hir with ⟨rfl, rfl⟩ | ⟨rfl, rfl⟩
    · obtain ⟨a, b, c⟩ := hroute _ (Or.inl rfl)
      exact ⟨_, rfl, by decide, a, b, 0, by decide, rfl, _, rfl, c⟩
    · obtain ⟨a, b, c⟩ := hroute _ (Or.inr rfl)
      exact ⟨_, rfl, by decide, a, b, 0, by decide, rfl, _, rfl, c⟩
  · intro n hn
    rcases hvis n hn with rfl | rfl <;> decide +kernel
  · intro n hn
    rcases hvis n hn with rfl | rfl <;> decide +kernel

/-- It costs 47. -/
example : (userCosts lockedWeekly ⟨[(1, routeOf [.cust 1]), (2, routeOf [.cust 1, .cust 2])], [(1, 0), (2, 0)], []⟩).sum = 47 := by
  decide +kernel

/-- The trip for the request that is not preassigned, on both days. -/
def besideWeeklyArgs : SolveArgs :=
  { besideArgs with initialRoutes := [routeOf [.cust 1, .cust 3], routeOf [.cust 1, .cust 3]] }

noncomputable def besideWeeklyWorld : World :=
  { besideWorld with master := fun _ => masterOf [choosing [1, 2]] (fun _ => besideDual) }

theorem weeklyTransport_nonnegative : NonnegativeData weeklyTransport where
  service := exTransport_nonnegative.service
  time := exTransport_nonnegative.time
  cost := exTransport_nonnegative.cost

/-- All hypotheses of `C70_locked_periodic_requests_partial` hold for the example: to transport the request from 1 to 3 twice costs at least 42. -/
example : ∃ K, ∀ S, TransportsHorizon (withoutNodes weeklyTransport [.cust 2, .cust 4]) K S →
    42 ≤ (userCosts weeklyTransport S).sum + 1 / 1000 * S.routes.length := by
  have hok : onTheWay besideWeeklyWorld besideWeeklyArgs 5 weeklyTransport horizonDualsProve = true := by decide +kernel
  have hleft : leftBehind besideWeeklyWorld besideWeeklyArgs 5 weeklyTransport = some ([42], 0, 1) := by decide +kernel
  unfold leftBehind at hleft
  split at hleft
  · cases hleft
  rename_i o ho
  split at hleft
  · rename_i o' hsolve
    simp only [Option.some.injEq, Prod.mk.injEq] at hleft
    obtain ⟨K, bound, _, hb, hS⟩ := C70_locked_periodic_requests_partial (a := besideWeeklyArgs) (L := [.cust 2, .cust 4])
      (fun _ => besideSolver_ok) weeklyTransport_ok (by decide) weeklyTransport_nonnegative
      (by
        intro v
        simp only [besideWeeklyArgs, besideArgs, List.mem_cons, List.not_mem_nil, or_false, exists_eq_left]
        constructor
        · rintro (rfl | rfl)
          · exact ⟨⟨2, rfl⟩, ⟨rfl, rfl⟩, by decide⟩
          · exact ⟨⟨4, rfl⟩, ⟨rfl, rfl⟩, by decide⟩
        · rintro ⟨⟨n, rfl⟩, _, hv⟩
          simpa [routeOf] using hv)
      ⟨1, by decide, by decide⟩
      (by
        intro v w hvw
        have hvw : Request exTransport v w := hvw
        rcases exTransport_request hvw with ⟨rfl, rfl⟩ | ⟨rfl, rfl⟩ <;> simp)
      (fun _ => ⟨⟨beside_times.1, beside_times.2, beside_times.3, beside_times.4, beside_times.5⟩,
        ⟨beside_wide.1, beside_wide.2, beside_wide.3, beside_wide.4, beside_wide.5, beside_wide.6⟩⟩) (le_refl _) rfl rfl rfl (by decide) ho (by
        intro P' P'' fuel cols m stm h1 h2 ht _
        have := onTheWay_ok hok ho h1 h2 ht
        simp only [horizonDualsProve, Bool.and_eq_true, decide_eq_true_eq] at this
        exact ⟨this.1, this.2⟩) hsolve (Or.inl ⟨rfl, by rw [hleft.2.1]; decide⟩) (Or.inl rfl) (fun _ => rfl)
    rw [hleft.1] at hb
    simp only [List.getLast?_singleton, Option.some.injEq] at hb
    subst hb
    refine ⟨K, fun S hSol => ?_⟩
    have := hS S hSol
    have hp : weeklyTransport.dropPenalty = 0 := rfl
    rw [hp] at this
    linarith
  · cases hleft

abbrev besideWeekly : Vrp := withoutNodes weeklyTransport [.cust 2, .cust 4]

theorem besideWeekly_nodes : besideWeekly.G.nodes = [.source, .cust 1, .cust 3, .sink] := by decide

/-- There is such a plan. -/
example : TransportsHorizon besideWeekly 1 ⟨[(1, routeOf [.cust 1, .cust 3]), (2, routeOf [.cust 1, .cust 3])], [(1, 0), (2, 0)], []⟩ := by
  have hroute : RequestRoute besideWeekly 0 [.cust 1, .cust 3] := by
    have hreq : ∀ v w, Request besideWeekly v w → v = .cust 1 ∧ w = .cust 3 ∨ v = .cust 2 ∧ w = .cust 4 := by
      intro v w h
      exact exTransport_request ⟨(without_nodes.1 h.1).1, h.2⟩
    have hcaps : userCapacities besideWeekly.loadCapacity = [5] := by decide +kernel
    have hwin : UserOnTime besideWeekly.G (routeOf [.cust 1, .cust 3]) := by
      show ∀ p ∈ userArrivals besideWeekly.G (userLower besideWeekly.G .source) .source [.cust 1, .cust 3, .sink], _
      decide +kernel
    have hdur : Within besideWeekly.duration.limit (userDuration besideWeekly.G (routeOf [.cust 1, .cust 3])) := by
      intro d hd
      have : (60 : ℚ) = d := by simpa [withoutNodes, weeklyTransport, exTransport, PyVal.limit] using hd
      rw [← this]
      decide +kernel
    refine ⟨⟨?_, ?_, ?_, ?_, by decide +kernel, fun _ _ => hwin, fun _ => hdur⟩, fun _ => hwin, hdur⟩
    · intro m hm _
      have : (4 : Nat) = m := by simpa [withoutNodes, weeklyTransport, exTransport, PyVal.stops] using hm
      simp [← this]
    · intro v w h
      rcases hreq v w h with ⟨rfl, rfl⟩ | ⟨rfl, rfl⟩ <;> decide
    · intro v w h
      rcases hreq v w h with ⟨rfl, rfl⟩ | ⟨rfl, rfl⟩ <;> decide
    · intro pre post hpp
      have : ∀ n ≤ 2, 0 ≤ ((([Node.cust 1, .cust 3].take n).map (userDemand besideWeekly.G))).sum ∧
          ((([Node.cust 1, .cust 3].take n).map (userDemand besideWeekly.G))).sum ≤ 5 := by decide +kernel
      have h1 := this pre.length (by
        have := congrArg List.length hpp
        simp only [List.length_append, List.length_cons, List.length_nil] at this
        omega)
      rw [hpp, List.take_left'] at h1
      · exact ⟨h1.1, fun _ => ⟨5, by rw [hcaps]; rfl, h1.2⟩⟩
      · rfl
  have hal : Along (UserArc besideWeekly.G) (routeOf [.cust 1, .cust 3]) := by
    have h : ∀ e ∈ consecutive (routeOf [.cust 1, .cust 3]), e.2 ∈ besideWeekly.G.succ e.1 := by decide +kernel
    rw [along_iff]
    exact fun u v huv => Or.inl (h (u, v) huv)
  have hvis : ∀ n, Node.cust n ∈ besideWeekly.G.nodes → n = 1 ∨ n = 3 := by
    intro n hn
    rw [besideWeekly_nodes] at hn
    simpa using hn
  refine ⟨⟨?_, ?_, fun v hv => (by cases hv), fun _ => rfl⟩, ?_⟩
  · intro i r hir
    simp only [List.mem_cons, Prod.mk.injEq, List.not_mem_nil, or_false] at hir
    rcases hir with ⟨rfl, rfl⟩ | ⟨rfl, rfl⟩ <;>
      exact ⟨_, rfl, by decide, by rw [besideWeekly_nodes]; simp, hal, 0, by decide, rfl, _, rfl, hroute⟩
  · intro n hn
    rcases hvis n hn with rfl | rfl <;> decide +kernel
  · intro n hn
    rcases hvis n hn with rfl | rfl <;> decide +kernel

/-- It costs 42. -/
example : (userCosts weeklyTransport ⟨[(1, routeOf [.cust 1, .cust 3]), (2, routeOf [.cust 1, .cust 3])], [(1, 0), (2, 0)], []⟩).sum = 42 := by
  decide +kernel

end Vrpy
