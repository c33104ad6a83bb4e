import Verif.Props.EndToEndLocked
import Verif.Props.EndToEndCases

/-!
# C68: examples with pricing by linear programming
-/

namespace Vrpy

open Spec

/-- `exPlan` or `collectPlan` with a third customer. -/
def lockedPlan (dc : Bool) : Vrp :=
  { (if dc then collectPlan else exPlan) with
    G := {
      nodes := [.source, .cust 1, .cust 2, .cust 3, .sink]
      nd := (if dc then collectPlan else exPlan).G.nd
      succ := fun u => match u with
        | .source => [.cust 1, .cust 2, .cust 3]
        | .cust 1 => [.cust 2, .sink]
        | .cust 2 => if dc then [.cust 1, .sink] else [.sink]
        | .cust 3 => [.sink]
        | _ => []
      ed := (if dc then collectPlan else exPlan).G.ed } }

def lockedArgs : SolveArgs := { exLpArgs with preassignments := [routeOf [.cust 3]] }

theorem lockedPlan_wf (dc : Bool) : (lockedPlan dc).G.WF := by
  refine ⟨by cases dc <;> decide, ?_, ?_⟩
  · intro u
    cases dc <;> simp only [lockedPlan] <;> split <;> decide
  · intro u v hv
    cases dc <;> simp only [lockedPlan] at hv ⊢ <;> split at hv <;> simp at hv <;>
      (try rcases hv with rfl | rfl | rfl) <;> decide

theorem lockedPlan_nonnegative (dc : Bool) : NonnegativeData (lockedPlan dc) where
  service := by cases dc <;> decide +kernel
  time := fun _ _ _ => by cases dc <;> simp [lockedPlan, exPlan, collectPlan]
  cost := by
    intro k u v _
    cases dc
    all_goals
      simp only [userArcCost, lockedPlan, exPlan, collectPlan, userCost, userFixedCost, Bool.false_eq_true, if_false, if_true]
      have h : ∀ x : ℚ, (x = 1 ∨ x = 10 ∨ x = 0 ∨ x = 3 ∨ x = 60) → 0 ≤ x := by
        rintro x (rfl | rfl | rfl | rfl | rfl) <;> norm_num
      refine ite_nonneg' (add_nonneg (h _ ?_) (h _ ?_)) (ite_nonneg' (le_refl _) (add_nonneg (by norm_num) (h _ ?_)))
      all_goals (repeat' split) <;> simp

theorem lockedPlan_capacitated : Capacitated (lockedPlan false) where
  wf := lockedPlan_wf false
  customer := ⟨1, by decide⟩
  costs := fun _ u v _ => ⟨_, Or.inl rfl⟩
  demand := by decide +kernel
  service := by decide +kernel
  timeWindows := rfl
  pickupDelivery := rfl
  distributionCollection := rfl
  periodic := rfl
  oneCapacity := by decide +kernel

theorem lockedPlan_collecting : WindowedOrCollecting (lockedPlan true) where
  wf := lockedPlan_wf true
  customer := ⟨1, by decide⟩
  costs := fun _ u v _ => ⟨_, Or.inl rfl⟩
  demand := by decide +kernel
  service := by decide +kernel
  either := Or.inr rfl
  source := fun h => (by cases h)
  windows := fun h => (by cases h)
  collect := fun _ => by decide +kernel
  pickupDelivery := rfl
  periodic := rfl
  oneCapacity := by decide +kernel

theorem lockedPlan_free (dc : Bool) : SomeCustomerFree (lockedPlan dc) lockedArgs.preassignments := by
  refine ⟨1, by cases dc <;> decide, ?_⟩
  intro p hp _
  simp only [lockedArgs, List.mem_cons, List.not_mem_nil, or_false] at hp
  subst hp
  decide

theorem lockedPlan_initial : InitialBesideLocked (lockedPlan true) lockedArgs.preassignments lockedArgs.initialRoutes := by
  intro r hr
  have h : r = routeOf [.cust 1] ∨ r = routeOf [.cust 2] := by simpa [lockedArgs, exLpArgs, exArgs] using hr
  obtain ⟨h1, h2⟩ := collectArgs_initial r hr
  refine ⟨h1, ?_, ?_⟩
  · intro n hn p hp _
    simp only [lockedArgs, List.mem_cons, List.not_mem_nil, or_false] at hp
    subst hp
    rcases h with rfl | rfl <;> simp [routeOf] at hn ⊢ <;> omega
  · intro mid k hm hload
    obtain ⟨l1, l2, _, l4, _⟩ := h2 mid k hm hload
    exact ⟨⟨l1, l2, fun h => (by cases h), l4, fun _ d hd => (by cases hd)⟩, fun d hd => (by cases hd)⟩

/-- All hypotheses of `C68_lp_partial` hold for the example. -/
example : LpWorldOk PositiveCycles exLpWorld ∧ Capacitated (lockedPlan false) ∧ NonnegativeData (lockedPlan false) ∧
    SomeCustomerFree (lockedPlan false) lockedArgs.preassignments ∧
    (∀ r ∈ lockedArgs.initialRoutes, r.Nodup ∧ WithinStops (lockedPlan false).numStops.stops (stops r).length) ∧
    planOf exLpWorld lockedArgs 5 (lockedPlan false) =
      .ok (some ⟨[(1, routeOf [.cust 1, .cust 2]), (2, routeOf [.cust 3])], [(1, 0), (2, 0)], []⟩) :=
  ⟨exLpWorld_ok, lockedPlan_capacitated, lockedPlan_nonnegative _, lockedPlan_free _, exLpArgs_initial,
    Solve.eq_ok_of_toOption (by decide +kernel)⟩

/-- All hypotheses of `C68_collect_lp_partial` hold for the example. -/
example : LpWorldOk PositiveCycles collectWorld ∧ WindowedOrCollecting (lockedPlan true) ∧ NonnegativeData (lockedPlan true) ∧
    SomeCustomerFree (lockedPlan true) lockedArgs.preassignments ∧
    InitialBesideLocked (lockedPlan true) lockedArgs.preassignments lockedArgs.initialRoutes ∧
    planOf collectWorld lockedArgs 5 (lockedPlan true) =
      .ok (some ⟨[(1, routeOf [.cust 1, .cust 2]), (2, routeOf [.cust 3])], [(1, 0), (2, 0)], []⟩) :=
  ⟨collectWorld_ok, lockedPlan_collecting, lockedPlan_nonnegative _, lockedPlan_free _, lockedPlan_initial,
    Solve.eq_ok_of_toOption (by decide +kernel)⟩

end Vrpy
