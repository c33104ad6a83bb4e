import Verif.Model.ObjectReports
import Verif.Props.EndToEndPeriodic
import Verif.Props.Resolve
import Verif.Props.ResolveCases

/-!
# C86: the schedule that is reported belongs to the last call
-/

namespace Vrpy

open Spec

/-- `sch` drives every route of `S` on one of `span` days, with at most `fleet[k]` vehicles of type `k` a day. -/
structure Spec.DrivesEach (span : Nat) (fleet : List Nat) (S : Solution) (sch : Dict Nat (List Nat)) : Prop where
  days : (sch.map Prod.fst).Nodup
  horizon : ∀ e ∈ sch, e.1 < span
  each : (sch.flatMap Prod.snd).Perm (S.routes.map Prod.fst)
  fleet : ∀ e ∈ sch, ∀ k n, fleet[k]? = some n → typeCount S.types k e.2 ≤ n

theorem dset_nodup {κ α : Type} [DecidableEq κ] {d : Dict κ α} (h : (d.map Prod.fst).Nodup) (k : κ) (v : α) :
    ((dset d k v).map Prod.fst).Nodup := by
  rw [dset_keys]
  split
  · exact h
  · rename_i hk
    rw [List.nodup_append]
    exact ⟨h, List.nodup_singleton _, fun a ha b hb => by
      rw [List.mem_singleton] at hb
      subst hb
      rintro rfl
      exact hk ha⟩

/-- The routes that are reported have different numbers. -/
theorem nodeLists_keys {H : Net} {caps : List ℚ} {K : Nat} {path : Column → List Node} {graphs : List Column}
    {pre : List (List Node)} {rt : Dict Nat (List Node) × Dict Nat Nat}
    (h : bestRoutesAsNodeLists H caps K path graphs pre = .ok rt) : (rt.1.map Prod.fst).Nodup := by
  unfold bestRoutesAsNodeLists at h
  split at h
  · cases h
  rename_i st hst
  cases h
  refine foldlM_inv (P := fun st : Dict Nat (List Node) × Dict Nat Nat × Nat => (st.1.map Prod.fst).Nodup) _ _ _ ?_ ?_ hst
  · have : ∀ (l : List Column) (st : Dict Nat (List Node) × Dict Nat Nat × Nat), (st.1.map Prod.fst).Nodup →
        ((l.foldl (addGraph path) st).1.map Prod.fst).Nodup := by
      intro l
      induction l with
      | nil => exact fun _ h => h
      | cons c l ih => exact fun st h => ih _ (dset_nodup h _ _)
    exact this graphs _ List.nodup_nil
  · intro st r st' _ hP hs
    unfold mergeLocked at hs
    split at hs
    · cases hs
    split at hs
    · split at hs
      · cases hs
      · cases hs
        exact dset_nodup hP _ _
      · cases hs
        exact dset_nodup hP _ _
    · cases hs
      exact hP

/-- **C86.** After every `solve()` that returns, on an object with any history, with any arguments: the schedule reported is
`None` if the problem is not periodic; otherwise it is empty, or it drives each route reported by this call on one day of the
horizon, with the vehicles that `num_vehicles` allowed when the method was called, and with one visit a day of each customer with
demand that is in the graph and that no route visits twice. -/
theorem C86_schedule {w : World} {a : SolveArgs} {fuel : Nat} {o o' : Obj} (hw : ScheduleOk w)
    (h : o.solve w a fuel = .ok (some o')) :
    (o.P.periodic.getD 0 = 0 → o'.scheduleReport = none) ∧
    (o.P.periodic.getD 0 ≠ 0 → ∃ sch, o'.scheduleReport = some sch ∧
      (sch = [] ∨ DrivesEach (o.P.periodic.getD 0) (userFleet o.P.numVehicles) o'.solution sch ∧
        ∀ e ∈ sch, ∀ v ∈ o'.P.G.nodes, 0 < userDemand o'.P.G v → (∀ r ∈ o'.solution.routes, r.2.count v ≤ 1) →
          (visitsOf o'.solution.routes e.2).count v ≤ 1)) := by
  unfold Obj.solve at h
  split at h
  · cases h
  rename_i P1 hP1
  obtain ⟨G1, N, N1, N2, N3, S⟩ := startSolve_prepared hP1
  have hper : P1.periodic = o.P.periodic := by
    rw [S.result]
    exact prepared_fields.2.2.2.2.2.2.2.2.2.1
  have hfl : P1.periodic.getD 0 ≠ 0 → P1.numVehiclesSchedule = userFleet o.P.numVehicles := by
    intro hne
    rw [hper] at hne
    have h1 := prepared_fleet S.vt
    have h2 : (o.P.prepared a.initialRoutes a.preassignments).periodic.getD 0 ≠ 0 := by
      rw [prepared_fields.2.2.2.2.2.2.2.2.2.1]
      exact hne
    have hr := congrArg Vrp.numVehiclesSchedule S.result
    simp only at hr
    rw [hr]
    unfold checkPeriodicNumVehicles
    rw [h1]
    split
    · rfl
    · rename_i hx
      show [] = _
      by_contra hy
      exact hx ⟨h2, fun hz => hy hz.symm⟩
  split at h
  · -- Clarke & Wright
    split at h
    · cases h
    rename_i o2 ho2
    cases h
    unfold Obj.clarkeWright at ho2
    simp only [py_bind_ok] at ho2
    obtain ⟨_, hchk, r, _, ho2⟩ := ho2
    simp only [pure, Except.pure, Except.ok.injEq] at ho2
    subst ho2
    have h0 : P1.periodic.getD 0 = 0 := by
      by_contra hne
      simp [checkClarkeWrightCompatibility, hne] at hchk
    refine ⟨fun _ => by simp [Obj.scheduleReport, h0], fun hne => ?_⟩
    rw [hper] at h0
    exact absurd h0 hne
  · unfold Obj.columnGeneration at h
    split at h
    · cases h
    · cases h
    rename_i P2 cols hinit
    obtain ⟨hP2, _, _⟩ := initialize_object hinit
    split at h
    · cases h
    split at h
    · cases h
    · cases h
    split at h
    · cases h
    rename_i o2 hpost
    cases h
    unfold Obj.postProcess at hpost
    simp only [py_bind_ok] at hpost
    obtain ⟨dropped, hdrop, rt, hrt, sch, hsch, hpost⟩ := hpost
    simp only [pure, Except.pure, Except.ok.injEq] at hpost
    subst hpost
    have hper2 : P2.periodic = o.P.periodic := by rw [hP2]; exact hper
    refine ⟨fun h0 => ?_, fun hne => ?_⟩
    · simp [Obj.scheduleReport, hper2, h0]
    · have hne2 : P2.periodic.getD 0 ≠ 0 := by rw [hper2]; exact hne
      refine ⟨sch, by simp [Obj.scheduleReport, hne2], ?_⟩
      unfold Obj.makeSchedule at hsch
      rw [if_neg hne2] at hsch
      simp only at hsch
      split at hsch
      · cases hsch
      rename_i lp hlp
      cases hsch
      cases hopt : (w.schedule lp).1 with
      | false => exact Or.inl (by simp [Schedule.routesPerDay])
      | true =>
        right
        have hlp' := hlp
        unfold Schedule.formulate at hlp'
        split at hlp'
        · cases hlp'
        cases hlp'
        obtain ⟨h1, h2, h3, h4, h5⟩ := Schedule.days_of_feasible (nodeLists_keys hrt) (hw _ hopt)
        have hf2 : P2.numVehiclesSchedule = userFleet o.P.numVehicles := by
          rw [hP2]
          exact hfl (by rw [hper]; exact hne)
        refine ⟨⟨h1, fun e he => by rw [← hper2]; exact h2 e he, h3, ?_⟩, ?_⟩
        · intro e he k n hk
          rw [← hf2] at hk
          exact h5 e he k n hk
        · intro e he v hv hd hel
          exact h4 e he v hv hd hel

/-! ## Examples -/

/-- The routes and the schedules of two calls, one after the other. -/
def schedulesOf (w : World) (a : SolveArgs) (fuel : Nat) (P : Vrp) :
    Option ((Solution × Option (Dict Nat (List Nat))) × Solution × Option (Dict Nat (List Nat))) :=
  match Obj.create P with
  | .error _ => none
  | .ok o =>
    match o.solve w a fuel with
    | .ok (some o1) =>
      match o1.solve w a fuel with
      | .ok (some o2) => some ((o1.solution, o1.scheduleReport), o2.solution, o2.scheduleReport)
      | _ => none
    | _ => none

set_option synthInstance.maxSize 1000 in
/-- The hypotheses of `C86_schedule` hold for a periodic problem, whose routes are put on two days in both calls, and for one that is
not periodic. -/
example : let w := periodicWorld [choosing [1, 2]] (fun _ _ => 0) [onDays [(1, 0), (2, 1)] 1 1]
    let S : Solution := ⟨[(1, routeOf [.cust 1]), (2, routeOf [.cust 2])], [(1, 0), (2, 0)], []⟩
    ScheduleOk w ∧ schedulesOf w {} 5 (exWeekly 1 2 100) = some ((S, some [(0, [1]), (1, [2])]), S, some [(0, [1]), (1, [2])]) ∧
      schedulesOf w { initialRoutes := [routeOf [.cust 1], routeOf [.cust 2]] } 5
        { exWeekly 1 2 100 with numVehicles := .one 2, periodic := none } = some ((S, none), S, none) :=
  ⟨periodicWorld_schedule _ _ _, by decide +kernel, by decide +kernel⟩

set_option synthInstance.maxSize 1000 in
/-- **C86**, counterexample for the fleet the user gave: one vehicle and one day, both customers need a route of their own.  The
first call finds that there is no schedule; the second one, which has lost the fleet, puts both routes on the only day. -/
theorem C86_fleet_counterexample :
    let P := exWeekly 1 1 100
    let w := periodicWorld [choosing [1, 2]] (fun _ _ => 0) [onDays [(1, 0), (2, 0)] 2 2]
    let S : Solution := ⟨[(1, routeOf [.cust 1]), (2, routeOf [.cust 2])], [(1, 0), (2, 0)], []⟩
    WorldOk w ∧ ScheduleOk w ∧ CapacitatedData P ∧ userFleet P.numVehicles = [1] ∧
    schedulesOf w {} 5 P = some ((S, some []), S, some [(0, [1, 2])]) ∧ typeCount S.types 0 [1, 2] = 2 :=
  ⟨periodicWorld_ok _ _ _, periodicWorld_schedule _ _ _, exWeekly_capacitated _ _ _, by decide, by decide +kernel, by decide⟩

end Vrpy
