import Verif.Proofs.Windows

/-!
# Times, windows and collections of the user's graph in the network of the reports
-/

namespace Vrpy

open Spec

/-- The attributes that the reports read, for all nodes and arcs, those of preassigned routes included. -/
structure ReportData (P0 : Vrp) (N : Net) : Prop where
  service : ∀ v ∈ N.nodes, N.service v = userService P0.G v
  lower : ∀ v ∈ N.nodes, N.lower v = userLower P0.G v
  collect : ∀ v ∈ N.nodes, N.collect v = (P0.G.nd v).collect.getD 0
  time : ∀ u v, v ∈ N.succ u → N.time u v = userTime P0.G u v

theorem reportData {w : World} {a : SolveArgs} {P0 P' : Vrp} {o : Obj} {N : Net} (hwf : P0.G.WF)
    (hc : Obj.create P0 = .ok o)
    (h : o.P.startSolve w.dist a.strategy a.cspy a.initialRoutes a.preassignments = .ok P') (hH : P'.H = some N) :
    ReportData P0 N ∧ P'.duration = P0.duration ∧ P'.timeWindows = P0.timeWindows ∧ P'.pickupDelivery = P0.pickupDelivery ∧
      P'.distributionCollection = P0.distributionCollection ∧ P'.dropPenalty = P0.dropPenalty ∧
      P'.minimizeGlobalSpan = P0.minimizeGlobalSpan := by
  obtain ⟨G, hG, rfl⟩ := create_ok hc
  obtain ⟨g1, g2, g3, g4, g5, g6, g7, g8, g9, g10, g11, g12⟩ := C01_constructor_completes _ _ hwf hG
  set P1 : Vrp := { P0 with
      G := G
      numVehiclesSchedule := []
      vehicleTypes := none
      initialRoutes := []
      preassignments := []
      moreRoutes := false
      H := none } with hP1
  obtain ⟨G1, N', N1, N2, N3', S⟩ := startSolve_prepared h
  obtain ⟨f1, f2, f3, f4, f5, f6, f7, f8, f9, f10, f11, f12, f13, f14⟩ :=
    prepared_fields (P := P1) (R := a.initialRoutes) (Q := a.preassignments)
  obtain ⟨q1, q2, q3, q4⟩ := prepared_graph (P := P1) (R := a.initialRoutes) (Q := a.preassignments)
  have hres := S.result
  have hN' : N' = N := by
    have : P'.H = some N' := by rw [hres]
    rw [hH] at this
    exact (Option.some.inj this).symm
  subst hN'
  have hG1 : G1.nodes = P0.G.nodes ∧ G1.succ = G.succ ∧ G1.nd = P0.G.nd ∧ ∀ u v, (G1.ed u v).time = (G.ed u v).time := by
    have hfx := S.fixed
    unfold fixedStep at hfx
    split at hfx
    · obtain ⟨e1, e2, e3, e4, _⟩ := addFixedCosts_ok (by rw [q2]; exact g1.succ_nodup _) hfx
      exact ⟨by rw [e1, q1]; exact g8, by rw [e3, q2], by rw [e2, q3]; exact g9, fun u v => (e4 u v).trans (q4 u v)⟩
    · cases hfx
      exact ⟨by rw [q1]; exact g8, q2, by rw [q3]; exact g9, q4⟩
  have hs1 : Node.source ∈ G1.nodes := by rw [hG1.1, ← g8]; exact g2
  have ht1 : Node.sink ∈ G1.nodes := by rw [hG1.1, ← g8]; exact g3
  obtain ⟨N', d1, d2, d3, d4, d5, d6⟩ := C47_defaults (P'.vehicleTypes.getD 0) G1 hs1 ht1
  rw [S.dummy] at d1
  cases d1
  refine ⟨⟨?_, ?_, ?_, ?_⟩, ?_⟩
  · intro v hv
    obtain ⟨_, _, ⟨m1, m2⟩, _⟩ := d3 v (by rw [← d2]; exact hv)
    rw [hG1.2.2.1] at m1 m2
    exact getD_of m1 m2
  · intro v hv
    obtain ⟨_, _, _, ⟨m1, m2⟩, _⟩ := d3 v (by rw [← d2]; exact hv)
    rw [hG1.2.2.1] at m1 m2
    exact getD_of m1 m2
  · intro v hv
    obtain ⟨_, ⟨m1, m2⟩, _⟩ := d3 v (by rw [← d2]; exact hv)
    rw [hG1.2.2.1] at m1 m2
    exact getD_of m1 m2
  · have htime : ∀ u v, v ∈ G.succ u → N'.time u v = (G.ed u v).time.getD 0 := by
      intro u v hv
      obtain ⟨t1, t2, _⟩ := d5 u v (by rw [hG1.2.1]; exact hv)
      rw [hG1.2.2.2] at t1 t2
      exact getD_of t1 t2
    intro u v hv
    unfold userTime
    have hv := (d4 u v).1 hv
    rw [hG1.2.1] at hv
    rcases hv with h | ⟨rfl, rfl⟩
    · rw [htime u v h]
      by_cases hv' : v ∈ P0.G.succ u
      · rw [if_pos hv', g11 u v hv']
      · rw [if_neg hv', (g12 u v h hv').2.2]
        rfl
    · by_cases hv' : Node.sink ∈ P0.G.succ .source
      · rw [if_pos hv', htime _ _ ((g10 _).subset hv'), g11 _ _ hv']
      · have h0 : Node.sink ∉ G.succ .source := by
          intro h0
          rcases (g12 _ _ h0 hv').1 with ⟨_, n, hn⟩ | ⟨_, n, hn⟩ <;> cases hn
        rw [if_neg hv', (d6 (by rw [hG1.2.1]; exact h0)).1]
  · rw [hres]
    exact ⟨f4, f5, f6, f7, f8, f12⟩

/-- After a run the object has the data with which it was prepared, except for the initial routes. -/
theorem solve_data {w : World} {a : SolveArgs} {fuel : Nat} {o o' : Obj} (h : o.solve w a fuel = .ok (some o')) :
    ∃ P' rs, o.P.startSolve w.dist a.strategy a.cspy a.initialRoutes a.preassignments = .ok P' ∧
      o'.P = { P' with initialRoutes := rs } := by
  unfold Obj.solve at h
  split at h
  · cases h
  rename_i P' hstart
  refine ⟨P', ?_⟩
  split at h
  · split at h
    · cases h
    · rename_i o1 hcw
      simp only [Except.ok.injEq, Option.some.injEq] at h
      subst h
      unfold Obj.clarkeWright at hcw
      simp only [py_bind_ok] at hcw
      obtain ⟨_, _, _, _, hcw⟩ := hcw
      cases hcw
      exact ⟨P'.initialRoutes, hstart, rfl⟩
  · unfold Obj.columnGeneration at h
    split at h
    · cases h
    · cases h
    · rename_i P'' cols hi
      have hP : ∃ rs, P'' = { P' with initialRoutes := rs } := by
        unfold Vrp.initialize at hi
        split at hi
        · cases hi
        · cases hi
        · rename_i rs _
          split at hi
          · cases hi
          · simp only [Except.ok.injEq, Option.some.injEq, Prod.mk.injEq] at hi
            exact ⟨rs, hi.1.symm⟩
      obtain ⟨rs, rfl⟩ := hP
      split at h
      · cases h
      · split at h
        · cases h
        · cases h
        · split at h
          · cases h
          · rename_i o1 hp
            simp only [Except.ok.injEq, Option.some.injEq] at h
            subst h
            unfold Obj.postProcess at hp
            simp only [py_bind_ok] at hp
            obtain ⟨_, _, _, _, _, _, hp⟩ := hp
            cases hp
            exact ⟨rs, hstart, rfl⟩

end Vrpy
