import Verif.Proofs.Object

/-!
# The user's data in the network of the reports
-/

namespace Vrpy

open Spec

/-- The attributes of the user's graph in `N`, beyond those in `Searched`. -/
structure UserData (P0 P' : Vrp) (N : Net) : Prop where
  collect : ∀ v ∈ N.nodes, N.collect v = (P0.G.nd v).collect.getD 0
  lower : ∀ v ∈ N.nodes, N.lower v = (P0.G.nd v).lower.getD 0
  upper : ∀ v ∈ N.nodes, v ≠ .sink → N.upper v = (P0.G.nd v).upper.getD 0
  upperSink : (P0.G.nd .sink).upper.getD 0 ≠ 0 → N.upper .sink = (P0.G.nd .sink).upper.getD 0
  upperSinkSet : (P0.G.nd .sink).upper.getD 0 = 0 → ∀ u t, Node.sink ∈ N.succ u → t ≤ N.upper u →
    t + N.service u + N.time u .sink ≤ N.upper .sink
  freq : ∀ v ∈ N.nodes, N.freq v = (P0.G.nd v).frequency.getD 1
  request : ∀ v ∈ N.nodes, N.request v = (P0.G.nd v).request
  firstNode : N.nodes = P0.G.nodes
  stops : (P0.distributionCollection = true → ∀ v ∈ P0.G.nodes, 0 ≤ (P0.G.nd v).collect.getD 0 ∧
      (v = .source ∨ v = .sink → (P0.G.nd v).collect.getD 0 = 0)) →
    ∀ n, WithinStops P'.numStops.stops n → WithinStops P0.numStops.stops n

theorem getD_of {α : Type} {x y : α} {o : Option α} (h1 : o = none → x = y) (h2 : ∀ q, o = some q → x = q) : x = o.getD y := by
  cases o with
  | none => exact h1 rfl
  | some q => exact h2 q rfl

theorem userData_locked {w : World} {a : SolveArgs} {P0 P' : Vrp} {o : Obj} {N : Net} (hwf : P0.G.WF)
    (hdem : P0.pickupDelivery = false → ∀ v ∈ P0.G.nodes, 0 ≤ userDemand P0.G v)
    (hc : Obj.create P0 = .ok o)
    (h : o.P.startSolve w.dist a.strategy a.cspy a.initialRoutes a.preassignments = .ok P') (hH : P'.H = some N) :
    UserData (withoutNodes P0 (lockedNodes a.preassignments))
      { P' with
        H := some (N.removeNodes (lockedNodes a.preassignments))
        preassignments := []
        moreRoutes := true } (N.removeNodes (lockedNodes a.preassignments)) := by
  obtain ⟨G, hG, rfl⟩ := create_ok hc
  obtain ⟨g1, g2, g3, g4, g5, g6, g7, g8, g9, g10, g11, g12⟩ := C01_constructor_completes _ _ hwf hG
  set P1 : Vrp := { P0 with
      G := G
      numVehiclesSchedule := []
      vehicleTypes := none
      initialRoutes := []
      preassignments := []
      moreRoutes := false
      H := none } with hP1
  obtain ⟨G1, N', N1, N2, N3', S⟩ := startSolve_prepared h
  obtain ⟨f1, f2, f3, f4, f5, f6, f7, f8, f9, f10, f11, f12, f13, f14⟩ :=
    prepared_fields (P := P1) (R := a.initialRoutes) (Q := a.preassignments)
  obtain ⟨q1, q2, q3, q4⟩ := prepared_graph (P := P1) (R := a.initialRoutes) (Q := a.preassignments)
  obtain ⟨hcaps, hcpos⟩ := prepared_capacities S
  have hres := S.result
  have hN' : N' = N := by
    have : P'.H = some N' := by rw [hres]
    rw [hH] at this
    exact (Option.some.inj this).symm
  subst hN'
  have hpre' : (P1.prepared a.initialRoutes a.preassignments).preassignments = a.preassignments := by
    rw [f1]
    split
    · rfl
    · rename_i h0
      push Not at h0
      rw [h0]
  have hlock := S.locked
  rw [hpre'] at hlock
  obtain ⟨⟨c, hN1, hc0⟩, halong⟩ := lockStep_eq hlock
  set L := lockedNodes a.preassignments with hL
  subst hN1
  have hG1 : G1.nodes = P0.G.nodes ∧ G1.succ = G.succ ∧ G1.nd = P0.G.nd := by
    have hfx := S.fixed
    unfold fixedStep at hfx
    split at hfx
    · obtain ⟨e1, e2, e3, _⟩ := addFixedCosts_ok (by rw [q2]; exact g1.succ_nodup _) hfx
      exact ⟨by rw [e1, q1]; exact g8, by rw [e3, q2], by rw [e2, q3]; exact g9⟩
    · cases hfx
      exact ⟨by rw [q1]; exact g8, q2, by rw [q3]; exact g9⟩
  have hs1 : Node.source ∈ G1.nodes := by rw [hG1.1, ← g8]; exact g2
  have ht1 : Node.sink ∈ G1.nodes := by rw [hG1.1, ← g8]; exact g3
  have hwf1 : G1.WF := ⟨by rw [hG1.1, ← g8]; exact g1.nodes_nodup, fun u => by rw [hG1.2.1]; exact g1.succ_nodup u,
    fun u v hv => by rw [hG1.1, ← g8]; rw [hG1.2.1] at hv; exact g1.succ_mem u v hv⟩
  obtain ⟨hwfN, hnodesN⟩ := updateDummy_wf hwf1 hs1 ht1 (by rw [hG1.2.1]; exact g4) (by rw [hG1.2.1]; exact g5) S.dummy
  obtain ⟨N', d1, _, d3, _, d5, d6⟩ := C47_defaults (P'.vehicleTypes.getD 0) G1 hs1 ht1
  rw [S.dummy] at d1
  cases d1
  obtain ⟨N4, w1, w2, w3⟩ := C48_sink_window (P'.vehicleTypes.getD 0) G1 hs1 ht1 hwf1
    (List.eq_nil_iff_forall_not_mem.2 (by rw [hG1.2.1]; exact g5))
  rw [S.dummy] at w1
  cases w1
  obtain ⟨hsL, htL⟩ := lockedNodes_depots hwfN halong
  have hwfM := removeNodes_wf hwfN hsL htL
  have hM : ∀ v, v ∈ (N'.removeNodes L).nodes → v ∈ N'.nodes ∧ v ∉ L := fun v => by
    simp [Net.removeNodes]
  have hmem : ∀ v, v ∈ (N'.removeNodes L).nodes → v ∈ G1.nodes := fun v hv => by rw [← hnodesN]; exact (hM v hv).1
  have hcollect : ∀ v ∈ (N'.removeNodes L).nodes, N'.collect v = (P0.G.nd v).collect.getD 0 := by
    intro v hv
    obtain ⟨_, ⟨m1, m2⟩, _⟩ := d3 v (hmem v hv)
    rw [hG1.2.2] at m1 m2
    exact getD_of m1 m2
  refine ⟨hcollect, ?_, ?_, ?_, ?_, ?_, ?_, ?_, ?_⟩
  · intro v hv
    obtain ⟨_, _, _, ⟨m1, m2⟩, _⟩ := d3 v (hmem v hv)
    rw [hG1.2.2] at m1 m2
    exact getD_of m1 m2
  · intro v hv hne
    obtain ⟨_, _, _, _, m, _⟩ := d3 v (hmem v hv)
    obtain ⟨m1, m2⟩ := m hne
    rw [hG1.2.2] at m1 m2
    exact getD_of m1 m2
  · intro hne
    replace hne : (P0.G.nd .sink).upper.getD 0 ≠ 0 := hne
    show N'.upper .sink = (P0.G.nd .sink).upper.getD 0
    rw [hG1.2.2] at w2
    cases hd : (P0.G.nd .sink).upper with
    | none => rw [hd] at hne; exact absurd rfl hne
    | some q =>
      rw [hd] at hne
      exact w2 q hd hne
  · intro h0
    suffices hs : ∀ u t, Node.sink ∈ N'.succ u → t ≤ N'.upper u → t + N'.service u + N'.time u .sink ≤ N'.upper .sink from
      fun u t hu ht => hs u t (mem_removeNodes_succ.1 hu).1 ht
    replace h0 : (P0.G.nd .sink).upper.getD 0 = 0 := h0
    refine (w3 ?_).1
    rw [hG1.2.2]
    cases hd : (P0.G.nd .sink).upper with
    | none => exact Or.inl rfl
    | some q =>
      rw [hd] at h0
      simp only [Option.getD_some] at h0
      rw [h0]
      exact Or.inr rfl
  · intro v hv
    obtain ⟨_, _, _, _, _, ⟨m1, m2⟩, _⟩ := d3 v (hmem v hv)
    rw [hG1.2.2] at m1 m2
    exact getD_of m1 m2
  · intro v hv
    obtain ⟨_, _, _, _, _, _, m⟩ := d3 v (hmem v hv)
    rw [hG1.2.2] at m
    exact m
  · show N'.nodes.filter _ = P0.G.nodes.filter _
    rw [hnodesN.trans hG1.1]
  · intro hcol n hn
    have hst := S.stops
    unfold stopsStep at hst
    rw [f3, f6, f7] at hst
    split at hst
    · rename_i hcond
      have hprune := S.pruned
      unfold pruneStep at hprune
      split at hprune
      · cases hprune
      have hpd := pruneGraph_same hprune
      have hnd2 : N2.nodes = (N'.removeNodes L).nodes := hpd.nodes_eq
      have hde2 : N2.demand = N'.demand := hpd.same.demand
      have hco2 : N2.collect = N'.collect := hpd.same.collect
      have hdemand : ∀ v ∈ (N'.removeNodes L).nodes, 0 ≤ N'.demand v ∧ (v = .source ∨ v = .sink → N'.demand v = 0) := by
        intro v hv
        obtain ⟨⟨m1, m2, m3⟩, _⟩ := d3 v (hmem v hv)
        rw [hG1.2.2] at m1 m2 m3
        have h0 := hdem hcond.2 v (by rw [← hG1.1]; exact hmem v hv)
        unfold userDemand at h0
        cases hd : (P0.G.nd v).demand with
        | none => rw [m1 hd]; exact ⟨le_refl _, fun _ => rfl⟩
        | some q =>
          rw [hd] at h0
          simp only [Option.getD_some] at h0
          by_cases hdep : (v = .source ∨ v = .sink) ∧ 0 < q
          · rw [m2 q hd hdep.1 hdep.2]; exact ⟨le_refl _, fun _ => rfl⟩
          · rw [m3 q hd hdep]
            refine ⟨h0, fun hd' => ?_⟩
            by_contra hne
            exact hdep ⟨hd', lt_of_le_of_ne h0 (Ne.symm hne)⟩
      obtain ⟨b, hb1, hb2, hb3, hb4⟩ := C03_stops_bound_sound N2 (by rw [hnd2]; exact hwfM.source_mem)
        (by rw [hnd2]; exact hwfM.sink_mem) (by rw [hnd2, hde2]; exact fun v hv => (hdemand v hv).1)
        (by
          rw [hde2]
          exact ⟨(hdemand _ hwfM.source_mem).2 (Or.inl rfl), (hdemand _ hwfM.sink_mem).2 (Or.inr rfl)⟩)
        P1.distributionCollection
        (by
          intro hdc
          have hcol := hcol hdc
          rw [hco2, hnd2]
          have hin : ∀ v ∈ (N'.removeNodes L).nodes, v ∈ (withoutNodes P0 L).G.nodes := fun v hv =>
            List.mem_filter.2 ⟨by rw [← hG1.1]; exact hmem v hv, by simpa using (hM v hv).2⟩
          refine ⟨fun v hv => ?_, ?_, ?_⟩
          · rw [hcollect v hv]
            exact (hcol v (hin v hv)).1
          · rw [hcollect _ hwfM.source_mem]
            exact (hcol _ (hin _ hwfM.source_mem)).2 (Or.inl rfl)
          · rw [hcollect _ hwfM.sink_mem]
            exact (hcol _ (hin _ hwfM.sink_mem)).2 (Or.inr rfl))
        ((capacities (P1.prepared a.initialRoutes a.preassignments).loadCapacity.toList).foldl max 0).floor.toNat
        P1.numStops.stops
      rw [hb1] at hst
      simp only [Except.ok.injEq] at hst
      have hstops : P'.numStops.stops = some b := by
        rw [← hst]
        simp [PyVal.stops, hb2]
      rw [hstops] at hn
      intro m hm hm0
      exact (hn b rfl (by omega)).trans (hb3 m hm hm0)
    · simp only [Except.ok.injEq] at hst
      rw [← hst] at hn
      exact hn

theorem userData_of {w : World} {a : SolveArgs} {P0 P' : Vrp} {o : Obj} {N : Net} (hwf : P0.G.WF)
    (hdem : P0.pickupDelivery = false → ∀ v ∈ P0.G.nodes, 0 ≤ userDemand P0.G v) (hpre : a.preassignments = [])
    (hc : Obj.create P0 = .ok o)
    (h : o.P.startSolve w.dist a.strategy a.cspy a.initialRoutes a.preassignments = .ok P') (hH : P'.H = some N) :
    UserData P0 P' N := by
  have U := userData_locked (w := w) hwf hdem hc h hH
  have hL : lockedNodes a.preassignments = [] := by rw [hpre]; rfl
  rw [hL, removeNodes_nil, removeNodes_user_nil] at U
  exact ⟨U.collect, U.lower, U.upper, U.upperSink, U.upperSinkSet, U.freq, U.request, U.firstNode, U.stops⟩

theorem userData {w : World} {a : SolveArgs} {P0 P' : Vrp} {o : Obj} {N : Net} (hwf : P0.G.WF)
    (hdem : ∀ v ∈ P0.G.nodes, 0 ≤ userDemand P0.G v) (hpre : a.preassignments = [])
    (hc : Obj.create P0 = .ok o)
    (h : o.P.startSolve w.dist a.strategy a.cspy a.initialRoutes a.preassignments = .ok P') (hH : P'.H = some N) :
    UserData P0 P' N :=
  userData_of hwf (fun _ => hdem) hpre hc h hH

end Vrpy
