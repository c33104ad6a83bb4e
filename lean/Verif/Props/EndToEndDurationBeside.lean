import Verif.Props.EndToEndDurationLocked
import Verif.Props.EndToEndDurationCases

/-!
# C62: the duration in capacitated problems beside preassigned routes
-/

namespace Vrpy

open Spec

theorem symmetric_without {P : Vrp} {L : List Node} (hs : Node.source ∉ L) (ht : Node.sink ∉ L) (h : SymmetricUserTimes P.G) :
    SymmetricUserTimes (withoutNodes P L).G := by
  have hsucc : ∀ u v, v ∈ (withoutNodes P L).G.succ u ↔ v ∈ P.G.succ u ∧ u ∉ L ∧ v ∉ L := fun u v => mem_removeNodes_user
  refine ⟨fun u v => ?_, fun n hn => ?_⟩
  · by_cases hb : UserArc (withoutNodes P L).G u v ∧ UserArc (withoutNodes P L).G v u
    · left
      obtain ⟨h1, h2⟩ := hb
      have huv : u ∉ L ∧ v ∉ L ∧ UserArc P.G u v ∧ UserArc P.G v u := by
        unfold UserArc at h1 h2 ⊢
        rw [hsucc] at h1 h2
        rcases h1 with h1 | ⟨rfl, n, rfl⟩ | ⟨rfl, n, rfl⟩ | ⟨rfl, rfl⟩
        · refine ⟨h1.2.1, h1.2.2, Or.inl h1.1, ?_⟩
          rcases h2 with h2 | h2
          · exact Or.inl h2.1
          · exact Or.inr h2
        · rcases h2 with h2 | ⟨h, _⟩ | ⟨h, _⟩ | ⟨h, _⟩
          · exact ⟨h2.2.2, h2.2.1, Or.inr (Or.inl ⟨rfl, n, rfl⟩), Or.inl h2.1⟩
          all_goals cases h
        · rcases h2 with h2 | ⟨h, _⟩ | ⟨h, _⟩ | ⟨h, _⟩
          · exact ⟨h2.2.2, h2.2.1, Or.inr (Or.inr (Or.inl ⟨rfl, n, rfl⟩)), Or.inl h2.1⟩
          all_goals cases h
        · rcases h2 with h2 | ⟨h, _⟩ | ⟨h, _⟩ | ⟨h, _⟩
          · exact ⟨h2.2.2, h2.2.1, Or.inr (Or.inr (Or.inr ⟨rfl, rfl⟩)), Or.inl h2.1⟩
          all_goals cases h
      obtain ⟨hu, hv, h3, h4⟩ := huv
      rw [userTime_without hu hv, userTime_without hv hu]
      exact (h.sym u v).resolve_right (fun hn => hn ⟨h3, h4⟩)
    · exact Or.inr hb
  · obtain ⟨h1, h2⟩ := without_nodes.1 hn
    rw [userTime_without hs h2, userTime_without h2 ht]
    exact h.depot n h1

/-- **C62 (partial), capacitated problems beside preassigned routes.** As `C62_capacitated_partial` and
`C62_capacitated_dive_lp_partial`: no route with customers takes longer than `duration` unless it was preassigned.  (Preassigned
routes are kept whatever they take: `C62_locked_counterexample`.) -/
theorem C62_locked_capacitated_partial {w : World} {a : SolveArgs} {fuel : Nat} {P0 : Vrp} {o o' : Obj}
    (hw : WorldOk w ∧ a.cspy = true ∧ NoServiceTimes P0.G ∨
      LpWorldOk PositiveCycles w ∧ a.cspy = false ∧ NonnegativeData P0 ∧ OptionDuals w.toEnv P0 ∧ (a.dive = true → DiveSigned w.toEnv))
    (hd : a.dive = true → DiveOk w.toEnv) (hP : Capacitated P0) (hsym : SymmetricUserTimes P0.G) (hfit : RoundTripsFit P0)
    (hheur : a.heuristicOnly = false) (hgreedy : a.greedy = false) (hfree : SomeCustomerFree P0 a.preassignments)
    (hinit : ∀ r ∈ a.initialRoutes, r.Nodup ∧ InTime P0 r)
    (hc : Obj.create P0 = .ok o) (h : o.solve w a fuel = .ok (some o')) :
    ∀ i r, (i, r) ∈ o'.solution.routes → r ∉ a.preassignments → stops r ≠ [] →
      Within P0.duration.limit (userDuration P0.G r) := by
  unfold Obj.solve at h
  split at h
  · cases h
  rename_i P' hstart
  rw [hheur] at h
  simp only [Bool.false_eq_true, if_false] at h
  obtain ⟨K, N, N3, R, S⟩ := searched_locked (w := w) hP.wf hP.customer hP.costs (fun v hv _ => hP.demand v hv) hc hstart
  have hP' := without_capacitated hP (free_nodes hfree)
  have hold : o.solution.dropped = [] := by
    obtain ⟨G, _, rfl⟩ := create_ok hc
    rfl
  have hcw : ∀ x, (w.cw x).Valid := hw.elim (fun h => h.1.cw) (fun h => h.1.cw)
  have hmaster : ∀ t, MasterSolverSound (w.master t) := hw.elim (fun h => h.1.master) (fun h => h.1.master)
  have hpath : ∀ (c : Column) (p : List Node), IsShortestPath c.edges p → IsShortestPath c.edges (w.path c) :=
    hw.elim (fun h => h.1.path) (fun h => h.1.path)
  have hD' : NonnegativeData P0 → NonnegativeData (withoutNodes P0 (lockedNodes a.preassignments)) := fun hD =>
    without_nonnegative hP.wf R.depots.1 R.depots.2 hD
  have hno : NoServiceTimes P0.G → NoServiceTimes (withoutNodes P0 (lockedNodes a.preassignments)).G :=
    fun h v hv => h v (without_nodes.1 hv).1
  have hF : ∀ (k : Nat) mid, (∀ v ∈ mid, (∃ n, v = .cust n) ∧ v ∈ P0.G.nodes ∧ v ∉ lockedNodes a.preassignments) →
      InTime (withoutNodes P0 (lockedNodes a.preassignments)) (routeOf mid) → InTime P0 (routeOf mid) := by
    intro k mid hm hin hne
    rw [← userDuration_without (L := lockedNodes a.preassignments)
      (routeOf_not_mem R.depots.1 R.depots.2 (fun v hv => (hm v hv).2.2))]
    exact hin hne
  have hini : ∀ P'' cols, ({ P' with
          H := some (N.removeNodes (lockedNodes a.preassignments))
          preassignments := []
          moreRoutes := true } : Vrp).initialize P'.G.toNet w.cw fuel = .ok (some (P'', cols)) → Solve.Numbered cols ∧
      (∀ c ∈ cols, ColumnFor N3 K (fun _ => InTime (withoutNodes P0 (lockedNodes a.preassignments))) c) ∧
      ∃ rs, P'' = { P' with
          H := some (N.removeNodes (lockedNodes a.preassignments))
          preassignments := []
          moreRoutes := true
          initialRoutes := rs } := by
    intro P'' cols h1
    refine initial_inTime hP'.toCapacitatedData S hcw (symmetric_without R.depots.1 R.depots.2 hsym)
      (roundTrips_without R.depots.1 R.depots.2 hfit) ?_ h1
    show ∀ r ∈ P'.initialRoutes, _
    rw [startSolve_initial hc hstart]
    intro r hr
    refine ⟨(hinit r hr).1, fun hs hne => ?_⟩
    rw [userDuration_without]
    · exact (hinit r hr).2 hne
    · intro v hv
      have := route_mem_nodes S.wfSearch hs.1 v hv
      rw [S.nodes, S.userNodes] at this
      exact (without_nodes.1 this).2
  intro i r hir hr
  cases hdive : a.dive with
  | false =>
    obtain ⟨_, ⟨free, locked, r2⟩, _⟩ := locked_plan (F := fun _ => InTime (withoutNodes P0 (lockedNodes a.preassignments)))
      (F' := fun _ => InTime P0) R hfree hF
      (fun o1 ho1 => (plan_of_columns hP'.customer hP'.periodic S hmaster hpath hini hdive (fun _ => hold)
        (fun rs stm d cost st1 _ _ hs => by
          rcases hw with ⟨hw, hcs, hn⟩ | ⟨hw, hcs, hD, hopt, _⟩
          · exact price_inTime hw.cspy hw.paths hP'.toCapacitatedData S hcs hgreedy (hno hn) rs d
          · exact lp_inTime hw hP'.toCapacitatedData (hD' hD) hcs hgreedy S rs (hw.free S (hD' hD) (hopt.without _) hs)) ho1).2.1) h
    obtain ⟨_, hf⟩ := r2.free_of hir hr
    exact hf
  | true =>
    obtain ⟨_, ⟨free, locked, r2⟩, _⟩ := locked_cover (F := fun _ => InTime (withoutNodes P0 (lockedNodes a.preassignments)))
      (F' := fun _ => InTime P0) R hfree hF
      (fun o1 ho1 => (cover_of_columns hP'.periodic S (hd hdive) hmaster
        (fun hf => by
          rcases hw with ⟨hw, _⟩ | ⟨_, hcs, _⟩
          · exact hw.cspy
          · rw [hcs] at hf
            cases hf) hpath hini hdive (fun _ => hold)
        (fun rs dive stm d cost st1 hdv hs => by
          rcases hw with ⟨hw, hcs, hn⟩ | ⟨hw, hcs, hD, hopt, hsig⟩
          · exact price_inTime hw.cspy hw.paths hP'.toCapacitatedData S hcs hgreedy (hno hn) rs d
          · exact lp_inTime hw hP'.toCapacitatedData (hD' hD) hcs hgreedy S rs
              (dive_free hw (hd hdive) (hsig hdive) S (hD' hD) (hopt.without _) hdv hs)) ho1).2.1) h
    obtain ⟨_, hf⟩ := r2.free_of hir hr
    exact hf

/-- All hypotheses of `C62_locked_capacitated_partial` hold for the example, where the trip to customer 2 takes 20 of 20. -/
example : WorldOk exWorld ∧ NoServiceTimes (exTravel 0 20).G ∧ Capacitated (exTravel 0 20) ∧
    SymmetricUserTimes (exTravel 0 20).G ∧ RoundTripsFit (exTravel 0 20) ∧
    SomeCustomerFree (exTravel 0 20) limitedArgs.preassignments ∧
    (∀ r ∈ limitedArgs.initialRoutes, r.Nodup ∧ InTime (exTravel 0 20) r) ∧
    planOf exWorld limitedArgs 5 (exTravel 0 20) =
      .ok (some ⟨[(1, routeOf [.cust 2]), (2, routeOf [.cust 1])], [(1, 0), (2, 0)], []⟩) ∧
    userDuration (exTravel 0 20).G (routeOf [.cust 2]) = 20 := by
  refine ⟨exWorld_ok, exTravel_noService _, exTravel_capacitated _ _, exTravel_symmetric _ _, exTravel_fits (by norm_num),
    ⟨2, by decide, ?_⟩, ?_, Solve.eq_ok_of_toOption (by decide +kernel), by decide +kernel⟩
  · intro p hp _
    simp only [limitedArgs, List.mem_cons, List.not_mem_nil, or_false] at hp
    subst hp
    decide
  · intro r hr
    simp only [limitedArgs, List.mem_cons, List.not_mem_nil, or_false] at hr
    subst hr
    exact ⟨by decide, fun _ => exTravel_fits (by norm_num) 2 (by decide)⟩

end Vrpy
