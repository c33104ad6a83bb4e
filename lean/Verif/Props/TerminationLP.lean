import Verif.Props.EndToEndGap

/-!
# C59 for pricing by linear programming: problems with time windows or collection
-/

namespace Vrpy

open Spec

/-- Initial columns stand for routes. -/
theorem initial_names {P' P'' : Vrp} {N3 : Net} {cw : ℚ → CWOracle} {fuel : Nat} {cols : List Column}
    (h : P'.initialize N3 cw fuel = .ok (some (P'', cols))) : ∀ c ∈ cols, ∃ n, c.name = .num n := by
  unfold Vrp.initialize at h
  cases hch : P'.chooseInitial N3 cw fuel with
  | error e => simp [hch] at h
  | ok x =>
    cases x with
    | none => simp [hch] at h
    | some rs =>
      simp only [hch] at h
      cases hcv : convertRoutes N3 (capacities P'.loadCapacity.toList) rs with
      | error e => simp [hcv] at h
      | ok cols' =>
        simp only [hcv, Except.ok.injEq, Option.some.injEq, Prod.mk.injEq] at h
        obtain ⟨rfl, rfl⟩ := h
        intro c hc
        have hall := py_mapM_ok.1 hcv
        obtain ⟨p, hcp⟩ : ∃ p : List Node × Nat, convertRoute N3 (capacities P'.loadCapacity.toList) p.2 p.1 = .ok c := by
          obtain ⟨i, hi, rfl⟩ := List.getElem_of_mem hc
          have hri : i < (rs.zipIdx 1).length := by rw [hall.length_eq]; exact hi
          exact ⟨_, (List.forall₂_iff_get.1 hall).2 i hri hi⟩
        obtain ⟨_, k, hk, rfl⟩ := convertRoute_ok.1 hcp
        exact ⟨_, rfl⟩

/-- The numbers of the network searched are not negative; the horizon neither. -/
theorem Searched.nonnegativeTimed {P0 P' : Vrp} {K : Nat} {N N3 : Net} (S : Searched P0 P' K N N3) (U : UserData P0 P' N)
    (hfirst : P0.timeWindows = true → P0.G.nodes.head? = some .source)
    (hdem : ∀ v ∈ P0.G.nodes, 0 ≤ userDemand P0.G v) (hD : NonnegativeData P0)
    (hday : P0.timeWindows = true → 0 ≤ userUpper P0.G .source ∧ 0 ≤ userUpper P0.G .sink) : Nonnegative N3 P0.timeWindows where
  demand := (S.nonnegative hdem hD).demand
  time := (S.nonnegative hdem hD).time
  horizon := by
    intro htw
    obtain ⟨h1, h2⟩ := hday htw
    have hup : N3.upper .sink = N.upper .sink := by
      rw [(S.windows htw (hfirst htw)).2.1]
      simp [strengthened, sink_not_customer N]
    rw [hup]
    by_cases h0 : (P0.G.nd .sink).upper.getD 0 = 0
    · have h3 := U.upperSinkSet h0 .source (N.upper .source) S.direct (le_refl _)
      have h4 := (S.nonnegative hdem hD).time .source .sink
      rw [U.upper .source S.wf.source_mem (by simp)] at h3
      have h5 : 0 ≤ N.time .source .sink + N.service .source := by
        rw [S.time .source .sink S.direct, S.service .source S.wf.source_mem]
        have := hD.service .source (by rw [← S.userNodes]; exact S.wf.source_mem)
        split
        · rename_i h
          have := hD.time .source .sink h
          linarith
        · linarith
      have h6 : (0 : ℚ) ≤ (P0.G.nd .source).upper.getD 0 := h1
      linarith
    · rw [U.upperSink h0]
      exact h2

/-- The problems with time windows or collection are among those for which the loop with LP pricing is looked at. -/
theorem lpLoop_variant {w : World} {a : SolveArgs} {P0 P' : Vrp} {K : Nat} {N N3 : Net} (hw : LpWorldOk PositiveCycles w)
    (hP : WindowedOrCollecting P0) (hD : NonnegativeData P0)
    (hday : P0.timeWindows = true → 0 ≤ userUpper P0.G .source ∧ 0 ≤ userUpper P0.G .sink)
    (hopt : OptionDuals w.toEnv P0) (hspan : P0.minimizeGlobalSpan = false)
    (hcspy : a.cspy = false) (S : Searched P0 P' K N N3) (U : UserData P0 P' N) (rs : List (List Node)) :
    Solve.LpLoop (({ P' with initialRoutes := rs } : Vrp).solveCfg a w.falsy) w.toEnv := by
  obtain ⟨f1, f2, f3, f4, f5, f6, f7, f8, f9, f10, f11⟩ := S.fields
  have hN3 : P'.G.toNet = N3 := by rw [S.graph]; rfl
  have hMG : (({ P' with initialRoutes := rs } : Vrp).solveCfg a w.falsy).M.G = N3 := hN3
  generalize hcfg : ({ P' with initialRoutes := rs } : Vrp).solveCfg a w.falsy = cfg at *
  have hcaps : cfg.caps = userCapacities P0.loadCapacity := by rw [← hcfg]; exact S.caps
  have htw : cfg.timeWindows = P0.timeWindows := by rw [← hcfg]; exact f2
  have hus : cfg.M.useAllVehicles = P0.useAllVehicles := by rw [← hcfg]; exact f8
  have hK : cfg.K = K := by
    rw [← hcfg]
    show P'.vehicleTypes.getD 0 = K
    rw [S.types]
    rfl
  exact
    { cspy := by rw [← hcfg]; exact hcspy
      types := by rw [hK]; exact S.typesPos
      wf := by rw [hMG]; exact S.wfSearch
      demand := by rw [hMG, S.same.demand]; exact S.demandDepots
      service := by rw [hMG, S.same.service]; exact (S.serviceDepots hP.service.1 hP.service.2).2
      cost := by rw [hMG]; exact fun k u v hv => S.cost_nonneg hD.cost k (S.same.succ u v hv)
      pickupDelivery := by rw [← hcfg]; exact f3.trans hP.pickupDelivery
      collects := fun hb => by
        rw [hMG]
        refine S.collects hP.toVariantData U ?_
        rw [← f4, ← hb, ← hcfg]
        rfl
      span := by rw [← hcfg]; exact f9.trans hspan
      caps := by rw [hcaps]; exact S.capsPos
      paths := hw.paths
      sound := hw.sound
      routes := Or.inr ⟨fun hu t prob ho k hk => S.direct_fleet hopt hMG (hus ▸ hu) ho hk, hw.exact,
        by rw [hMG, htw]; exact S.nonnegativeTimed U (fun h => (hP.source h).1) hP.demand hD hday,
        by rw [hMG]; exact fun k => S.cost_nonneg hD.cost k S.direct,
        fun wt => hw.cycles _ wt (by rw [hMG]; exact S.wfSearch)⟩ }

/-- **C59 (partial), LP pricing, time windows or collection.** As `C59_terminates_lp_partial`, for problems with time windows
or with distribution and collection.  Missing: what is missing there. -/
theorem C59_variants_lp_partial {w : World} {a : SolveArgs} {P0 : Vrp} {o : Obj} (hw : LpWorldOk PositiveCycles w)
    (hP : WindowedOrCollecting P0) (hD : NonnegativeData P0)
    (hday : P0.timeWindows = true → 0 ≤ userUpper P0.G .source ∧ 0 ≤ userUpper P0.G .sink)
    (hopt : OptionDuals w.toEnv P0) (hspan : P0.minimizeGlobalSpan = false)
    (hpre : a.preassignments = []) (hdive : a.dive = false) (hcspy : a.cspy = false)
    (hinit : ∀ r ∈ a.initialRoutes, r.Nodup ∧ ∀ mid k, r = routeOf mid →
      WithinCapacity (userCapacities P0.loadCapacity) k (mid.map (userDemand P0.G)).sum → RouteLimits P0 k mid)
    (hc : Obj.create P0 = .ok o)
    (hduals : ∀ P' P'' fuel cols m stm, o.P.startSolve w.dist a.strategy a.cspy a.initialRoutes a.preassignments = .ok P' →
      P'.initialize P'.G.toNet w.cw fuel = .ok (some (P'', cols)) →
      Solve.Trace (P''.solveCfg a w.falsy) w.toEnv false (o.start a P'' cols) m stm →
      (w.master stm.tick (P''.master.lp stm.cols true)).optimal = true →
      Complementary P''.master stm.cols (w.master stm.tick (P''.master.lp stm.cols true))) :
    ∃ n outcome, (∀ fuel, n ≤ fuel → o.solve w a fuel = outcome) ∧ outcome ≠ .ok none := by
  refine solve_total hP.wf hP.customer hP.costs hP.demand hpre hc ?_
  intro P' K N N3 fuel0 rs cols hs S hi hnum
  have U := userData (w := w) hP.wf hP.demand hpre hc hs S.reports
  have hN3 : P'.G.toNet = N3 := by rw [S.graph]; rfl
  obtain ⟨_, hgood, _⟩ := initial_limits hP.toVariantData S U (by rw [startSolve_initial hc hs]; exact hinit) hi
  rw [hdive]
  refine ⟨_, Solve.run_lp (lpLoop_variant hw hP hD hday hopt hspan hcspy S U rs).pricing
    (fun m stm => hduals P' _ fuel0 cols m stm hs hi) hnum rfl ?_ (Nat.lt_succ_self _)⟩
  intro c hcc
  obtain ⟨n, hn⟩ := initial_names hi c hcc
  obtain ⟨_, ⟨n', hn'⟩ | ⟨r, h1, h2, _⟩⟩ := hgood c hcc
  · rw [hn] at hn'; cases hn'
  exact ⟨r, by rw [← hN3] at h1; exact h1, h2⟩

/-! ## Examples -/

theorem timedGoodsWorld_full : LpWorldOk PositiveCycles timedGoodsWorld :=
  { exLpWorld_ok with
    sound := fun _ => timedGoodsSolver_ok.2
    exact := fun _ => timedGoodsSolver_ok.1 }

/-- All hypotheses hold for the example with collection, and for the one with time windows and collection. -/
example : (∃ o, Obj.create collectPlan = .ok o ∧
      ∃ n outcome, (∀ fuel, n ≤ fuel → o.solve collectWorld exLpArgs fuel = outcome) ∧ outcome ≠ .ok none) ∧
    ∃ o, Obj.create (exTimedBound true) = .ok o ∧
      ∃ n outcome, (∀ fuel, n ≤ fuel → o.solve timedGoodsWorld exLpArgs fuel = outcome) ∧ outcome ≠ .ok none := by
  constructor
  · have hok : dualsOk collectWorld exLpArgs 5 collectPlan = true := by decide +kernel
    unfold dualsOk at hok
    split at hok
    · cases hok
    rename_i o ho
    refine ⟨o, ho, C59_variants_lp_partial collectWorld_ok collectPlan_ok collectPlan_nonnegative (fun h => (by cases h))
      (.plain rfl rfl) rfl rfl rfl rfl collectArgs_initial ho ?_⟩
    intro P' P'' fuel cols m stm h1 h2 ht _
    rw [h1] at hok
    simp only [Bool.and_eq_true, decide_eq_true_eq] at hok
    have h2' : P'.initialize P'.G.toNet collectWorld.cw 0 = .ok (some (P'', cols)) := by
      rw [← h2]
      unfold Vrp.initialize Vrp.chooseInitial
      simp only [hok.1, ne_eq, not_false_eq_true, if_true]
    rw [h2'] at hok
    exact complementary_ok (Solve.Trace.allStates hok.2 ht)
  · have hok : dualsOk timedGoodsWorld exLpArgs 5 (exTimedBound true) = true := by decide +kernel
    unfold dualsOk at hok
    split at hok
    · cases hok
    rename_i o ho
    refine ⟨o, ho, C59_variants_lp_partial timedGoodsWorld_full (exTimedBound_variant true) (exTimedBound_nonnegative true)
      (fun _ => by decide +kernel) (.plain rfl rfl) rfl rfl rfl rfl timedGoodsArgs_initial ho ?_⟩
    intro P' P'' fuel cols m stm h1 h2 ht _
    rw [h1] at hok
    simp only [Bool.and_eq_true, decide_eq_true_eq] at hok
    have h2' : P'.initialize P'.G.toNet timedGoodsWorld.cw 0 = .ok (some (P'', cols)) := by
      rw [← h2]
      unfold Vrp.initialize Vrp.chooseInitial
      simp only [hok.1, ne_eq, not_false_eq_true, if_true]
    rw [h2'] at hok
    exact complementary_ok (Solve.Trace.allStates hok.2 ht)

end Vrpy
