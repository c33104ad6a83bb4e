import Verif.Props.TerminationLP
import Verif.Props.EndToEndDiveLP
import Verif.Props.LockedLPCases

/-!
# C59 for diving with pricing by linear programming
-/

namespace Vrpy

open Spec

namespace Solve

variable {cfg : SolveCfg} {env : Env}

/-- **C59 (partial), LP pricing, the diving loop.** If the dual values of the diving problems on the way are as they should be,
the loop ends. -/
theorem C59_loop_dive_lp_partial {st : SolveState} {fuel : Nat} (L : LpPricing cfg env) (hd : DiveOk env)
    (hm : ∀ t, MasterSolverSound (env.master t)) (hst : Diving cfg st)
    (hduals : ∀ m stm d cost st1, Trace cfg env true st m stm → solveMaster cfg env true stm = .ok (d, cost, st1) →
      (env.master (stm.tick + 1) (cfg.M.diveLP stm.cols st1.fixed)).optimal = true →
      Complementary cfg.M stm.cols (env.master (stm.tick + 1) (cfg.M.diveLP stm.cols st1.fixed)))
    (hq : ∀ c ∈ st.cols, ∃ r, IsSimpleRoute cfg.M.G r ∧ Draws c r)
    (hfuel : cfg.K * cfg.M.G.arcLists.length * cfg.M.copies < fuel) : columnGeneration cfg env true fuel st ≠ .ok none := by
  intro h
  obtain ⟨st', ht, hmore, _⟩ := columnGeneration_none h
  have key : ∀ n s, Trace cfg env true st n s → Diving cfg s := by
    intro n s ht
    induction ht with
    | zero => exact hst
    | snoc g1 g2 g3 g4 ih => exact (dive_step hd hm ih g4).1
  have := lp_bound L (fun m stm d cost st1 ht hi hs => by
    obtain ⟨ho, hdd⟩ := dive_duals hd (key _ _ ht) hs
    exact ⟨_, _, ho, hdd, hduals m stm d cost st1 ht hs ho⟩) hst.inv hq ht hmore
  omega

/-- The whole run with diving. -/
theorem run_dive_lp {st : SolveState} {fuel : Nat} {old : List Column} (L : LpPricing cfg env) (hd : DiveOk env)
    (hm : ∀ t, MasterSolverSound (env.master t))
    (hduals : ∀ m stm, Trace cfg env false st m stm → (env.master stm.tick (cfg.M.lp stm.cols true)).optimal = true →
      Complementary cfg.M stm.cols (env.master stm.tick (cfg.M.lp stm.cols true)))
    (hduals' : ∀ n st1, Trace cfg env false st n st1 → ∀ m stm d cost st2, Trace cfg env true { st1 with more := true } m stm →
      solveMaster cfg env true stm = .ok (d, cost, st2) →
      (env.master (stm.tick + 1) (cfg.M.diveLP stm.cols st2.fixed)).optimal = true →
      Complementary cfg.M stm.cols (env.master (stm.tick + 1) (cfg.M.diveLP stm.cols st2.fixed)))
    (hnum : Numbered st.cols) (hmc : st.mcols = st.cols) (hfix : st.fixed = []) (hmore : st.more = true)
    (hq : ∀ c ∈ st.cols, ∃ r, IsSimpleRoute cfg.M.G r ∧ Draws c r)
    (hfuel : cfg.K * cfg.M.G.arcLists.length * cfg.M.copies < fuel) : run cfg env true old fuel st ≠ .ok none := by
  intro h
  unfold run at h
  cases h1 : columnGeneration cfg env false fuel st with
  | error e => simp [h1] at h
  | ok x =>
    cases x with
    | none =>
      exact loop_lp L hduals hnum hmc hq hfuel h1
    | some st1 =>
      simp only [h1, if_true] at h
      obtain ⟨n1, _, ht1, hend1⟩ := columnGeneration_trace h1
      have hinv : ∀ n s, Trace cfg env false st n s → Inv s := by
        intro n s ht
        exact (Trace.pool (Q := fun _ => True) ⟨hnum, hmc⟩ (fun _ _ _ _ _ _ _ _ => PriceOk.true) ht).1
      obtain ⟨i1, _, q1⟩ := Trace.pool (Q := fun c => ∃ r, IsSimpleRoute cfg.M.G r ∧ Draws c r) ⟨hnum, hmc⟩
        (fun m stm d cost st1 ht _ hs => L.draws _ _ (relaxed_complementary (hduals m stm ht) (hinv _ _ ht) hs)) ht1
      have key1 : ∀ n s, Trace cfg env false st n s → Inv s ∧ s.fixed = [] ∧ (0 < n → Diving cfg s) := by
        intro n s ht
        induction ht with
        | zero => exact ⟨⟨hnum, hmc⟩, hfix, fun h => absurd h (lt_irrefl _)⟩
        | snoc g1 g2 g3 g4 ih =>
          obtain ⟨a, b⟩ := relaxed_step hm ih.1 ih.2.1 g4
          exact ⟨a.inv, b, fun _ => a⟩
      have hn1 : 0 < n1 := by
        rcases hend1 with he | he
        · cases ht1 with
          | zero => rw [hmore] at he; cases he
          | snoc => omega
        · exact he.1
      have hdv : Diving cfg { st1 with more := true } := by
        obtain ⟨a, b, c⟩ := (key1 _ _ ht1).2.2 hn1
        exact ⟨a, b, c⟩
      cases h2 : columnGeneration cfg env true fuel { st1 with more := true } with
      | error e => simp [h2] at h
      | ok y =>
        cases y with
        | none =>
          exact C59_loop_dive_lp_partial L hd hm hdv (hduals' n1 st1 ht1) (fun c hc => (q1 c hc).elim (hq c) id) hfuel h2
        | some st2 => simp [h2] at h

end Solve

/-- The dual values of all master problems of a run are as they should be: of the relaxed problems, and of the diving problems
after them, if there are any. -/
structure Spec.DualsAsExpected (w : World) (a : SolveArgs) (o : Obj) : Prop where
  relaxed : ∀ P' P'' fuel cols m stm, o.P.startSolve w.dist a.strategy a.cspy a.initialRoutes a.preassignments = .ok P' →
    P'.initialize P'.G.toNet w.cw fuel = .ok (some (P'', cols)) →
    Solve.Trace (P''.solveCfg a w.falsy) w.toEnv false (o.start a P'' cols) m stm →
    (w.master stm.tick (P''.master.lp stm.cols true)).optimal = true →
    Complementary P''.master stm.cols (w.master stm.tick (P''.master.lp stm.cols true))
  diving : a.dive = true → ∀ P' P'' fuel cols n st1 m stm d cost st2,
    o.P.startSolve w.dist a.strategy a.cspy a.initialRoutes a.preassignments = .ok P' →
    P'.initialize P'.G.toNet w.cw fuel = .ok (some (P'', cols)) →
    Solve.Trace (P''.solveCfg a w.falsy) w.toEnv false (o.start a P'' cols) n st1 →
    Solve.Trace (P''.solveCfg a w.falsy) w.toEnv true { st1 with more := true } m stm →
    Solve.solveMaster (P''.solveCfg a w.falsy) w.toEnv true stm = .ok (d, cost, st2) →
    (w.master (stm.tick + 1) (P''.master.diveLP stm.cols st2.fixed)).optimal = true →
    Complementary P''.master stm.cols (w.master (stm.tick + 1) (P''.master.diveLP stm.cols st2.fixed))

/-- **C59 (partial), LP pricing, diving, capacitated problems.** As `C59_terminates_lp_partial`, with diving. -/
theorem C59_dive_lp_partial {w : World} {a : SolveArgs} {P0 : Vrp} {o : Obj} (hw : LpWorldOk PositiveCycles w)
    (hd : DiveOk w.toEnv)
    (hP : Capacitated P0) (hD : NonnegativeData P0) (hopt : OptionDuals w.toEnv P0) (hspan : P0.minimizeGlobalSpan = false)
    (hpre : a.preassignments = []) (hdive : a.dive = true) (hcspy : a.cspy = false)
    (hinit : ∀ r ∈ a.initialRoutes, r.Nodup ∧ WithinStops P0.numStops.stops (stops r).length)
    (hc : Obj.create P0 = .ok o) (hduals : DualsAsExpected w a o) :
    ∃ n outcome, (∀ fuel, n ≤ fuel → o.solve w a fuel = outcome) ∧ outcome ≠ .ok none := by
  refine solve_total hP.wf hP.customer hP.costs hP.demand hpre hc ?_
  intro P' K N N3 fuel0 rs cols hs S hi hnum
  have hN3 : P'.G.toNet = N3 := by rw [S.graph]; rfl
  obtain ⟨_, hgood, _⟩ := initial_good hP.toCapacitatedData S hw.cw (by rw [startSolve_initial hc hs]; exact hinit) hi
  rw [hdive]
  refine ⟨_, Solve.run_dive_lp (lpLoop_capacitated hw hP hD hopt hspan hcspy S rs).pricing hd hw.master
    (fun m stm => hduals.relaxed P' _ fuel0 cols m stm hs hi)
    (fun n st1 ht m stm d cost st2 => hduals.diving hdive P' _ fuel0 cols n st1 m stm d cost st2 hs hi ht)
    hnum rfl rfl (by obtain ⟨_, _, _, _, _, _, _, _, _, f10, _⟩ := S.fields; exact f10) ?_ (Nat.lt_succ_self _)⟩
  intro c hcc
  obtain ⟨_, r, h1, h2, _⟩ := hgood c hcc
  exact ⟨r, by rw [← hN3] at h1; exact h1, h2⟩

/-- **C59 (partial), LP pricing, diving, time windows or collection.** As `C59_variants_lp_partial`, with diving. -/
theorem C59_dive_variants_lp_partial {w : World} {a : SolveArgs} {P0 : Vrp} {o : Obj} (hw : LpWorldOk PositiveCycles w)
    (hd : DiveOk w.toEnv) (hP : WindowedOrCollecting P0) (hD : NonnegativeData P0)
    (hday : P0.timeWindows = true → 0 ≤ userUpper P0.G .source ∧ 0 ≤ userUpper P0.G .sink)
    (hopt : OptionDuals w.toEnv P0) (hspan : P0.minimizeGlobalSpan = false)
    (hpre : a.preassignments = []) (hdive : a.dive = true) (hcspy : a.cspy = false)
    (hinit : ∀ r ∈ a.initialRoutes, r.Nodup ∧ ∀ mid k, r = routeOf mid →
      WithinCapacity (userCapacities P0.loadCapacity) k (mid.map (userDemand P0.G)).sum → RouteLimits P0 k mid)
    (hc : Obj.create P0 = .ok o) (hduals : DualsAsExpected w a o) :
    ∃ n outcome, (∀ fuel, n ≤ fuel → o.solve w a fuel = outcome) ∧ outcome ≠ .ok none := by
  refine solve_total hP.wf hP.customer hP.costs hP.demand hpre hc ?_
  intro P' K N N3 fuel0 rs cols hs S hi hnum
  have U := userData (w := w) hP.wf hP.demand hpre hc hs S.reports
  have hN3 : P'.G.toNet = N3 := by rw [S.graph]; rfl
  obtain ⟨_, hgood, _⟩ := initial_limits hP.toVariantData S U (by rw [startSolve_initial hc hs]; exact hinit) hi
  rw [hdive]
  refine ⟨_, Solve.run_dive_lp (lpLoop_variant hw hP hD hday hopt hspan hcspy S U rs).pricing hd hw.master
    (fun m stm => hduals.relaxed P' _ fuel0 cols m stm hs hi)
    (fun n st1 ht m stm d cost st2 => hduals.diving hdive P' _ fuel0 cols n st1 m stm d cost st2 hs hi ht)
    hnum rfl rfl (by obtain ⟨_, _, _, _, _, _, _, _, _, f10, _⟩ := S.fields; exact f10) ?_ (Nat.lt_succ_self _)⟩
  intro c hcc
  obtain ⟨n, hn⟩ := initial_names hi c hcc
  obtain ⟨_, ⟨n', hn'⟩ | ⟨r, h1, h2, _⟩⟩ := hgood c hcc
  · rw [hn] at hn'; cases hn'
  exact ⟨r, by rw [← hN3] at h1; exact h1, h2⟩

/-- The choice of the initial routes does not depend on preassigned routes. -/
theorem initialize_locked {w : World} {P' : Vrp} {fuel : Nat} {rs : List (List Node)} {cols : List Column} (H' : Net)
    (h : P'.initialize P'.G.toNet w.cw fuel = .ok (some ({ P' with initialRoutes := rs }, cols))) :
    ({ P' with H := some H', preassignments := [], moreRoutes := true } : Vrp).initialize
      ({ P' with H := some H', preassignments := [], moreRoutes := true } : Vrp).G.toNet w.cw fuel =
      .ok (some ({ P' with H := some H', preassignments := [], moreRoutes := true, initialRoutes := rs }, cols)) := by
  unfold Vrp.initialize at h ⊢
  have hch : ({ P' with H := some H', preassignments := [], moreRoutes := true } : Vrp).chooseInitial P'.G.toNet w.cw fuel =
      P'.chooseInitial P'.G.toNet w.cw fuel := rfl
  simp only [hch]
  cases h1 : P'.chooseInitial P'.G.toNet w.cw fuel with
  | error e => simp [h1] at h
  | ok y =>
    cases y with
    | none => simp [h1] at h
    | some rs' =>
      simp only [h1] at h ⊢
      cases hcv : convertRoutes P'.G.toNet (capacities P'.loadCapacity.toList) rs' with
      | error e => simp [hcv] at h
      | ok cols' =>
        simp only [hcv, Except.ok.injEq, Option.some.injEq, Prod.mk.injEq] at h ⊢
        obtain ⟨h2, rfl⟩ := h
        have := congrArg Vrp.initialRoutes h2
        simp only at this
        subst this
        exact ⟨rfl, rfl⟩

/-- The run with preassigned routes ends, if the one for the problem without their customers does. -/
theorem locked_ends {w : World} {a : SolveArgs} {P' : Vrp} {o : Obj} {rs : List (List Node)} {cols : List Column} {G : Net}
    (hd : a.dive = true → DiveOk w.toEnv) (hm : ∀ t, MasterSolverSound (w.master t))
    (L : Solve.LpPricing (({ P' with initialRoutes := rs } : Vrp).solveCfg a w.falsy) w.toEnv)
    (hG : (({ P' with initialRoutes := rs } : Vrp).solveCfg a w.falsy).M.G = G)
    (hduals : DualsAsExpected w a o)
    (hs : o.P.startSolve w.dist a.strategy a.cspy a.initialRoutes a.preassignments = .ok P') {fuel0 : Nat}
    (hi : P'.initialize P'.G.toNet w.cw fuel0 = .ok (some ({ P' with initialRoutes := rs }, cols)))
    (hnum : Solve.Numbered cols) (hmore : P'.moreRoutes = true) (hq : ∀ c ∈ cols, ∃ r, IsSimpleRoute G r ∧ Draws c r) :
    ∃ n, Solve.run (({ P' with initialRoutes := rs } : Vrp).solveCfg a w.falsy) w.toEnv a.dive o.graphs n
      (o.start a { P' with initialRoutes := rs } cols) ≠ .ok none := by
  subst hG
  cases hdive : a.dive with
  | false =>
    exact ⟨_, Solve.run_lp L (fun m stm => hduals.relaxed P' _ fuel0 cols m stm hs hi) hnum rfl hq (Nat.lt_succ_self _)⟩
  | true =>
    exact ⟨_, Solve.run_dive_lp L (hd hdive) hm (fun m stm => hduals.relaxed P' _ fuel0 cols m stm hs hi)
      (fun n st1 ht m stm d cost st2 => hduals.diving hdive P' _ fuel0 cols n st1 m stm d cost st2 hs hi ht)
      hnum rfl rfl hmore hq (Nat.lt_succ_self _)⟩

/-- **C59 (partial), LP pricing, preassigned routes, capacitated problems**, with or without diving. -/
theorem C59_locked_lp_partial {w : World} {a : SolveArgs} {P0 : Vrp} {o : Obj} (hw : LpWorldOk PositiveCycles w)
    (hd : a.dive = true → DiveOk w.toEnv)
    (hP : Capacitated P0) (hD : NonnegativeData P0) (hopt : OptionDuals w.toEnv P0) (hspan : P0.minimizeGlobalSpan = false)
    (hfree : SomeCustomerFree P0 a.preassignments) (hcspy : a.cspy = false)
    (hinit : ∀ r ∈ a.initialRoutes, r.Nodup ∧ WithinStops P0.numStops.stops (stops r).length)
    (hc : Obj.create P0 = .ok o) (hduals : DualsAsExpected w a o) :
    ∃ n outcome, (∀ fuel, n ≤ fuel → o.solve w a fuel = outcome) ∧ outcome ≠ .ok none := by
  refine solve_ends
    (fun P' hs => chooseInitial_locked hP.wf hP.customer hP.costs (fun v hv _ => hP.demand v hv) hc hs) ?_
  intro P' fuel0 rs cols hs hi hnum
  obtain ⟨K, N, N3, R, S⟩ := searched_locked (w := w) hP.wf hP.customer hP.costs (fun v hv _ => hP.demand v hv) hc hs
  have hP' := without_capacitated hP (free_nodes hfree)
  have hD' := without_nonnegative hP.wf R.depots.1 R.depots.2 hD
  have hN3 : P'.G.toNet = N3 := by
    have := S.graph
    simp only at this
    rw [this]
    rfl
  obtain ⟨_, hgood, _⟩ := initial_good hP'.toCapacitatedData S hw.cw
    (by
      show ∀ r ∈ P'.initialRoutes, _
      rw [startSolve_initial hc hs]
      exact hinit) (initialize_locked _ hi)
  refine locked_ends hd hw.master (lpLoop_capacitated hw hP' hD' (hopt.without _) hspan hcspy S rs).pricing hN3 hduals hs hi hnum
    (R.more (free_nodes hfree)) ?_
  intro c hcc
  obtain ⟨_, r, h1, h2, _⟩ := hgood c hcc
  exact ⟨r, h1, h2⟩

/-- **C59 (partial), LP pricing, preassigned routes, time windows or collection**, with or without diving. -/
theorem C59_locked_variants_lp_partial {w : World} {a : SolveArgs} {P0 : Vrp} {o : Obj} (hw : LpWorldOk PositiveCycles w)
    (hd : a.dive = true → DiveOk w.toEnv) (hP : WindowedOrCollecting P0) (hD : NonnegativeData P0)
    (hday : P0.timeWindows = true → 0 ≤ userUpper P0.G .source ∧ 0 ≤ userUpper P0.G .sink)
    (hopt : OptionDuals w.toEnv P0) (hspan : P0.minimizeGlobalSpan = false)
    (hfree : SomeCustomerFree P0 a.preassignments) (hcspy : a.cspy = false)
    (hinit : InitialBesideLocked P0 a.preassignments a.initialRoutes)
    (hc : Obj.create P0 = .ok o) (hduals : DualsAsExpected w a o) :
    ∃ n outcome, (∀ fuel, n ≤ fuel → o.solve w a fuel = outcome) ∧ outcome ≠ .ok none := by
  refine solve_ends
    (fun P' hs => chooseInitial_locked hP.wf hP.customer hP.costs (fun v hv _ => hP.demand v hv) hc hs) ?_
  intro P' fuel0 rs cols hs hi hnum
  obtain ⟨K, N, N3, R, S⟩ := searched_locked (w := w) hP.wf hP.customer hP.costs (fun v hv _ => hP.demand v hv) hc hs
  have U := userData_locked (w := w) hP.wf (fun _ => hP.demand) hc hs R.reports
  have hP' := without_variant hP (free_nodes hfree) R.depots.1
  have hD' := without_nonnegative hP.wf R.depots.1 R.depots.2 hD
  have hN3 : P'.G.toNet = N3 := by
    have := S.graph
    simp only at this
    rw [this]
    rfl
  obtain ⟨_, hgood, _⟩ := initial_limits hP'.toVariantData S U
    (by
      show ∀ r ∈ P'.initialRoutes, _
      rw [startSolve_initial hc hs]
      exact initial_without R.depots hinit) (initialize_locked _ hi)
  refine locked_ends hd hw.master (lpLoop_variant hw hP' hD' hday (hopt.without _) hspan hcspy S U rs).pricing hN3 hduals hs hi hnum
    (R.more (free_nodes hfree)) ?_
  intro c hcc
  obtain ⟨n, hn⟩ := initial_names hi c hcc
  obtain ⟨_, ⟨n', hn'⟩ | ⟨r, h1, h2, _⟩⟩ := hgood c hcc
  · rw [hn] at hn'; cases hn'
  exact ⟨r, h1, h2⟩

/-! ## Examples -/

/-- Does `p` hold in all states of the diving loop?  (At most `n` iterations are looked at; more count as "no".) -/
def Solve.allDives (cfg : SolveCfg) (env : Env) (p : SolveState → Bool) : Nat → SolveState → Bool
  | 0, _ => false
  | n + 1, st => p st && (!st.more || match findColumns cfg env true st with
    | .error _ => true
    | .ok st' => Solve.allDives cfg env p n st')

theorem Solve.Trace.allDives {cfg : SolveCfg} {env : Env} {p : SolveState → Bool} {n m : Nat} {st stm : SolveState}
    (h : Solve.allDives cfg env p n st = true) (ht : Trace cfg env true st m stm) : p stm = true := by
  have : ∃ n', Solve.allDives cfg env p n' stm = true := by
    induction ht with
    | zero => exact ⟨n, h⟩
    | snoc _ hm _ hf ih =>
      obtain ⟨n', hn⟩ := ih
      cases n' with
      | zero => simp [Solve.allDives] at hn
      | succ n' =>
        simp only [Solve.allDives, hm, hf, Bool.not_true, Bool.false_or, Bool.and_eq_true] at hn
        exact ⟨n', hn.2⟩
  obtain ⟨n', hn⟩ := this
  cases n' with
  | zero => simp [Solve.allDives] at hn
  | succ n' =>
    simp only [Solve.allDives, Bool.and_eq_true] at hn
    exact hn.1

/-- The test for a state of the diving loop. -/
def diveComplementary (cfg : SolveCfg) (env : Env) (st : SolveState) : Bool :=
  match Solve.solveMaster cfg env true st with
  | .error _ => true
  | .ok (_, _, st2) => complementary cfg.M st.cols (env.master (st.tick + 1) (cfg.M.diveLP st.cols st2.fixed))

/-- The test for the whole run. -/
def diveDualsOk (w : World) (a : SolveArgs) (n : Nat) (P : Vrp) : Bool :=
  match Obj.create P with
  | .error _ => false
  | .ok o =>
    match o.P.startSolve w.dist a.strategy a.cspy a.initialRoutes a.preassignments with
    | .error _ => false
    | .ok P' =>
      decide (P'.initialRoutes ≠ []) && match P'.initialize P'.G.toNet w.cw 0 with
      | .ok (some (P'', cols)) => Solve.allStates (P''.solveCfg a w.falsy) w.toEnv
          (fun st => complementary P''.master st.cols (w.master st.tick (P''.master.lp st.cols true)) &&
            Solve.allDives (P''.solveCfg a w.falsy) w.toEnv (diveComplementary (P''.solveCfg a w.falsy) w.toEnv) n
              { st with more := true }) n (o.start a P'' cols)
      | _ => false

theorem diveDualsOk_ok {w : World} {a : SolveArgs} {n : Nat} {P : Vrp} (hok : diveDualsOk w a n P = true) :
    ∃ o, Obj.create P = .ok o ∧ DualsAsExpected w a o := by
  unfold diveDualsOk at hok
  split at hok
  · cases hok
  rename_i o ho
  have key : ∀ P' P'' fuel cols, o.P.startSolve w.dist a.strategy a.cspy a.initialRoutes a.preassignments = .ok P' →
      P'.initialize P'.G.toNet w.cw fuel = .ok (some (P'', cols)) →
      Solve.allStates (P''.solveCfg a w.falsy) w.toEnv
          (fun st => complementary P''.master st.cols (w.master st.tick (P''.master.lp st.cols true)) &&
            Solve.allDives (P''.solveCfg a w.falsy) w.toEnv (diveComplementary (P''.solveCfg a w.falsy) w.toEnv) n
              { st with more := true }) n (o.start a P'' cols) = true := by
    intro P' P'' fuel cols h1 h2
    rw [h1] at hok
    simp only [Bool.and_eq_true, decide_eq_true_eq] at hok
    have h2' : P'.initialize P'.G.toNet w.cw 0 = .ok (some (P'', cols)) := by
      rw [← h2]
      unfold Vrp.initialize Vrp.chooseInitial
      simp only [hok.1, ne_eq, not_false_eq_true, if_true]
    rw [h2'] at hok
    exact hok.2
  refine ⟨o, ho, ?_, ?_⟩
  · intro P' P'' fuel cols m stm h1 h2 ht _
    have := Solve.Trace.allStates (key P' P'' fuel cols h1 h2) ht
    simp only [Bool.and_eq_true] at this
    exact complementary_ok this.1
  · intro _ P' P'' fuel cols n' st1 m stm d cost st2 h1 h2 ht ht' hs _
    have := Solve.Trace.allStates (key P' P'' fuel cols h1 h2) ht
    simp only [Bool.and_eq_true] at this
    have := Solve.Trace.allDives this.2 ht'
    unfold diveComplementary at this
    rw [hs] at this
    exact complementary_ok this

/-- All hypotheses of `C59_dive_lp_partial` and `C59_dive_variants_lp_partial` (and of `C59_loop_dive_lp_partial` inside) hold for
the examples. -/
example : (∃ o, Obj.create exPlan = .ok o ∧
      ∃ n outcome, (∀ fuel, n ≤ fuel → o.solve (divingWorld exLpWorld) diveLpArgs fuel = outcome) ∧ outcome ≠ .ok none) ∧
    ∃ o, Obj.create collectPlan = .ok o ∧
      ∃ n outcome, (∀ fuel, n ≤ fuel → o.solve (divingWorld collectWorld) diveLpArgs fuel = outcome) ∧ outcome ≠ .ok none := by
  constructor
  · obtain ⟨o, ho, hd⟩ := diveDualsOk_ok (w := divingWorld exLpWorld) (a := diveLpArgs) (n := 5) (P := exPlan) (by decide +kernel)
    exact ⟨o, ho, C59_dive_lp_partial (divingWorld_ok exLpWorld_ok).1 (divingWorld_ok exLpWorld_ok).2.1 exPlan_capacitated
      exPlan_nonnegative (.plain rfl rfl) rfl rfl rfl rfl exLpArgs_initial ho hd⟩
  · obtain ⟨o, ho, hd⟩ :=
      diveDualsOk_ok (w := divingWorld collectWorld) (a := diveLpArgs) (n := 5) (P := collectPlan) (by decide +kernel)
    exact ⟨o, ho, C59_dive_variants_lp_partial (divingWorld_ok collectWorld_ok).1 (divingWorld_ok collectWorld_ok).2.1 collectPlan_ok
      collectPlan_nonnegative (fun h => (by cases h)) (.plain rfl rfl) rfl rfl rfl rfl collectArgs_initial ho hd⟩

/-- The arguments with a preassigned route. -/
def lockedDiveArgs : SolveArgs := { lockedArgs with dive := true }

/-- All hypotheses of `C59_locked_lp_partial` and `C59_locked_variants_lp_partial` hold for the examples. -/
example : (∃ o, Obj.create (lockedPlan false) = .ok o ∧
      ∃ n outcome, (∀ fuel, n ≤ fuel → o.solve (divingWorld exLpWorld) lockedDiveArgs fuel = outcome) ∧ outcome ≠ .ok none) ∧
    ∃ o, Obj.create (lockedPlan true) = .ok o ∧
      ∃ n outcome, (∀ fuel, n ≤ fuel → o.solve (divingWorld collectWorld) lockedDiveArgs fuel = outcome) ∧ outcome ≠ .ok none := by
  constructor
  · obtain ⟨o, ho, hd⟩ := diveDualsOk_ok (w := divingWorld exLpWorld) (a := lockedDiveArgs) (n := 5) (P := lockedPlan false)
      (by decide +kernel)
    exact ⟨o, ho, C59_locked_lp_partial (divingWorld_ok exLpWorld_ok).1 (fun _ => (divingWorld_ok exLpWorld_ok).2.1)
      lockedPlan_capacitated (lockedPlan_nonnegative _) (.plain rfl rfl) rfl (lockedPlan_free _) rfl exLpArgs_initial ho hd⟩
  · obtain ⟨o, ho, hd⟩ := diveDualsOk_ok (w := divingWorld collectWorld) (a := lockedDiveArgs) (n := 5) (P := lockedPlan true)
      (by decide +kernel)
    exact ⟨o, ho, C59_locked_variants_lp_partial (divingWorld_ok collectWorld_ok).1 (fun _ => (divingWorld_ok collectWorld_ok).2.1)
      lockedPlan_collecting (lockedPlan_nonnegative _) (fun h => (by cases h)) (.plain rfl rfl) rfl (lockedPlan_free _) rfl lockedPlan_initial
      ho hd⟩

end Vrpy
