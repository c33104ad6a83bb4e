import Verif.Proofs.Termination
import Verif.Props.EndToEnd

/-!
# C59: column generation terminates

The loop of `solve()` has no bound of its own.  With cspy every iteration after which it goes on has found a column whose
list of edges is new, so that it ends whatever the solvers answer.  With LP pricing nothing prevents the same column from
being found again; that this happens a bounded number of times only rests on the dual values.
-/

namespace Vrpy

open Spec

namespace Solve

variable {cfg : SolveCfg} {env : Env} {dive : Bool}

/-- More fuel does not change the outcome. -/
theorem columnGeneration_mono {fuel fuel' : Nat} (hle : fuel ≤ fuel') {st : SolveState}
    (h : columnGeneration cfg env dive fuel st ≠ .ok none) :
    columnGeneration cfg env dive fuel' st = columnGeneration cfg env dive fuel st := by
  induction fuel generalizing fuel' st with
  | zero =>
    cases hm : st.more with
    | true => simp [columnGeneration, hm] at h
    | false => cases fuel' <;> simp [columnGeneration, hm]
  | succ n ih =>
    obtain ⟨m, rfl⟩ : ∃ m, fuel' = m + 1 := ⟨fuel' - 1, by omega⟩
    cases hm : st.more with
    | false => simp [columnGeneration, hm]
    | true =>
      simp only [columnGeneration, hm, if_true] at h ⊢
      cases hf : findColumns cfg env dive st with
      | error e => rfl
      | ok st1 =>
        simp only [hf] at h ⊢
        by_cases hs : (env.timeUp st1.tick || limitReached cfg st1) = true
        · simp only [hs, if_true]
        · simp only [hs, if_false, Bool.false_eq_true] at h ⊢
          exact ih (by omega) h

theorem run_mono {old : List Column} {fuel fuel' : Nat} (hle : fuel ≤ fuel') {st : SolveState}
    (h : run cfg env dive old fuel st ≠ .ok none) : run cfg env dive old fuel' st = run cfg env dive old fuel st := by
  unfold run at h ⊢
  cases h1 : columnGeneration cfg env false fuel st with
  | error e => rw [columnGeneration_mono hle (by rw [h1]; simp), h1]
  | ok x =>
    cases x with
    | none => simp [h1] at h
    | some st1 =>
      rw [columnGeneration_mono hle (by rw [h1]; simp), h1]
      simp only [h1] at h ⊢
      by_cases hd : dive = true
      · simp only [hd, if_true] at h ⊢
        cases h2 : columnGeneration cfg env true fuel { st1 with more := true } with
        | error e => rw [columnGeneration_mono hle (by rw [h2]; simp), h2]
        | ok y =>
          cases y with
          | none => simp [h2] at h
          | some st2 => rw [columnGeneration_mono hle (by rw [h2]; simp), h2]
      · simp only [hd, if_false, Bool.false_eq_true]

/-- **C59**, cspy.  Column generation ends after at most one iteration more than there are lists of different edges,
with or without diving, whatever the answers of the solvers and without any time or iteration limit. -/
theorem C59_loop_cspy {st : SolveState} {fuel : Nat} (hcspy : cfg.cspy = true) (hK : 0 < cfg.K)
    (hG : ∀ u v, v ∈ cfg.M.G.succ u → u ∈ cfg.M.G.nodes) (hnum : Numbered st.cols) (hm : st.mcols = st.cols)
    (hfuel : cfg.M.G.arcLists.length < fuel) : columnGeneration cfg env dive fuel st ≠ .ok none := by
  intro h
  obtain ⟨st', ht, hmore, _⟩ := columnGeneration_none h
  have := cspy_bound hcspy hK hG ⟨hnum, hm⟩ ht hmore
  omega

theorem run_cspy {st : SolveState} {fuel : Nat} {old : List Column} (hcspy : cfg.cspy = true) (hK : 0 < cfg.K)
    (hG : ∀ u v, v ∈ cfg.M.G.succ u → u ∈ cfg.M.G.nodes) (hnum : Numbered st.cols) (hm : st.mcols = st.cols)
    (hfuel : cfg.M.G.arcLists.length < fuel) : run cfg env dive old fuel st ≠ .ok none := by
  intro h
  unfold run at h
  cases h1 : columnGeneration cfg env false fuel st with
  | error e => simp [h1] at h
  | ok x =>
    cases x with
    | none => exact C59_loop_cspy hcspy hK hG hnum hm hfuel h1
    | some st1 =>
      simp only [h1] at h
      by_cases hd : dive = true
      · simp only [hd, if_true] at h
        obtain ⟨n, _, ht, _⟩ := columnGeneration_trace h1
        obtain ⟨hi, _⟩ := Trace.pool (Q := fun _ => True) ⟨hnum, hm⟩ (fun _ _ _ _ _ _ _ _ => PriceOk.true) ht
        cases h2 : columnGeneration cfg env true fuel { st1 with more := true } with
        | error e => simp [h2] at h
        | ok y =>
          cases y with
          | none => exact C59_loop_cspy hcspy hK hG (by exact hi.1) (by exact hi.2) hfuel h2
          | some st2 => simp [h2] at h
      · simp only [hd, if_false, Bool.false_eq_true] at h
        split at h <;> simp at h

theorem relaxed_complementary {stm st1 : SolveState} {d : Duals} {cost : ℚ}
    (hduals : (env.master stm.tick (cfg.M.lp stm.cols true)).optimal = true →
      Complementary cfg.M stm.cols (env.master stm.tick (cfg.M.lp stm.cols true)))
    (hi : Inv stm) (hs : solveMaster cfg env false stm = .ok (d, cost, st1)) : ComplementaryDuals cfg env stm.cols d := by
  obtain ⟨ho, rfl⟩ := solveMaster_duals hs
  rw [hi.2] at ho ⊢
  exact ⟨_, _, ho, rfl, hduals ho⟩

/-- **C59**, LP pricing, for problems with capacities, stops, durations, time windows, collection
and drop penalties.  If the solvers
keep their promises, in particular about the dual values (`Complementary`), column generation ends after a bounded number
of iterations. -/
theorem C59_loop_lp_partial {st : SolveState} {fuel : Nat} (hcspy : cfg.cspy = false) (hK : 0 < cfg.K)
    (hG : WellFormed cfg.M.G) (hdem : cfg.M.G.demand .source = 0 ∧ cfg.M.G.demand .sink = 0)
    (hser : cfg.M.G.service .sink = 0) (hcost : ∀ k u v, v ∈ cfg.M.G.succ u → 0 ≤ (cfg.M.G.cost u v).getD k 0)
    (hpd : cfg.pickupDelivery = false) (hdc : cfg.distributionCollection = true → CollectsGoods cfg.M.G)
    (hspan : cfg.M.globalSpan = false)
    (hcpos : ∀ c ∈ cfg.caps, 0 < c) (hpaths : ∀ t, PathsOk (env.paths t)) (hsound : ∀ t, SolverSound (env.pricing t))
    (hp : PricesRoutes cfg env)
    (hduals : ∀ m stm, Trace cfg env false st m stm → (env.master stm.tick (cfg.M.lp stm.cols true)).optimal = true →
      Complementary cfg.M stm.cols (env.master stm.tick (cfg.M.lp stm.cols true)))
    (hnum : Numbered st.cols) (hm : st.mcols = st.cols) (hq : ∀ c ∈ st.cols, ∃ r, IsSimpleRoute cfg.M.G r ∧ Draws c r)
    (hfuel : cfg.K * cfg.M.G.arcLists.length * cfg.M.copies < fuel) : columnGeneration cfg env false fuel st ≠ .ok none := by
  intro h
  obtain ⟨st', ht, hmore, _⟩ := columnGeneration_none h
  have := lp_bound (LpLoop.pricing ⟨hcspy, hK, hG, hdem, hser, hcost, hpd, hdc, hspan, hcpos, hpaths, hsound, hp⟩)
    (fun m stm d cost st1 ht hi hs => relaxed_complementary (hduals m stm ht) hi hs) ⟨hnum, hm⟩ hq ht hmore
  omega

/-- The loop ends. -/
theorem loop_lp {st : SolveState} {fuel : Nat} (L : LpPricing cfg env)
    (hduals : ∀ m stm, Trace cfg env false st m stm → (env.master stm.tick (cfg.M.lp stm.cols true)).optimal = true →
      Complementary cfg.M stm.cols (env.master stm.tick (cfg.M.lp stm.cols true)))
    (hnum : Numbered st.cols) (hm : st.mcols = st.cols) (hq : ∀ c ∈ st.cols, ∃ r, IsSimpleRoute cfg.M.G r ∧ Draws c r)
    (hfuel : cfg.K * cfg.M.G.arcLists.length * cfg.M.copies < fuel) : columnGeneration cfg env false fuel st ≠ .ok none := by
  intro h
  obtain ⟨st', ht, hmore, _⟩ := columnGeneration_none h
  have := lp_bound L (fun m stm d cost st1 ht hi hs => relaxed_complementary (hduals m stm ht) hi hs) ⟨hnum, hm⟩ hq ht hmore
  omega

/-- The whole run without diving. -/
theorem run_lp {st : SolveState} {fuel : Nat} {old : List Column} (L : LpPricing cfg env)
    (hduals : ∀ m stm, Trace cfg env false st m stm → (env.master stm.tick (cfg.M.lp stm.cols true)).optimal = true →
      Complementary cfg.M stm.cols (env.master stm.tick (cfg.M.lp stm.cols true)))
    (hnum : Numbered st.cols) (hm : st.mcols = st.cols) (hq : ∀ c ∈ st.cols, ∃ r, IsSimpleRoute cfg.M.G r ∧ Draws c r)
    (hfuel : cfg.K * cfg.M.G.arcLists.length * cfg.M.copies < fuel) : run cfg env false old fuel st ≠ .ok none := by
  intro h
  have hloop := loop_lp L hduals hnum hm hq hfuel
  unfold run at h
  split at h
  · cases h
  · rename_i h1
    exact hloop h1
  · simp only [Bool.false_eq_true, if_false] at h
    split at h <;> cases h

end Solve

/-- The choice of the initial routes ends, with the same outcome for every sufficient fuel. -/
theorem chooseInitial_total {P0 P' : Vrp} {K : Nat} {N N3 : Net} (S : Searched P0 P' K N N3) (cw : ℚ → CWOracle) :
    ∃ n y, (∀ fuel, n ≤ fuel → P'.chooseInitial P'.G.toNet cw fuel = y) ∧ y ≠ .ok none := by
  have hN3 : P'.G.toNet = N3 := by rw [S.graph]; rfl
  obtain ⟨f1, f2, f3, f4, f5, f6, f7, f8, f9, f10, f11⟩ := S.fields
  rw [hN3]
  unfold Vrp.chooseInitial Vrp.initialSolution
  by_cases hno : P'.initialRoutes = []
  · simp only [hno, ne_eq, not_true_eq_false, if_false]
    by_cases hpl : P'.plain = true
    · simp only [hpl, if_true]
      cases hcw : cwRoutes N3 P'.cap0 P'.duration.limit (P'.numStops.stops.map (fun n => (n : ℚ))) cw with
      | error e => exact ⟨0, .error e, fun _ _ => rfl, by simp⟩
      | ok rs =>
        have htw : P0.timeWindows = false := by
          simp only [Vrp.plain, Bool.and_eq_true, Bool.not_eq_true'] at hpl
          rw [← f2]
          exact hpl.1.1.1.1
        obtain ⟨hconn, hdirect⟩ := S.depots htw
        have hcostN3 : CostsFor N3 1 := by
          intro u v hv
          rw [S.same.costLength, S.costs u v (S.same.succ u v hv)]
          exact S.typesPos
        obtain ⟨n, val, rs', h4⟩ := C11_greedy_terminates N3
          { cap := P'.cap0, numStops := P'.numStops.stops, duration := P'.duration.limit } S.wfSearch hconn hcostN3 hdirect
        refine ⟨n, .ok (some (rs ++ rs')), fun fuel hf => ?_, by simp⟩
        simp only [h4 fuel hf]
    · simp only [hpl, if_false, Bool.false_eq_true]
      by_cases hpd : P'.pickupDelivery = true
      · simp only [hpd, if_true]
        cases requestRoutes N3 P'.timeWindows with
        | error e => exact ⟨0, .error e, fun _ _ => rfl, by simp⟩
        | ok rs => exact ⟨0, .ok (some rs), fun _ _ => rfl, by simp⟩
      · simp only [hpd, if_false, Bool.false_eq_true]
        exact ⟨0, _, fun _ _ => rfl, by simp⟩
  · simp only [hno, ne_eq, not_false_eq_true, if_true]
    cases checkInitialRoutes P'.initialRoutes N3 with
    | error e => exact ⟨0, .error e, fun _ _ => rfl, by simp⟩
    | ok u => exact ⟨0, .ok (some P'.initialRoutes), fun _ _ => rfl, by simp⟩

/-- So does `_initialize`. -/
theorem initialize_total {P' : Vrp} {N3 : Net} {cw : ℚ → CWOracle}
    (h : ∃ n y, (∀ fuel, n ≤ fuel → P'.chooseInitial N3 cw fuel = y) ∧ y ≠ .ok none) :
    ∃ n x, (∀ fuel, n ≤ fuel → P'.initialize N3 cw fuel = x) ∧ x ≠ .ok none := by
  obtain ⟨n, y, hy, hne⟩ := h
  unfold Vrp.initialize
  cases y with
  | error e => exact ⟨n, .error e, fun fuel hf => by rw [hy fuel hf], by simp⟩
  | ok y =>
    cases y with
    | none => exact absurd rfl hne
    | some rs =>
      cases hc : convertRoutes N3 (capacities P'.loadCapacity.toList) rs with
      | error e => exact ⟨n, .error e, fun fuel hf => by rw [hy fuel hf]; simp only [hc], by simp⟩
      | ok cols =>
        exact ⟨n, .ok (some ({ P' with initialRoutes := rs }, cols)), fun fuel hf => by rw [hy fuel hf]; simp only [hc], by simp⟩

/-- The first columns are numbered, and only `initialRoutes` is changed. -/
theorem initialize_ok {P' P'' : Vrp} {N3 : Net} {cw : ℚ → CWOracle} {fuel : Nat} {cols : List Column}
    (h : P'.initialize N3 cw fuel = .ok (some (P'', cols))) :
    Solve.Numbered cols ∧ ∃ rs, P'' = { P' with initialRoutes := rs } := by
  unfold Vrp.initialize at h
  cases hch : P'.chooseInitial N3 cw fuel with
  | error e => simp [hch] at h
  | ok x =>
    cases x with
    | none => simp [hch] at h
    | some rs =>
      simp only [hch] at h
      cases hcv : convertRoutes N3 (capacities P'.loadCapacity.toList) rs with
      | error e => simp [hcv] at h
      | ok cols' =>
        simp only [hcv, Except.ok.injEq, Option.some.injEq, Prod.mk.injEq] at h
        obtain ⟨rfl, rfl⟩ := h
        exact ⟨Solve.C33_initial hcv, rs, rfl⟩

/-- If the choice of the initial routes ends, and the loop for every start from the initial columns, `solve()` ends. -/
theorem solve_ends {w : World} {a : SolveArgs} {o : Obj}
    (hchoose : ∀ P', o.P.startSolve w.dist a.strategy a.cspy a.initialRoutes a.preassignments = .ok P' →
      ∃ n y, (∀ fuel, n ≤ fuel → P'.chooseInitial P'.G.toNet w.cw fuel = y) ∧ y ≠ .ok none)
    (hloop : ∀ P' fuel0 rs cols, o.P.startSolve w.dist a.strategy a.cspy a.initialRoutes a.preassignments = .ok P' →
      P'.initialize P'.G.toNet w.cw fuel0 = .ok (some ({ P' with initialRoutes := rs }, cols)) → Solve.Numbered cols →
      ∃ n, Solve.run (({ P' with initialRoutes := rs } : Vrp).solveCfg a w.falsy) w.toEnv a.dive o.graphs n
        (o.start a { P' with initialRoutes := rs } cols) ≠ .ok none) :
    ∃ n outcome, (∀ fuel, n ≤ fuel → o.solve w a fuel = outcome) ∧ outcome ≠ .ok none := by
  unfold Obj.solve
  cases hs : o.P.startSolve w.dist a.strategy a.cspy a.initialRoutes a.preassignments with
  | error e => exact ⟨0, .error e, fun _ _ => rfl, by simp⟩
  | ok P' =>
    by_cases hh : a.heuristicOnly = true
    · simp only [hh, if_true]
      cases Obj.clarkeWright w P' o with
      | error e => exact ⟨0, .error e, fun _ _ => rfl, by simp⟩
      | ok o' => exact ⟨0, .ok (some o'), fun _ _ => rfl, by simp⟩
    · simp only [hh, if_false, Bool.false_eq_true]
      obtain ⟨n1, x, hx, hxn⟩ := initialize_total (hchoose P' hs)
      unfold Obj.columnGeneration
      cases x with
      | error e => exact ⟨n1, .error e, fun fuel hf => by rw [hx fuel hf], by simp⟩
      | ok x =>
        cases x with
        | none => exact absurd rfl hxn
        | some x =>
          obtain ⟨P'', cols⟩ := x
          obtain ⟨hnum, rs, rfl⟩ := initialize_ok (hx n1 le_rfl)
          cases hm : ({ P' with initialRoutes := rs } : Vrp).master.create cols with
          | error e => exact ⟨n1, .error e, fun fuel hf => by rw [hx fuel hf]; simp only [hm], by simp⟩
          | ok u =>
            obtain ⟨n2, hn2⟩ := hloop P' n1 rs cols hs (hx n1 le_rfl) hnum
            refine ⟨max n1 n2, ?_⟩
            have hrun : ∀ fuel, max n1 n2 ≤ fuel → _ := fun fuel hf => Solve.run_mono (le_trans (le_max_right _ _) hf) hn2
            cases hr : Solve.run (({ P' with initialRoutes := rs } : Vrp).solveCfg a w.falsy) w.toEnv a.dive o.graphs n2
                (o.start a { P' with initialRoutes := rs } cols) with
            | error e =>
              exact ⟨.error e, fun fuel hf => by
                rw [hx fuel (le_trans (le_max_left _ _) hf)]
                simp only [hm, hrun fuel hf, hr], by simp⟩
            | ok y =>
              cases y with
              | none => exact absurd hr hn2
              | some y =>
                obtain ⟨st, f⟩ := y
                have hval : ∀ fuel, max n1 n2 ≤ fuel → Obj.columnGeneration w a fuel P' o =
                    match Obj.postProcess w { P' with initialRoutes := rs } f
                        { o with
                          P := { P' with initialRoutes := rs }
                          iteration := st.iteration
                          noImprovement := st.noImprovement
                          bounds := st.bounds
                          hyper := st.hyper
                          tabu := st.dive.tabu
                          graphs := f.graphs } with
                    | .error e => .error e
                    | .ok o' => .ok (some o') := by
                  intro fuel hf
                  unfold Obj.columnGeneration
                  rw [hx fuel (le_trans (le_max_left _ _) hf)]
                  simp only [hm, hrun fuel hf, hr]
                  rfl
                refine ⟨_, hval, ?_⟩
                split <;> simp

/-- The same for a problem without preassigned routes. -/
theorem solve_total {w : World} {a : SolveArgs} {P0 : Vrp} {o : Obj} (hwf : P0.G.WF)
    (hcust : ∃ n, Node.cust n ∈ P0.G.nodes) (hdoc : CostsAsDocumented P0) (hdem : ∀ v ∈ P0.G.nodes, 0 ≤ userDemand P0.G v)
    (hpre : a.preassignments = []) (hc : Obj.create P0 = .ok o)
    (hloop : ∀ P' K N N3 fuel0 rs cols, o.P.startSolve w.dist a.strategy a.cspy a.initialRoutes a.preassignments = .ok P' →
      Searched P0 P' K N N3 →
      P'.initialize P'.G.toNet w.cw fuel0 = .ok (some ({ P' with initialRoutes := rs }, cols)) → Solve.Numbered cols →
      ∃ n, Solve.run (({ P' with initialRoutes := rs } : Vrp).solveCfg a w.falsy) w.toEnv a.dive o.graphs n
        (o.start a { P' with initialRoutes := rs } cols) ≠ .ok none) :
    ∃ n outcome, (∀ fuel, n ≤ fuel → o.solve w a fuel = outcome) ∧ outcome ≠ .ok none := by
  refine solve_ends (fun P' hs => ?_) (fun P' fuel0 rs cols hs hi hnum => ?_)
  · obtain ⟨K, N, N3, S⟩ := searched hwf hcust hdoc hdem hpre hc hs
    exact chooseInitial_total S w.cw
  · obtain ⟨K, N, N3, S⟩ := searched hwf hcust hdoc hdem hpre hc hs
    exact hloop P' K N N3 fuel0 rs cols hs S hi hnum

/-- Also with preassigned routes the choice of the initial routes ends. -/
theorem chooseInitial_locked {w : World} {a : SolveArgs} {P0 P' : Vrp} {o : Obj} (hwf : P0.G.WF)
    (hcust : ∃ n, Node.cust n ∈ P0.G.nodes) (hdoc : CostsAsDocumented P0)
    (hdem : ∀ v ∈ P0.G.nodes, P0.pickupDelivery = false ∨ v = .source ∨ v = .sink → 0 ≤ userDemand P0.G v)
    (hc : Obj.create P0 = .ok o)
    (hs : o.P.startSolve w.dist a.strategy a.cspy a.initialRoutes a.preassignments = .ok P') :
    ∃ n y, (∀ fuel, n ≤ fuel → P'.chooseInitial P'.G.toNet w.cw fuel = y) ∧ y ≠ .ok none := by
  obtain ⟨K, N, N3, _, S⟩ := searched_locked hwf hcust hdoc hdem hc hs
  exact chooseInitial_total S w.cw

/-- **C59**, cspy: `solve()` ends, with or without diving and preassigned routes, for every problem with time windows,
pickups and so on, without time or iteration limit, whatever the solvers answer.  More fuel does not change the outcome, so
that this is the outcome of the unbounded loop. -/
theorem C59_terminates_cspy {w : World} {a : SolveArgs} {P0 : Vrp} {o : Obj} (hwf : P0.G.WF)
    (hcust : ∃ n, Node.cust n ∈ P0.G.nodes) (hdoc : CostsAsDocumented P0)
    (hdem : ∀ v ∈ P0.G.nodes, P0.pickupDelivery = false ∨ v = .source ∨ v = .sink → 0 ≤ userDemand P0.G v)
    (hcspy : a.cspy = true) (hc : Obj.create P0 = .ok o) :
    ∃ n outcome, (∀ fuel, n ≤ fuel → o.solve w a fuel = outcome) ∧ outcome ≠ .ok none := by
  refine solve_ends (fun P' hs => chooseInitial_locked hwf hcust hdoc hdem hc hs) ?_
  intro P' fuel0 rs cols hs hi hnum
  obtain ⟨K, N, N3, _, S⟩ := searched_locked hwf hcust hdoc hdem hc hs
  have hN3 : P'.G.toNet = N3 := by
    have := S.graph
    simp only at this
    rw [this]
    rfl
  refine ⟨P'.G.toNet.arcLists.length + 1, Solve.run_cspy hcspy ?_ ?_ (by exact hnum) rfl (Nat.lt_succ_self _)⟩
  · show 0 < P'.vehicleTypes.getD 0
    have := S.types
    simp only at this
    rw [this]
    exact S.typesPos
  · intro u v hv
    have : v ∈ P'.G.toNet.succ u := hv
    show u ∈ P'.G.toNet.nodes
    rw [hN3] at this ⊢
    exact (S.wfSearch.edge_mem u v this).1

end Vrpy
