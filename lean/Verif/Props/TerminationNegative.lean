import Verif.Props.TerminationValue

/-!
# C59: with LP pricing and arcs of negative cost column generation need not end

The variables of the relaxed master problem are bounded by 1, the covering constraints say "at least once", and LP pricing
does not look whether a route was found before.  A route of negative cost is therefore worth finding again and again.
-/

namespace Vrpy

open Spec

namespace Solve

variable {cfg : SolveCfg} {env : Env}

/-- LP pricing uses the pool only to number the new column. -/
theorem price_any {t : Nat} {d : Duals} {k : Nat} {c : Column} (hcspy : cfg.cspy = false)
    (h : price cfg env t d k none [] .exact = .ok ([c], true)) (cols : List Column) :
    price cfg env t d k none cols .exact = .ok (cols ++ [{ c with name := .num (cols.length + 1) }], true) := by
  unfold price at h ⊢
  cases hs : subProblem cfg.M.G d k none (env.paths t) .exact with
  | error e => simp [hs] at h
  | ok x =>
    obtain ⟨w, S⟩ := x
    simp only [hs, hcspy, Bool.false_eq_true, if_false] at h ⊢
    generalize (PricingLP.mk S.G w k cfg.caps cfg.numStops cfg.duration cfg.timeWindows cfg.pickupDelivery
      cfg.distributionCollection (env.negCycle cfg.M.G w)) = q at h ⊢
    unfold PricingLP.solve at h ⊢
    split at h
    · cases h
    rename_i hrun
    rw [if_neg hrun]
    cases hf : q.formulate with
    | error e => simp [hf] at h
    | ok p =>
      simp only [hf] at h ⊢
      cases hz : (env.pricing t p).objective with
      | none => simp [hz] at h
      | some z =>
        simp only [hz] at h ⊢
        split at h
        · rename_i hneg
          rw [if_pos hneg]
          unfold PricingLP.addRoute at h ⊢
          cases hc : sumEdgeCosts q.G q.vehicleType (q.chosen (env.pricing t p).point) with
          | error e => simp [hc] at h
          | ok x =>
            simp only [hc] at h ⊢
            by_cases hk : ((q.chosen (env.pricing t p).point).any
                fun e => decide (e.1 ≠ Node.source ∧ e.1 ∉ cfg.keys)) = true
            · simp only [if_pos hk] at h
              cases h
            · simp only [if_neg hk, List.nil_append, Except.ok.injEq, Prod.mk.injEq, List.cons.injEq, and_true] at h ⊢
              rw [← h]
        · cases h

/-- All columns cost less than 0 and visit customer 1; the last value, if there is one, is larger than that of the pool. -/
structure Sinking (st : SolveState) : Prop where
  same : st.mcols = st.cols
  some : st.cols ≠ []
  more : st.more = true
  cost : ∀ c ∈ st.cols, c.cost < 0 ∧ c.visited false = [.cust 1]
  last : st.iteration = 0 ∨ ∃ x, st.bounds.getLast? = Option.some x ∧ (st.cols.map Column.cost).sum < x

/-- The problem has one customer and no options; exact pricing. -/
structure Plain (cfg : SolveCfg) : Prop where
  customers : cfg.M.G.customers = [.cust 1]
  drop : cfg.M.dropPenalty = 0
  fleet : cfg.M.numVehicles = []
  periodic : cfg.M.periodic = false
  span : cfg.M.globalSpan = false
  types : cfg.K = 1
  pricing : cfg.pricing = .fixed .exact
  cspy : cfg.cspy = false
  greedy : cfg.greedy = false
  limit : cfg.maxIter = 0

/-- The dual values of these problems. -/
def noDuals : Duals := ⟨[(.cust 1, 0)], none, []⟩

/-- Taking all columns is optimal. -/
theorem ones_optimal (hcfg : Plain cfg) {cols : List Column} (hne : cols ≠ [])
    (hc : ∀ c ∈ cols, c.cost < 0 ∧ c.visited false = [.cust 1]) : (cfg.M.lp cols true).Optimal (fun _ => 1) := by
  have hdrops : cfg.M.drops = [] := by simp [Master.drops, hcfg.drop]
  have hdum : cfg.M.dummies = [] := by simp [Master.dummies, hcfg.periodic]
  refine ⟨⟨(lp_vars hcfg.span).2 ⟨fun _ _ => by norm_num, ?_, ?_, ?_⟩, (lp_constrs hcfg.span).2 ⟨?_, ?_⟩⟩, ?_⟩
  · rw [hdrops]
    exact fun v hv => (by cases hv)
  · rw [hdum]
    exact fun v hv => (by cases hv)
  · exact fun _ _ => by norm_num
  · intro v hv
    rw [hcfg.customers, List.mem_singleton] at hv
    subst hv
    show (if cfg.M.periodic then _ else _) ≤ _
    rw [visit_eval _ _ hcfg.span, hdrops, hdum, hcfg.periodic]
    obtain ⟨c, l, rfl⟩ := List.exists_cons_of_ne_nil hne
    have h1 := (hc c List.mem_cons_self).2
    have h2 : 0 ≤ (l.map (fun c => ((c.visited false).count (Node.cust 1) : ℚ) * 1)).sum :=
      List.sum_nonneg (fun x hx => by obtain ⟨c, _, rfl⟩ := List.mem_map.1 hx; positivity)
    simp only [List.map_cons, List.sum_cons, h1]
    simp only [List.not_mem_nil, if_false, eval_nil, Bool.false_eq_true]
    simp only [List.count_singleton_self]
    norm_num
    simpa using h2
  · intro _ k n hk
    rw [hcfg.fleet] at hk
    cases hk
  · intro q hq
    obtain ⟨hy, _⟩ := (lp_vars hcfg.span).1 hq.vars
    rw [objective_eval _ _ hcfg.span, objective_eval _ _ hcfg.span, hdrops, hdum, hcfg.fleet]
    simp only [List.map_nil, List.sum_nil, List.length_nil, List.range_zero, add_zero]
    refine List.sum_le_sum (fun c hcc => ?_)
    nlinarith [(hc c hcc).1, (hy c hcc).2]

/-- One iteration: the route is found once more. -/
theorem sinking_step (hcfg : Plain cfg) {c : Column} (hcost : c.cost < 0) (hvis : c.visited false = [.cust 1])
    (hmaster : ∀ t cols, (cfg.M.lp cols true).Optimal (fun _ => 1) →
      env.master t (cfg.M.lp cols true) = ⟨true, fun _ => 1, fun _ => 0, fun _ => 0, fun _ => 0⟩)
    (hprice : ∀ t, price cfg env t noDuals 0 none [] .exact = .ok ([c], true)) {st : SolveState} (hst : Sinking st) :
    ∃ st', findColumns cfg env false st = .ok st' ∧ Sinking st' ∧ st'.noImprovement = 0 := by
  have hopt := ones_optimal hcfg hst.some hst.cost
  have hans := hmaster st.tick st.cols hopt
  have hd : ∀ a : Master.Answer, (∀ v, a.visitDual v = 0) → cfg.M.duals st.cols a = noDuals := by
    intro a ha
    simp [Master.duals, noDuals, hcfg.customers, hcfg.fleet, hcfg.span, ha]
  have hval : (cfg.M.objective st.cols).eval (fun _ => 1) = (st.cols.map Column.cost).sum := by
    have := objective_eval cfg.M st.cols hcfg.span (fun _ => 1)
    simpa [Master.lp, Master.drops, Master.dummies, hcfg.drop, hcfg.periodic, hcfg.fleet] using this
  have hm : solveMaster cfg env false st = .ok (noDuals, (st.cols.map Column.cost).sum,
      { st with point := fun _ => 1, solved := st.mcols.map Column.name, tick := st.tick + 1 }) := by
    simp only [solveMaster, Bool.false_eq_true, if_false, solveRelaxed, hst.same, hans, if_true, hval]
    rw [hd _ (fun _ => rfl)]
  obtain ⟨hst1, hst2, hst3, hst4, hst5⟩ := hst
  set cnew : Column := { c with name := .num (st.cols.length + 1) } with hcn
  have hadd : cfg.M.addColumn cnew = .ok () := by
    have : cnew.visited false = [.cust 1] := hvis
    simp [Master.addColumn, hcfg.span, hcfg.periodic, this, hcfg.customers]
  have hns : ∀ s : SolveState, nextStrategy cfg env s (st.cols.map Column.cost).sum = .ok (.exact, s) := by
    intro s
    simp [nextStrategy, hcfg.pricing]
  have hgr : ∀ (d : Duals) (k : Nat) (s : SolveState), greedyPhase cfg env d k s = .ok s := by
    intro d k s
    simp [greedyPhase, usesGreedy, hcfg.greedy]
  have hjobs : jobs cfg .exact st.cols = [(none, .exact)] := by
    simp [jobs, hcfg.span, strategies, hcfg.pricing]
  have hv : vehicleLoop cfg env noDuals .exact (List.range cfg.K)
      { st with point := fun _ => 1, solved := st.mcols.map Column.name, tick := st.tick + 1 } =
      .ok { st with
        cols := st.cols ++ [cnew]
        mcols := st.mcols ++ [cnew]
        labels := dset st.labels cnew.name .exact
        more := true
        point := fun _ => 1
        solved := st.mcols.map Column.name
        tick := st.tick + 1 + 1 } := by
    rw [hcfg.types]
    simp only [List.range_one, vehicleLoop, hgr, hjobs, priceAll, price_any hcfg.cspy (hprice _), register,
      List.getLast?_append, List.getLast?_singleton, Option.some_or, addToMaster]
    rw [← hcn, hadd]
  have hsum : ((st.cols ++ [cnew]).map Column.cost).sum < (st.cols.map Column.cost).sum := by
    simp only [List.map_append, List.sum_append, List.map_cons, List.map_nil, List.sum_cons, List.sum_nil]
    have : cnew.cost < 0 := hcost
    linarith
  have hcols : ∀ c' ∈ st.cols ++ [cnew], c'.cost < 0 ∧ c'.visited false = [.cust 1] := by
    intro c' hc'
    rcases List.mem_append.1 hc' with h | h
    · exact hst4 c' h
    · rw [List.mem_singleton] at h
      subst h
      exact ⟨hcost, hvis⟩
  refine ⟨{ st with
    cols := st.cols ++ [cnew]
    mcols := st.mcols ++ [cnew]
    labels := dset st.labels cnew.name .exact
    more := true
    point := fun _ => 1
    solved := st.mcols.map Column.name
    tick := st.tick + 1 + 1
    iteration := st.iteration + 1
    bounds := st.bounds ++ [(st.cols.map Column.cost).sum]
    noImprovement := 0 }, ?_, ?_, rfl⟩
  · simp only [findColumns, hm, hns, hv, bind, Except.bind, count, Bool.false_eq_true, if_false]
    by_cases h0 : st.iteration = 0
    · rw [if_neg (by omega)]
    · obtain ⟨x, hx, hlt⟩ := hst5.resolve_left h0
      rw [if_pos (by omega)]
      simp only [hx, if_neg (ne_of_lt hlt)]
  · exact ⟨by simp [hst1], by simp, rfl, hcols, Or.inr ⟨_, List.getLast?_concat .., hsum⟩⟩

/-- It never ends. -/
theorem sinking_forever (hcfg : Plain cfg) {c : Column} (hcost : c.cost < 0) (hvis : c.visited false = [.cust 1])
    (hmaster : ∀ t cols, (cfg.M.lp cols true).Optimal (fun _ => 1) →
      env.master t (cfg.M.lp cols true) = ⟨true, fun _ => 1, fun _ => 0, fun _ => 0, fun _ => 0⟩)
    (hprice : ∀ t, price cfg env t noDuals 0 none [] .exact = .ok ([c], true)) (htime : ∀ t, env.timeUp t = false)
    (fuel : Nat) {st : SolveState} (hst : Sinking st) : columnGeneration cfg env false fuel st = .ok none := by
  induction fuel generalizing st with
  | zero => simp [columnGeneration, hst.more]
  | succ n ih =>
    obtain ⟨st', h1, h2, h3⟩ := sinking_step hcfg hcost hvis hmaster hprice hst
    have hl : limitReached cfg st' = false := by simp [limitReached, h3, hcfg.limit]
    simp only [columnGeneration, hst.more, if_true, h1, htime, hl, Bool.or_false, Bool.false_eq_true, if_false]
    exact ih h2

end Solve

/-! ## A problem -/

/-- One customer; the way to it is worth 5. -/
def negPlan : Vrp where
  G := {
    nodes := [.source, .cust 1, .sink]
    nd := fun _ => {}
    succ := fun u => match u with
      | .source => [.cust 1]
      | .cust 1 => [.sink]
      | _ => []
    ed := fun u _ => { cost := some (.scalar (if u = .source then -5 else 0)) } }

def negArgs : SolveArgs := { strategy := "Exact", cspy := false, initialRoutes := [routeOf [.cust 1]] }

/-- The graph searched. -/
def negNet : Net where
  nodes := [.source, .cust 1, .sink]
  succ := fun u => match u with
    | .source => [.cust 1, .sink]
    | .cust 1 => [.sink]
    | _ => []
  cost := fun u v => if u = .source ∧ v = .cust 1 then [-5] else [0]

theorem negNet_wf : WellFormed negNet where
  nodes_nodup := by decide
  succ_nodup := by intro u; simp only [negNet]; split <;> decide
  edge_mem := by
    intro u v hv
    simp only [negNet] at hv ⊢
    split at hv <;> simp at hv <;> (try rcases hv with rfl | rfl) <;> decide
  source_mem := by decide
  sink_mem := by decide
  no_into_source := by
    intro u
    simp only [negNet]
    split <;> decide
  no_out_of_sink := by decide

/-- The pricing problem. -/
def negPricing : PricingLP where
  G := negNet
  weight := fun u v => (negNet.cost u v).getD 0 0
  negCycle := false

def negPoint : PVar → ℚ
  | .x .source (.cust 1) => 1
  | .x (.cust 1) .sink => 1
  | _ => 0

theorem negPoint_optimal : (negPricing.lp 0).Optimal negPoint := by
  refine optimal_of_routes (q := negPricing) negNet_wf rfl rfl ?_ rfl rfl ?_ ?_ rfl ?_ ?_ ?_
  · exact ⟨fun _ _ => le_refl _, fun _ _ _ => by simp [negPricing, negNet], fun h => (by cases h)⟩
  · exact noNegativeCycle_brute negNet_wf (by decide +kernel)
  · intro _
    decide +kernel
  · exact feasible_of _ _ (by decide +kernel)
  · decide +kernel
  · decide +kernel

open Classical in
/-- An exact solver of the master problems; it prefers to take everything, and then all dual values are 0. -/
noncomputable def negMaster : Nat → LP MVar → Master.Answer := fun t prob =>
  if prob.Optimal (fun _ => 1) then ⟨true, fun _ => 1, fun _ => 0, fun _ => 0, fun _ => 0⟩ else exactMaster t prob

theorem negMaster_exact : RelaxedExact negMaster := by
  intro t M cols h
  unfold negMaster at h ⊢
  by_cases ho : (M.lp cols true).Optimal (fun _ => 1)
  · rw [if_pos ho]
    exact ho
  · rw [if_neg ho] at h ⊢
    exact exactMaster_exact t M cols h

noncomputable def negWorld : World :=
  { exLpWorld with
    master := negMaster
    pricing := fun _ => knownSolver [(negPricing.lp 0, negPoint)] }

/-- What is found by computing: the run starts as it should, and pricing finds a route. -/
noncomputable def negCheck : Bool :=
  match Obj.create negPlan with
  | .error _ => false
  | .ok o =>
    match o.P.startSolve negWorld.dist negArgs.strategy negArgs.cspy negArgs.initialRoutes negArgs.preassignments with
    | .error _ => false
    | .ok P =>
      match P.initialize P.G.toNet negWorld.cw 0 with
      | .ok (some (P', cols)) =>
        let cfg := P'.solveCfg negArgs negWorld.falsy
        match P'.master.create cols, Solve.price cfg negWorld.toEnv 0 Solve.noDuals 0 none [] .exact with
        | .ok _, .ok ([c], true) =>
          decide (c.cost < 0 ∧ c.visited false = [.cust 1]) &&
          decide (cols ≠ [] ∧ ∀ c ∈ cols, c.cost < 0 ∧ c.visited false = [.cust 1]) &&
          decide (cfg.M.G.customers = [.cust 1] ∧ cfg.M.dropPenalty = 0 ∧ cfg.M.numVehicles = [] ∧ cfg.M.periodic = false ∧
            cfg.M.globalSpan = false ∧ cfg.K = 1 ∧ cfg.pricing = .fixed .exact ∧ cfg.cspy = false ∧ cfg.greedy = false ∧
            cfg.maxIter = 0 ∧ P'.moreRoutes = true ∧ o.iteration = 0 ∧ P.initialRoutes ≠ [])
        | _, _ => false
      | _ => false

theorem negCheck_ok : negCheck = true := by decide +kernel

/-- **C59 fails for LP pricing if routes cost less than 0**, although the solvers of the master problems and of the pricing
problems are exact: without time or iteration limit `solve()` never returns.  (With cspy it does, `C59_terminates_cspy`.) -/
theorem C59_negative_counterexample : negPlan.G.WF ∧ CostsAsDocumented negPlan ∧
    (∀ v ∈ negPlan.G.nodes, 0 ≤ userDemand negPlan.G v) ∧ RelaxedExact negWorld.master ∧
    (∀ t, SolverExact (negWorld.pricing t) ∧ SolverSound (negWorld.pricing t)) ∧
    ∃ o, Obj.create negPlan = .ok o ∧ ∀ fuel, o.solve negWorld negArgs fuel = .ok none := by
  refine ⟨?_, fun _ u v _ => ⟨_, Or.inl rfl⟩, by decide +kernel, negMaster_exact, fun t => knownSolver_ok ?_, ?_⟩
  · refine ⟨by decide, ?_, ?_⟩
    · intro u; simp only [negPlan]; split <;> decide
    · intro u v hv
      simp only [negPlan] at hv ⊢
      split at hv <;> simp at hv <;> subst hv <;> decide
  · intro k hk
    rw [List.mem_singleton] at hk
    subst hk
    exact negPoint_optimal
  have hok := negCheck_ok
  unfold negCheck at hok
  cases ho : Obj.create negPlan with
  | error e => simp only [ho] at hok; cases hok
  | ok o =>
  refine ⟨o, rfl, fun fuel => ?_⟩
  simp only [ho] at hok
  unfold Obj.solve
  cases hs : o.P.startSolve negWorld.dist negArgs.strategy negArgs.cspy negArgs.initialRoutes negArgs.preassignments with
  | error e => simp only [hs] at hok; cases hok
  | ok P =>
  simp only [hs] at hok ⊢
  rw [if_neg (by decide)]
  unfold Obj.columnGeneration
  cases hi : P.initialize P.G.toNet negWorld.cw 0 with
  | error e => simp only [hi] at hok; cases hok
  | ok x =>
  cases x with
  | none => simp only [hi] at hok; cases hok
  | some x =>
  obtain ⟨P', cols⟩ := x
  simp only [hi] at hok
  cases hm : P'.master.create cols with
  | error e => simp only [hm] at hok; cases hok
  | ok u =>
  cases hp : Solve.price (P'.solveCfg negArgs negWorld.falsy) negWorld.toEnv 0 Solve.noDuals 0 none [] .exact with
  | error e => simp only [hm, hp] at hok; cases hok
  | ok x =>
  obtain ⟨l, b⟩ := x
  rcases l with _ | ⟨c, _ | ⟨c', l⟩⟩
  · simp only [hm, hp] at hok; cases hok
  · cases b with
    | false => simp only [hm, hp] at hok; cases hok
    | true =>
    simp only [hm, hp, Bool.and_eq_true, decide_eq_true_eq] at hok
    obtain ⟨⟨⟨h1, h2⟩, h3, h4⟩, e1, e2, e3, e4, e5, e6, e7, e8, e9, e10, e11, e12, e13⟩ := hok
    have hif : P.initialize P.G.toNet negWorld.cw fuel = .ok (some (P', cols)) := by
      rw [← hi]
      simp only [Vrp.initialize, Vrp.chooseInitial, if_pos e13]
    simp only [hif, hm]
    have hrun : Solve.run (P'.solveCfg negArgs negWorld.falsy) negWorld.toEnv negArgs.dive o.graphs fuel
        (o.start negArgs P' cols) = .ok none := by
      unfold Solve.run
      rw [Solve.sinking_forever ⟨e1, e2, e3, e4, e5, e6, e7, e8, e9, e10⟩ h1 h2 (fun t cols h => if_pos h) (fun t => hp)
        (fun _ => rfl) fuel ⟨rfl, h3, e11, h4, Or.inl e12⟩]
    rw [hrun]
  · simp only [hm, hp] at hok; cases hok

end Vrpy
