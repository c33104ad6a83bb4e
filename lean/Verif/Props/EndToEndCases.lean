import Verif.Proofs.Brute
import Verif.Props.EndToEndLP

/-!
# Examples for C55 and C59, and the counterexample for pricing by LP
-/

namespace Vrpy

open Spec

theorem ite_nonneg' {p : Prop} [Decidable p] {x y : ℚ} (hx : 0 ≤ x) (hy : 0 ≤ y) : 0 ≤ if p then x else y := by
  split <;> assumption

/-! ## A cycle with reduced cost 0 -/

/-- Four customers; driving from 1 to 4 is cheap; one may drive from 2 to 3 and back. -/
def cxPlan : Vrp where
  G := {
    nodes := [.source, .cust 1, .cust 2, .cust 3, .cust 4, .sink]
    nd := fun _ => {}
    succ := fun u => match u with
      | .source => [.cust 1, .cust 2, .cust 3, .cust 4]
      | .cust 1 => [.cust 4, .sink]
      | .cust 2 => [.cust 3, .sink]
      | .cust 3 => [.cust 2, .sink]
      | .cust 4 => [.sink]
      | _ => []
    ed := fun u v => { cost := some (.scalar (
      if u = .cust 1 ∧ v = .cust 4 then 1
      else if (u = .cust 2 ∧ v = .cust 3) ∨ (u = .cust 3 ∧ v = .cust 2) then 10
      else if u = .cust 1 ∨ u = .cust 4 ∨ v = .cust 1 ∨ v = .cust 4 then 10
      else 5)) } }

theorem cxPlan_capacitated : Capacitated cxPlan where
  wf := by
    refine ⟨by decide, ?_, ?_⟩
    · intro u; simp only [cxPlan]; split <;> decide
    · intro u v hv
      simp only [cxPlan] at hv ⊢
      split at hv <;> simp at hv <;> (try rcases hv with rfl | rfl | rfl | rfl) <;> (try rcases hv with rfl | rfl) <;>
        (try subst hv) <;> decide
  customer := ⟨1, by decide⟩
  costs := fun _ u v _ => ⟨_, Or.inl rfl⟩
  demand := by decide +kernel
  service := by decide +kernel
  timeWindows := rfl
  pickupDelivery := rfl
  distributionCollection := rfl
  periodic := rfl
  oneCapacity := by decide +kernel

def cxArgs : SolveArgs :=
  { initialRoutes := [routeOf [.cust 1], routeOf [.cust 4], routeOf [.cust 2, .cust 3]], strategy := "Exact", cspy := false }

/-- The graph searched. -/
def cxNet : Net where
  nodes := [.source, .cust 1, .cust 2, .cust 3, .cust 4, .sink]
  succ := fun u => match u with
    | .source => [.cust 1, .cust 2, .cust 3, .cust 4, .sink]
    | .cust 1 => [.cust 4, .sink]
    | .cust 2 => [.cust 3, .sink]
    | .cust 3 => [.cust 2, .sink]
    | .cust 4 => [.sink]
    | _ => []
  cost := fun u v =>
    if u = .source ∧ v = .sink then [0]
    else if u = .cust 1 ∧ v = .cust 4 then [1]
    else if (u = .cust 2 ∧ v = .cust 3) ∨ (u = .cust 3 ∧ v = .cust 2) then [10]
    else if u = .cust 1 ∨ u = .cust 4 ∨ v = .cust 1 ∨ v = .cust 4 then [10]
    else [5]

theorem cxNet_wf : WellFormed cxNet where
  nodes_nodup := by decide
  succ_nodup := by intro u; simp only [cxNet]; split <;> decide
  edge_mem := by
    intro u v hv
    simp only [cxNet] at hv ⊢
    split at hv <;> simp at hv <;> (try rcases hv with rfl | rfl | rfl | rfl | rfl) <;> (try rcases hv with rfl | rfl) <;>
      (try subst hv) <;> decide
  source_mem := by decide
  sink_mem := by decide
  no_into_source := by
    intro u
    simp only [cxNet]
    split <;> decide
  no_out_of_sink := by decide

/-- Dual values: before and after the column with the cycle is found. -/
def cxDual (second : Bool) (v : Node) : ℚ :=
  if v = .cust 1 ∨ v = .cust 4 then (if second then 21 / 2 else 20)
  else if v = .cust 2 ∨ v = .cust 3 then 10 else 0

/-- The two pricing problems. -/
def cxPricing (second : Bool) : PricingLP where
  G := cxNet
  weight := fun u v => (cxNet.cost u v).getD 0 0 - cxDual second u
  negCycle := false

/-- Optimal points: one selects the arcs of a route and of a cycle. -/
def cxPoint (second : Bool) : PVar → ℚ
  | .x .source (.cust 1) => 1
  | .x (.cust 1) (.cust 4) => 1
  | .x (.cust 4) .sink => 1
  | .x (.cust 2) (.cust 3) => if second then 0 else 1
  | .x (.cust 3) (.cust 2) => if second then 0 else 1
  | _ => 0

theorem cxPoint_optimal (b : Bool) : ((cxPricing b).lp 0).Optimal (cxPoint b) := by
  refine optimal_of_routes (q := cxPricing b) cxNet_wf rfl rfl ?_ rfl rfl ?_ ?_ rfl ?_ ?_ ?_
  · exact ⟨fun _ _ => le_refl _, fun _ _ _ => by simp [cxPricing, cxNet], fun h => (by cases h)⟩
  · refine noNegativeCycle_brute cxNet_wf ?_
    revert b
    decide +kernel
  · intro _
    revert b
    decide +kernel
  · refine feasible_of _ _ ?_
    revert b
    decide +kernel
  · revert b
    decide +kernel
  · revert b
    decide +kernel

/-- The master problem's solver of the example. -/
def cxSolver (prob : LP MVar) : Master.Answer :=
  let second := prob.vars.any (fun d => d.var = .y (.num 4))
  let pt : MVar → ℚ :=
    if second then fun x => if x = .y (.num 4) then 1 else 0
    else fun x => if x = .y (.num 1) ∨ x = .y (.num 2) ∨ x = .y (.num 3) then 1 else 0
  { optimal := decide ((∀ d ∈ prob.vars, d.Holds pt) ∧ ∀ c ∈ prob.constrs, c.Holds pt), point := pt,
    visitDual := cxDual second, fleetDual := fun _ => 0, spanDual := fun _ => 0 }

theorem cxSolver_sound : MasterSolverSound cxSolver := by
  intro prob h
  exact feasible_of _ _ (of_decide_eq_true h)

/-- The edges of the column with the cycle. -/
def cxEdges : List (Node × Node) :=
  [(.source, .cust 1), (.cust 1, .cust 4), (.cust 4, .sink), (.cust 2, .cust 3), (.cust 3, .cust 2)]

/-- A shortest path in a column. -/
noncomputable def cxPath (c : Column) : List Node :=
  if c.edges = cxEdges then routeOf [.cust 1, .cust 4] else exSomePath c.edges

theorem cxPath_ok (c : Column) (p : List Node) (h : IsShortestPath c.edges p) : IsShortestPath c.edges (cxPath c) := by
  unfold cxPath
  split
  · rename_i he
    rw [he]
    refine ⟨⟨rfl, rfl, by simp [routeOf, Along, cxEdges]⟩, ?_⟩
    intro q ⟨h1, h2, h3⟩
    match q, h1, h2, h3 with
    | [a], h1, h2, _ => simp at h1 h2; simp [h1] at h2
    | [a, b], h1, h2, h3 => simp [cxEdges, Along] at h1 h2 h3; simp [h1, h2] at h3
    | [a, b, d], h1, h2, h3 =>
      simp [cxEdges, Along] at h1 h2 h3
      subst h1 h2
      obtain ⟨h3, h4⟩ := h3
      simp at h3
      subst h3
      simp at h4
    | _ :: _ :: _ :: _ :: _, _, _, _ => simp [routeOf]
  · unfold exSomePath
    rw [dif_pos ⟨p, h⟩]
    exact Exists.choose_spec ⟨p, h⟩

/-- The test for negative cycles, for small graphs; `strict`: cycles with weight 0 are reported, too. -/
def bruteNeg (strict : Bool) (G : Net) (w : Node → Node → ℚ) : Bool :=
  G.cycles.any (fun c => legSum w (c.1 :: c.2 ++ [c.1]) < 0 ∨ (strict ∧ legSum w (c.1 :: c.2 ++ [c.1]) = 0))

theorem bruteNeg_ok {G : Net} (hG : WellFormed G) {w : Node → Node → ℚ} (h : bruteNeg false G w = false) :
    NoNegativeCycle G w := by
  refine noNegativeCycle_brute hG fun c hc => ?_
  by_contra hlt
  have : bruteNeg false G w = true := List.any_eq_true.2 ⟨c, hc, by simpa using hlt⟩
  rw [h] at this
  cases this

theorem bruteNeg_strict {G : Net} (hG : WellFormed G) {w : Node → Node → ℚ} (h : bruteNeg true G w = false) :
    PositiveCycles G w := by
  refine positiveCycles_brute hG fun c hc => ?_
  by_contra hlt
  have : bruteNeg true G w = true := List.any_eq_true.2 ⟨c, hc, by
    have := le_iff_lt_or_eq.1 (not_lt.1 hlt)
    simpa using this⟩
  rw [h] at this
  cases this

noncomputable def cxWorld : World where
  master := fun _ => cxSolver
  pricing := fun _ => knownSolver [((cxPricing false).lp 0, cxPoint false), ((cxPricing true).lp 0, cxPoint true)]
  cspy := fun _ _ _ _ => none
  paths := fun _ => exPathsOracle
  rand := fun _ _ _ => 0
  negCycle := bruteNeg false
  timeUp := fun _ => false
  clock := fun _ => { runtime := 0, root := fun _ _ => 1 }
  pick := fun _ => 0
  solvable := fun _ _ => true
  dist := fun _ _ _ => 0
  cw := fun _ => CWOracle.exists_valid.choose
  path := cxPath
  schedule := fun _ => (false, fun _ => 0)

theorem cxWorld_ok : LpWorldOk NoNegativeCycle cxWorld :=
  have hk := knownSolver_ok (known := [((cxPricing false).lp 0, cxPoint false), ((cxPricing true).lp 0, cxPoint true)])
    (by
      intro k hk
      simp only [List.mem_cons, List.not_mem_nil, or_false] at hk
      rcases hk with rfl | rfl
      · exact cxPoint_optimal false
      · exact cxPoint_optimal true)
  { cw := fun _ => CWOracle.exists_valid.choose_spec
    master := fun _ => cxSolver_sound
    fleet := fun _ _ _ _ _ _ _ => le_refl _
    sound := fun _ => hk.2
    exact := fun _ => hk.1
    cycles := fun _ _ hG h => bruteNeg_ok hG h
    paths := fun _ => exPathsOracle_ok
    path := cxPath_ok }

theorem cxPlan_nonnegative : NonnegativeData cxPlan where
  service := fun _ _ => by simp [cxPlan]
  time := fun _ _ _ => by simp [cxPlan]
  cost := by
    intro k u v _
    simp only [userArcCost, cxPlan, userCost, userFixedCost]
    have h : ∀ x : ℚ, (x = 1 ∨ x = 10 ∨ x = 5) → 0 ≤ x := by rintro x (rfl | rfl | rfl) <;> norm_num
    refine ite_nonneg' (add_nonneg (h _ ?_) (by simp)) (ite_nonneg' (le_refl _) (by simp))
    repeat' (first | rfl | (split) | simp)

/-- **C55 fails for LP pricing** although all data are nonnegative and networkx, the master problem's solver and the
pricing problem's solver keep their promises: if there is a cycle with reduced cost 0, the test for negative cycles does
not notice it, ranks are not added to the pricing problem, and an optimal point may select the arcs of a route and of the
cycle.  The new column costs as much as both and counts as visiting all customers, the reported route leaves out those of
the cycle. -/
theorem C55_lp_counterexample : LpWorldOk NoNegativeCycle cxWorld ∧ Capacitated cxPlan ∧ NonnegativeData cxPlan ∧
    (∀ r ∈ cxArgs.initialRoutes, r.Nodup ∧ WithinStops cxPlan.numStops.stops (stops r).length) ∧
    planOf cxWorld cxArgs 5 cxPlan = .ok (some ⟨[(1, routeOf [.cust 1, .cust 4])], [(1, 0)], []⟩) ∧
    ∀ K, ¬ SolvesProblem cxPlan K ⟨[(1, routeOf [.cust 1, .cust 4])], [(1, 0)], []⟩ := by
  refine ⟨cxWorld_ok, cxPlan_capacitated, cxPlan_nonnegative, ?_, Solve.eq_ok_of_toOption (by decide +kernel), ?_⟩
  · intro r hr
    have : ∀ r ∈ cxArgs.initialRoutes, r.Nodup := by decide +kernel
    exact ⟨this r hr, fun m hm => (by cases hm)⟩
  · intro K h
    have := h.once 2 (by decide) (by decide)
    revert this
    decide

/-! ## Pricing by LP that works -/

/-- The graph searched for `exPlan`. -/
def lpNet : Net where
  nodes := [.source, .cust 1, .cust 2, .sink]
  succ := fun u => match u with
    | .source => [.cust 1, .cust 2, .sink]
    | .cust 1 => [.cust 2, .sink]
    | .cust 2 => [.sink]
    | _ => []
  demand := fun v => if v.isDepot then 0 else 2
  cost := fun u v =>
    if u = .source ∧ v = .sink then [0]
    else if u = .source then [13]
    else if v = .sink then [10]
    else [1]

theorem lpNet_wf : WellFormed lpNet where
  nodes_nodup := by decide
  succ_nodup := by intro u; simp only [lpNet]; split <;> decide
  edge_mem := by
    intro u v hv
    simp only [lpNet] at hv ⊢
    split at hv <;> simp at hv <;> (try rcases hv with rfl | rfl | rfl) <;> (try rcases hv with rfl | rfl) <;>
      (try subst hv) <;> decide
  source_mem := by decide
  sink_mem := by decide
  no_into_source := by
    intro u
    simp only [lpNet]
    split <;> decide
  no_out_of_sink := by decide

/-- Dual values: before and after the better route is found. -/
def lpDual (second : Bool) (v : Node) : ℚ := if v = .cust 1 ∨ v = .cust 2 then (if second then 12 else 23) else 0

/-- The two pricing problems. -/
def lpPricing (second : Bool) : PricingLP where
  G := lpNet
  weight := fun u v => (lpNet.cost u v).getD 0 0 - lpDual second u
  caps := [5]
  numStops := some 2
  negCycle := false

/-- The better route is optimal for both. -/
def lpPoint : PVar → ℚ
  | .x .source (.cust 1) => 1
  | .x (.cust 1) (.cust 2) => 1
  | .x (.cust 2) .sink => 1
  | _ => 0

theorem lpPoint_optimal (b : Bool) : ((lpPricing b).lp 5).Optimal lpPoint := by
  refine optimal_of_routes (q := lpPricing b) lpNet_wf rfl rfl ?_ rfl rfl ?_ ?_ rfl ?_ ?_ ?_
  · refine ⟨?_, fun _ _ _ => by simp [lpPricing, lpNet], fun h => (by cases h)⟩
    show ∀ v ∈ lpNet.nodes, 0 ≤ lpNet.demand v
    decide +kernel
  · refine noNegativeCycle_brute lpNet_wf ?_
    revert b
    decide +kernel
  · intro _
    revert b
    decide +kernel
  · refine feasible_of _ _ ?_
    revert b
    decide +kernel
  · revert b
    decide +kernel
  · revert b
    decide +kernel

/-- The master problem's solver of the example. -/
def exLpSolver (prob : LP MVar) : Master.Answer :=
  let second := prob.vars.any (fun d => d.var = .y (.num 3))
  let pt : MVar → ℚ :=
    if second then fun x => if x = .y (.num 3) then 1 else 0
    else fun x => if x = .y (.num 1) ∨ x = .y (.num 2) then 1 else 0
  { optimal := decide ((∀ d ∈ prob.vars, d.Holds pt) ∧ ∀ c ∈ prob.constrs, c.Holds pt), point := pt,
    visitDual := lpDual second, fleetDual := fun _ => 0, spanDual := fun _ => 0 }

theorem exLpSolver_sound : MasterSolverSound exLpSolver := by
  intro prob h
  exact feasible_of _ _ (of_decide_eq_true h)

noncomputable def exLpWorld : World where
  master := fun _ => exLpSolver
  pricing := fun _ => knownSolver [((lpPricing false).lp 5, lpPoint), ((lpPricing true).lp 5, lpPoint)]
  cspy := fun _ _ _ _ => none
  paths := fun _ => exPathsOracle
  rand := fun _ _ _ => 0
  negCycle := bruteNeg true
  timeUp := fun _ => false
  clock := fun _ => { runtime := 0, root := fun _ _ => 1 }
  pick := fun _ => 0
  solvable := fun _ _ => true
  dist := fun _ _ _ => 0
  cw := fun _ => CWOracle.exists_valid.choose
  path := exPath
  schedule := fun _ => (false, fun _ => 0)

theorem exLpWorld_ok : LpWorldOk PositiveCycles exLpWorld :=
  have hk := knownSolver_ok (known := [((lpPricing false).lp 5, lpPoint), ((lpPricing true).lp 5, lpPoint)])
    (by
      intro k hk
      simp only [List.mem_cons, List.not_mem_nil, or_false] at hk
      rcases hk with rfl | rfl
      · exact lpPoint_optimal false
      · exact lpPoint_optimal true)
  { cw := fun _ => CWOracle.exists_valid.choose_spec
    master := fun _ => exLpSolver_sound
    fleet := fun _ _ _ _ _ _ _ => le_refl _
    sound := fun _ => hk.2
    exact := fun _ => hk.1
    cycles := fun _ _ hG h => bruteNeg_strict hG h
    paths := fun _ => exPathsOracle_ok
    path := exPath_ok }

def exLpArgs : SolveArgs := { exArgs with strategy := "Exact", cspy := false }

theorem exPlan_nonnegative : NonnegativeData exPlan where
  service := by decide +kernel
  time := fun _ _ _ => by simp [exPlan]
  cost := by
    intro k u v _
    simp only [userArcCost, exPlan, userCost, userFixedCost]
    have h : ∀ x : ℚ, (x = 1 ∨ x = 10 ∨ x = 0 ∨ x = 3) → 0 ≤ x := by rintro x (rfl | rfl | rfl | rfl) <;> norm_num
    refine ite_nonneg' (add_nonneg (h _ ?_) (h _ ?_)) (ite_nonneg' (le_refl _) (add_nonneg (by norm_num) (h _ ?_)))
    all_goals split <;> simp

theorem exLpArgs_initial :
    ∀ r ∈ exLpArgs.initialRoutes, r.Nodup ∧ WithinStops exPlan.numStops.stops (stops r).length := by
  intro r hr
  have : ∀ r ∈ exLpArgs.initialRoutes, r.Nodup ∧ (stops r).length ≤ 2 := by decide +kernel
  refine ⟨(this r hr).1, ?_⟩
  intro m hm _
  have hm' : (2 : Nat) = m := by simpa [exPlan, PyVal.stops] using hm
  rw [← hm']
  exact (this r hr).2

/-- All hypotheses of `C55_lp_partial` hold for the example, and column generation finds the better route. -/
example : LpWorldOk PositiveCycles exLpWorld ∧ Capacitated exPlan ∧ NonnegativeData exPlan ∧
    (∀ r ∈ exLpArgs.initialRoutes, r.Nodup ∧ WithinStops exPlan.numStops.stops (stops r).length) ∧
    planOf exLpWorld exLpArgs 5 exPlan = .ok (some ⟨[(1, routeOf [.cust 1, .cust 2])], [(1, 0)], []⟩) :=
  ⟨exLpWorld_ok, exPlan_capacitated, exPlan_nonnegative, exLpArgs_initial, Solve.eq_ok_of_toOption (by decide +kernel)⟩

/-! ## The dual values on the way -/

/-- The condition holds for all states on the way. -/
def Solve.allStates (cfg : SolveCfg) (env : Env) (p : SolveState → Bool) : Nat → SolveState → Bool
  | 0, _ => false
  | n + 1, st => p st && (!st.more || match findColumns cfg env false st with
    | .error _ => true
    | .ok st' => Solve.allStates cfg env p n st')

theorem Solve.Trace.allStates {cfg : SolveCfg} {env : Env} {p : SolveState → Bool} {n m : Nat} {st stm : SolveState}
    (h : Solve.allStates cfg env p n st = true) (ht : Trace cfg env false st m stm) : p stm = true := by
  have : ∃ n', Solve.allStates cfg env p n' stm = true := by
    induction ht with
    | zero => exact ⟨n, h⟩
    | snoc _ hm _ hf ih =>
      obtain ⟨n', hn⟩ := ih
      cases n' with
      | zero => simp [Solve.allStates] at hn
      | succ n' =>
        simp only [Solve.allStates, hm, hf, Bool.not_true, Bool.false_or, Bool.and_eq_true] at hn
        exact ⟨n', hn.2⟩
  obtain ⟨n', hn⟩ := this
  cases n' with
  | zero => simp [Solve.allStates] at hn
  | succ n' =>
    simp only [Solve.allStates, Bool.and_eq_true] at hn
    exact hn.1

/-- A test for `Complementary`. -/
def complementary (M : Master) (cols : List Column) (a : Master.Answer) : Bool :=
  decide ((∀ d ∈ (M.lp cols true).vars, d.Holds a.point) ∧ (∀ c ∈ (M.lp cols true).constrs, c.Holds a.point)) &&
  decide (∀ c ∈ cols, reducedCost M a c < 0 → a.point (.y c.name) = 1) &&
  decide (∀ v ∈ M.G.customers, (M.visitConstr cols true v).rhs < (M.visitConstr cols true v).lhs.eval a.point →
    a.visitDual v = 0) &&
  decide (∀ k < M.numVehicles.length, a.fleetDual k ≤ 0) &&
  decide (∀ k < M.numVehicles.length, 0 < a.point (.bound k) → a.fleetDual k = -Master.big)

theorem complementary_ok {M : Master} {cols : List Column} {a : Master.Answer} (h : complementary M cols a = true) :
    Complementary M cols a := by
  simp only [complementary, Bool.and_eq_true, decide_eq_true_eq] at h
  obtain ⟨⟨⟨⟨h1, h2⟩, h3⟩, h4⟩, h5⟩ := h
  exact ⟨feasible_of _ _ h1, h2, h3, fun _ => h4, fun _ _ => h5⟩

/-- The states at the start of column generation, and the test for all states on the way. -/
def dualsOk (w : World) (a : SolveArgs) (n : Nat) (P : Vrp) : Bool :=
  match Obj.create P with
  | .error _ => false
  | .ok o =>
    match o.P.startSolve w.dist a.strategy a.cspy a.initialRoutes a.preassignments with
    | .error _ => false
    | .ok P' =>
      decide (P'.initialRoutes ≠ []) && match P'.initialize P'.G.toNet w.cw 0 with
      | .ok (some (P'', cols)) => Solve.allStates (P''.solveCfg a w.falsy) w.toEnv
          (fun st => complementary P''.master st.cols (w.master st.tick (P''.master.lp st.cols true))) n (o.start a P'' cols)
      | _ => false

/-- All hypotheses of `C59_terminates_lp_partial` (and of `C59_loop_lp_partial` inside) hold for the example. -/
example : ∃ o, Obj.create exPlan = .ok o ∧
    ∃ n outcome, (∀ fuel, n ≤ fuel → o.solve exLpWorld exLpArgs fuel = outcome) ∧ outcome ≠ .ok none := by
  have hok : dualsOk exLpWorld exLpArgs 5 exPlan = true := by decide +kernel
  unfold dualsOk at hok
  split at hok
  · cases hok
  rename_i o ho
  refine ⟨o, ho, C59_terminates_lp_partial exLpWorld_ok exPlan_capacitated exPlan_nonnegative (.plain rfl rfl) rfl rfl rfl rfl
    exLpArgs_initial ho ?_⟩
  intro P' P'' fuel cols m stm h1 h2 ht _
  rw [h1] at hok
  simp only [Bool.and_eq_true, decide_eq_true_eq] at hok
  have h2' : P'.initialize P'.G.toNet exLpWorld.cw 0 = .ok (some (P'', cols)) := by
    rw [← h2]
    unfold Vrp.initialize Vrp.chooseInitial
    simp only [hok.1, ne_eq, not_false_eq_true, if_true]
  rw [h2'] at hok
  exact complementary_ok (Solve.Trace.allStates hok.2 ht)

/-- `C59_terminates_cspy` needs no promise of any solver; this is the run of the example for C55. -/
example : ∃ o, Obj.create exPlan = .ok o ∧
    ∃ n outcome, (∀ fuel, n ≤ fuel → o.solve exWorld exArgs fuel = outcome) ∧ outcome ≠ .ok none := by
  have hok : (Obj.create exPlan).toOption.isSome = true := by decide +kernel
  cases ho : Obj.create exPlan with
  | error e => rw [ho] at hok; cases hok
  | ok o => exact ⟨o, rfl, C59_terminates_cspy exPlan_capacitated.wf exPlan_capacitated.customer exPlan_capacitated.costs
    (fun v hv _ => exPlan_capacitated.demand v hv) rfl ho⟩

end Vrpy
